import Verif.Model.SwarmRun
import Verif.Props.Swarm
import Verif.Props.DEOperators
import Verif.Props.Optimum
import Verif.Props.GaReal
import Verif.Props.SingleObjective
import Mathlib.Data.List.GetD

/-!
# C165. Runs of differential evolution and of the particle swarm
-/

set_option linter.unusedSimpArgs false
set_option linter.unusedVariables false
set_option linter.unusedSectionVars false

namespace Props
open Model Spec Lemmas

variable {K : Type*} [Field K] [LinearOrder K] [IsStrictOrderedRing K] {n : ℕ}

/-- Between the bounds. -/
def WithinBounds (xl xu x : Fin n → K) : Prop := ∀ j, xl j ≤ x j ∧ x j ≤ xu j

/-- The problem's violation is not negative, and zero exactly for the feasible points. -/
def ProblemOk (prob : Attrs (Fin n → K) K K 1) (hasConstraints : Bool) : Prop :=
  (∀ x, 0 ≤ prob.cv x ∧ (prob.feas x = true ↔ prob.cv x = 0)) ∧ (hasConstraints = false → ∀ x, prob.feas x = true)

/-- `y` is better than `x`, feasibility first. -/
def BetterSol (prob : Attrs (Fin n → K) K K 1) (y x : Sol K n) : Prop :=
  Beats (prob.F y.x) (prob.feas y.x) (prob.cv y.x) (prob.F x.x) (prob.feas x.x) (prob.cv x.x)

theorem solAttrs_ok {prob : Attrs (Fin n → K) K K 1} {hc : Bool} (h : ProblemOk prob hc) :
    Consistent (solAttrs prob) ∧ SameValues solNear (solAttrs prob) ∧ FlagOk (solAttrs prob) hc := by
  refine ⟨fun x => h.1 x.x, ?_, fun e x => h.2 e x.x⟩
  intro x y hxy
  have e : x.x = y.x := by simpa [solNear] using hxy
  simp [solAttrs, e]

theorem newSols_length (next : ℕ) (rows : List (Fin n → K)) : (newSols next rows).length = rows.length := by simp [newSols]

theorem newSols_x (next : ℕ) (rows : List (Fin n → K)) : (newSols next rows).map Sol.x = rows := by
  apply List.ext_getElem
  · simp [newSols]
  · intro i h1 h2
    simp [newSols]

theorem newSols_id (next : ℕ) (rows : List (Fin n → K)) : (newSols next rows).map Sol.id = (List.range rows.length).map (next + ·) := by
  apply List.ext_getElem
  · simp [newSols]
  · intro i h1 h2
    simp [newSols]

theorem newSols_nodup (next : ℕ) (rows : List (Fin n → K)) : (newSols next rows).Nodup := by
  apply List.Nodup.of_map Sol.id
  rw [newSols_id]
  exact List.nodup_range.map (fun a b h => by simpa using h)

/-- All of `l` lie within the bounds. -/
theorem newSols_within {xl xu : Fin n → K} (next : ℕ) (rows : List (Fin n → K)) (h : ∀ x ∈ rows, WithinBounds xl xu x) : ∀ s ∈ newSols next rows, WithinBounds xl xu s.x := by
  intro s hs
  apply h
  rw [← newSols_x next rows]
  exact List.mem_map_of_mem hs

/-- The serial numbers of the evaluated solutions are `0, 1, …`, each once. -/
theorem ids_step (evaluated off : List (Sol K n)) (rows : List (Fin n → K)) (hp : off.Perm (newSols evaluated.length rows))
    (he : (evaluated.map Sol.id).Perm (List.range evaluated.length)) :
    ((evaluated ++ off).map Sol.id).Perm (List.range (evaluated ++ off).length) := by
  rw [List.map_append, List.length_append, hp.length_eq, newSols_length, List.range_add]
  refine List.Perm.append he ?_
  rw [← newSols_id]
  exact hp.map _

/-! ### Differential evolution -/

/-- The random choices of a generation are what the code can draw: positions of members, numbers of `[0, 1]`, `CR` in `[0, 1]`, a permutation; the
mutation keeps the number of points and stays within the bounds. -/
structure DeDrawOk (xl xu : Fin n → K) (nOff popSize : ℕ) (d : DeDraw K n) : Prop where
  pos : ∀ k < nOff, (d.rows k).base < popSize ∧ ∀ p ∈ (d.rows k).diffs, p.1 < popSize ∧ p.2.1 < popSize
  u1 : ∀ k j, 0 ≤ (d.rows k).u1 j ∧ (d.rows k).u1 j ≤ 1
  u2 : ∀ k j, 0 ≤ (d.rows k).u2 j ∧ (d.rows k).u2 j ≤ 1
  cr : ∀ k, 0 ≤ (d.rows k).CR ∧ (d.rows k).CR ≤ 1
  cross : ∀ k, (∀ w, (d.rows k).cross = .line w → 0 ≤ w ∧ w ≤ 1) ∧ ∀ w, (d.rows k).cross = .hypercube w → ∀ j, 0 ≤ w j ∧ w j ≤ 1
  mutate : ∀ rows, (∀ x ∈ rows, WithinBounds xl xu x) → (d.mutate rows).length = rows.length ∧ ∀ x ∈ d.mutate rows, WithinBounds xl xu x
  perm : d.perm.Perm (List.range nOff)

theorem deTrialRows_ok (xl xu : Fin n → K) (X : List (Fin n → K)) (nOff : ℕ) (hn : nOff ≤ X.length) (hX : ∀ x ∈ X, WithinBounds xl xu x) (d : DeDraw K n)
    (hd : DeDrawOk xl xu nOff X.length d) :
    ∃ rows, deTrialRows xl xu X nOff d.rows = some rows ∧ rows.length = nOff ∧ ∀ x ∈ rows, WithinBounds xl xu x := by
  unfold deTrialRows
  rw [if_pos ⟨hn, hd.pos⟩]
  refine ⟨_, rfl, by simp, ?_⟩
  have hat : ∀ i, i < X.length → WithinBounds xl xu (X.getD i fun _ => 0) := by
    intro i hi
    rw [List.getD_eq_getElem _ _ hi]
    exact hX _ (List.getElem_mem _)
  intro x hx
  obtain ⟨i, rfl⟩ := List.mem_ofFn.1 hx
  intro j
  have := C50_de_in_bounds (fun i : Fin nOff => X.getD i fun _ => 0) (fun i => X.getD (d.rows i).base fun _ => 0)
    (fun i => (d.rows i).diffs.map fun p => (X.getD p.1 fun _ => 0, X.getD p.2.1 fun _ => 0, p.2.2)) (fun i => (d.rows i).F) (fun i => (d.rows i).CR) xl xu
    (fun i => (d.rows i).u1) (fun i => (d.rows i).u2) (fun i => (d.rows i).cross) (fun i j => hat _ (by omega) j) (fun i j => hat _ (hd.pos i i.2).1 j)
    (fun i j => hd.u1 i j) (fun i j => hd.u2 i j) (fun i => hd.cr i) (fun i => hd.cross i) i j
  exact ⟨this.1, this.2.1⟩

/-- What holds after every generation. -/
structure DeInv (prob : Attrs (Fin n → K) K K 1) (xl xu : Fin n → K) (popSize : ℕ) (s : DeState K n) : Prop where
  size : s.pop.length = popSize
  sub : ∀ x ∈ s.pop, x ∈ s.evaluated
  within : ∀ x ∈ s.evaluated, WithinBounds xl xu x.x
  ids : (s.evaluated.map Sol.id).Perm (List.range s.evaluated.length)
  next : s.next = s.evaluated.length
  best : ∀ y ∈ s.evaluated, ∃ x ∈ s.pop, isBetter (solAttrs prob) y x 0 = false

theorem deSolStep_ok (prob : Attrs (Fin n → K) K K 1) (hc : Bool) (hp : ProblemOk prob hc) (xl xu : Fin n → K) (nOff popSize : ℕ) (hn : nOff ≤ popSize)
    (s : DeState K n) (hs : DeInv prob xl xu popSize s) (d : DeDraw K n) (hd : DeDrawOk xl xu nOff popSize d) :
    ∃ s', deSolStep prob hc xl xu nOff popSize s d = some s' ∧ DeInv prob xl xu popSize s' ∧ s'.evaluated.length = s.evaluated.length + nOff ∧
      (∃ off, s'.evaluated = s.evaluated ++ off) ∧
      ∀ (i : ℕ) (x x' : Sol K n), s.pop[i]? = some x → s'.pop[i]? = some x' → x' = x ∨ isBetter (solAttrs prob) x' x 0 = true := by
  obtain ⟨a1, a2, a3⟩ := solAttrs_ok hp
  obtain ⟨rows, r1, r2, r3⟩ := deTrialRows_ok xl xu (s.pop.map Sol.x) nOff (by rw [List.length_map, hs.size]; exact hn)
    (by intro x hx; obtain ⟨y, hy, rfl⟩ := List.mem_map.1 hx; exact hs.within y (hs.sub y hy)) d (by rw [List.length_map, hs.size]; exact hd)
  obtain ⟨m1, m2⟩ := hd.mutate rows r3
  set trials := newSols s.next (d.mutate rows) with ht
  have htl : trials.length = nOff := by rw [ht, newSols_length, m1, r2]
  have hg : GenOk nOff (trials, d.perm) := ⟨htl, newSols_nodup _ _, hd.perm⟩
  obtain ⟨off, I, i1, i2, i3, i4⟩ := deInfill_ok s.pop nOff popSize (trials, d.perm) hg (by rw [hs.size]; exact hn)
  have hperm : off.Perm trials := off_perm_trials trials off I i2 (by rw [htl]; exact i3) i4
  obtain ⟨pop', p1, p2, p3, p4⟩ := C72_de solNear (solAttrs prob) a1 a2 hc a3 nOff popSize s.pop (by rw [hs.size]; exact hn) [(trials, d.perm)]
    (by intro g hg'; rw [List.mem_singleton] at hg'; subst hg'; exact hg)
  have p1' : deAdvance solNear (solAttrs prob) hc s.pop (off, I) = some pop' := by
    unfold deRun at p1
    rw [List.foldlM_cons] at p1
    unfold deGeneration at p1
    rw [i1] at p1
    cases hq : deAdvance solNear (solAttrs prob) hc s.pop (off, I) with
    | none => rw [Option.bind_some, hq] at p1; simp at p1
    | some q =>
      rw [Option.bind_some, hq] at p1
      simpa using p1
  refine ⟨⟨pop', s.evaluated ++ off, s.next + trials.length⟩, ?_, ⟨p2.trans hs.size, ?_, ?_, ?_, ?_, ?_⟩, ?_, ⟨off, rfl⟩, ?_⟩
  · unfold deSolStep
    rw [r1, Option.bind_some]
    dsimp only
    rw [← ht, i1, Option.bind_some, p1']
    rfl
  · intro x hx
    change x ∈ pop' at hx
    obtain ⟨i, hi, rfl⟩ := List.getElem_of_mem hx
    rw [List.mem_append]
    rcases p3 i (by omega) hi with e | ⟨⟨g, hg', e⟩, -⟩
    · rw [e]; exact Or.inl (hs.sub _ (List.getElem_mem _))
    · rw [List.mem_singleton] at hg'
      subst hg'
      exact Or.inr (hperm.mem_iff.2 e)
  · intro x hx
    rw [List.mem_append] at hx
    rcases hx with hx | hx
    · exact hs.within x hx
    · exact newSols_within _ _ m2 x (hperm.mem_iff.1 hx)
  · exact ids_step _ _ (d.mutate rows) (by rw [← hs.next]; exact hperm) hs.ids
  · simp only [List.length_append, hs.next, hperm.length_eq]
  · intro y hy
    rw [List.mem_append] at hy
    rcases hy with hy | hy
    · obtain ⟨z, hz, hb⟩ := hs.best y hy
      obtain ⟨x, hx, hb'⟩ := p4 z (Or.inl hz)
      exact ⟨x, hx, not_isBetter_trans _ a1 _ _ _ hb hb'⟩
    · exact p4 y (Or.inr ⟨_, List.mem_singleton.2 rfl, hperm.mem_iff.1 hy⟩)
  · simp only [List.length_append, hperm.length_eq, htl]
  · intro i x x' hx hx'
    obtain ⟨l1, rfl⟩ := List.getElem?_eq_some_iff.1 hx
    obtain ⟨l2, rfl⟩ := List.getElem?_eq_some_iff.1 hx'
    rcases p3 i l1 l2 with e | ⟨-, e⟩
    · exact Or.inl e
    · exact Or.inr e

theorem deInv_init (prob : Attrs (Fin n → K) K K 1) (hc : Bool) (hp : ProblemOk prob hc) (xl xu : Fin n → K) (init : List (Fin n → K))
    (hi : ∀ x ∈ init, WithinBounds xl xu x) : DeInv prob xl xu init.length ⟨newSols 0 init, newSols 0 init, init.length⟩ := by
  obtain ⟨a1, -, -⟩ := solAttrs_ok hp
  refine ⟨newSols_length _ _, fun x hx => hx, newSols_within _ _ hi, ?_, (newSols_length _ _).symm, fun y hy => ⟨y, hy, isBetter_irrefl _ a1 y⟩⟩
  rw [newSols_id, newSols_length]
  simp

theorem deSolRun_ok (prob : Attrs (Fin n → K) K K 1) (hc : Bool) (hp : ProblemOk prob hc) (xl xu : Fin n → K) (nOff popSize : ℕ) (hn : nOff ≤ popSize)
    (ds : List (DeDraw K n)) (hd : ∀ d ∈ ds, DeDrawOk xl xu nOff popSize d) : ∀ s, DeInv prob xl xu popSize s →
    ∃ s', ds.foldlM (deSolStep prob hc xl xu nOff popSize) s = some s' ∧ DeInv prob xl xu popSize s' ∧ s'.evaluated.length = s.evaluated.length + ds.length * nOff := by
  induction ds with
  | nil => exact fun s hs => ⟨s, rfl, hs, by simp⟩
  | cons d ds ih =>
    intro s hs
    obtain ⟨s1, b1, b2, b3, -, -⟩ := deSolStep_ok prob hc hp xl xu nOff popSize hn s hs d (hd d (by simp))
    obtain ⟨s2, c1, c2, c3⟩ := ih (fun d' h => hd d' (by simp [h])) s1 b2
    refine ⟨s2, ?_, c2, ?_⟩
    · rw [List.foldlM_cons, b1]; exact c1
    · rw [c3, b3, List.length_cons]; ring

/-- **C165** (DE). A run of differential evolution with at most `pop_size` offspring per generation, for every strategy (base vector, number of
differences, recombination), mutation and random numbers, on every problem with bounds: it never raises; all points evaluated, from the first to
the last, are within the bounds; exactly `pop_size + generations · n_offsprings` different solutions are evaluated; the population keeps its
size and consists of evaluated solutions; the reported optimum is one evaluated solution, and none of the evaluated ones is better. -/
theorem C165_de (prob : Attrs (Fin n → K) K K 1) (hc : Bool) (hp : ProblemOk prob hc) (xl xu : Fin n → K) (nOff : ℕ) (init : List (Fin n → K)) (hne : init ≠ [])
    (hn : nOff ≤ init.length) (hi : ∀ x ∈ init, WithinBounds xl xu x) (ds : List (DeDraw K n)) (hd : ∀ d ∈ ds, DeDrawOk xl xu nOff init.length d) :
    ∃ s b, deSolRun prob hc xl xu nOff init.length init ds = some s ∧
      (∀ y ∈ s.evaluated, WithinBounds xl xu y.x) ∧
      s.evaluated.length = init.length + ds.length * nOff ∧ (s.evaluated.map Sol.id).Nodup ∧
      s.pop.length = init.length ∧ (∀ x ∈ s.pop, x ∈ s.evaluated) ∧
      rankZero (solAttrs prob) s.pop = [b] ∧ b ∈ s.evaluated ∧ ∀ y ∈ s.evaluated, ¬ BetterSol prob y b := by
  obtain ⟨a1, a2, a3⟩ := solAttrs_ok hp
  obtain ⟨s, h1, h2, h3⟩ := deSolRun_ok prob hc hp xl xu nOff init.length hn ds hd _ (deInv_init prob hc hp xl xu init hi)
  obtain ⟨b, o1, o2, o3⟩ := C72_optimum (solAttrs prob) s.pop (by
    intro e
    have := h2.size
    rw [e] at this
    exact hne (List.length_eq_zero_iff.1 this.symm))
  refine ⟨s, b, h1, h2.within, by rw [h3, newSols_length], h2.ids.nodup_iff.2 List.nodup_range, h2.size, h2.sub, o1, h2.sub b o2, ?_⟩
  intro y hy hb
  obtain ⟨x, hx, hxy⟩ := h2.best y hy
  have := isBetter_soLe (solAttrs prob) a1 y b x ((C23_is_better (solAttrs prob) y b).1.2 hb) (o3 x hx)
  rw [hxy] at this
  simp at this

/-! ### Particle swarm -/

/-- The random numbers of `repair_random_init` are in `[0, 1]` (those of `pso_equation` need no restriction), the mutation of the best stays within
the bounds. -/
structure PsoDrawOk (xl xu : Fin n → K) (d : PsoDraw K n) : Prop where
  u1 : ∀ k j, 0 ≤ d.u1 k j ∧ d.u1 k j ≤ 1
  u2 : ∀ k j, 0 ≤ d.u2 k j ∧ d.u2 k j ≤ 1
  mutant : ∀ m, d.mutant = some m → ∀ x, WithinBounds xl xu x → WithinBounds xl xu (m x)

/-- The optimum of the personal bests is one of them, and none of them is better. -/
theorem psoBest_ok (prob : Attrs (Fin n → K) K K 1) (hc : Bool) (hp : ProblemOk prob hc) (pop : List (Sol K n)) (hne : pop ≠ []) :
    ∃ b, psoBest prob pop = some b ∧ b ∈ pop ∧ ∀ y ∈ pop, ¬ BetterSol prob y b := by
  by_cases hf : ∃ x ∈ pop, (solAttrs prob).feas x = true
  · obtain ⟨b, b1, b2, b3, b4⟩ := C21_single_objective (leastInfeasible := true) (solAttrs prob) (fun _ _ _ => 0) pop hf
    refine ⟨b, by unfold psoBest; rw [b1], b2, ?_⟩
    rintro y hy (⟨-, h⟩ | ⟨h1, -, h⟩ | ⟨-, h, -⟩)
    · exact absurd b3 (by rw [show (solAttrs prob).feas b = prob.feas b.x from rfl, h]; simp)
    · exact absurd (b4 y hy h1) (not_le.2 ((dominates_one _ _).1 h))
    · exact absurd b3 (by rw [show (solAttrs prob).feas b = prob.feas b.x from rfl, h]; simp)
  · have hf' : ∀ x ∈ pop, (solAttrs prob).feas x = false := by
      intro x hx
      by_contra h
      exact hf ⟨x, hx, by simpa using h⟩
    obtain ⟨-, b, b1, b2, b3⟩ := C21_no_feasible (at' := solAttrs prob) (paretoRank := fun _ _ _ => 0) pop hne hf'
    refine ⟨b, by unfold psoBest; rw [b1], b2, ?_⟩
    rintro y hy (⟨h, -⟩ | ⟨h, -, -⟩ | ⟨-, -, h⟩)
    · have := hf' y hy
      rw [show (solAttrs prob).feas y = prob.feas y.x from rfl, h] at this
      simp at this
    · have := hf' y hy
      rw [show (solAttrs prob).feas y = prob.feas y.x from rfl, h] at this
      simp at this
    · exact absurd (b3 y hy) (not_le.2 h)

/-- What holds after every iteration. -/
structure PsoInv (prob : Attrs (Fin n → K) K K 1) (xl xu vmax : Fin n → K) (popSize : ℕ) (s : PsoState K n) : Prop where
  size : s.pop.length = popSize
  psize : s.particles.length = popSize
  vsize : s.V.length = popSize
  sub : ∀ x ∈ s.pop, x ∈ s.evaluated
  psub : ∀ x ∈ s.particles, x ∈ s.evaluated
  within : ∀ x ∈ s.evaluated, WithinBounds xl xu x.x
  speed : ∀ v ∈ s.V, ∀ j, |v j| ≤ vmax j
  ids : (s.evaluated.map Sol.id).Perm (List.range s.evaluated.length)
  next : s.next = s.evaluated.length
  best : ∀ y ∈ s.evaluated, ∃ x ∈ s.pop, isBetter (solAttrs prob) y x 0 = false

theorem psoPerturb_ok (prob : Attrs (Fin n → K) K K 1) (xl xu : Fin n → K) (pop : List (Sol K n)) (hpop : ∀ x ∈ pop, WithinBounds xl xu x.x)
    (mutant : Option ((Fin n → K) → Fin n → K)) (hm : ∀ m, mutant = some m → ∀ x, WithinBounds xl xu x → WithinBounds xl xu (m x)) (rows : List (Fin n → K))
    (hr : ∀ x ∈ rows, WithinBounds xl xu x) :
    (psoPerturb prob pop mutant rows).length = rows.length ∧ ∀ x ∈ psoPerturb prob pop mutant rows, WithinBounds xl xu x := by
  unfold psoPerturb
  split
  · rename_i m k hk
    refine ⟨List.length_set .., ?_⟩
    intro x hx
    rcases List.mem_or_eq_of_mem_set hx with h | rfl
    · exact hr x h
    · exact hm m rfl _ (hpop _ (List.get_mem _ _))
  · exact ⟨rfl, hr⟩

theorem psoSolStep_ok (prob : Attrs (Fin n → K) K K 1) (hc : Bool) (hp : ProblemOk prob hc) (xl xu vmax : Fin n → K) (hv : ∀ j, 0 ≤ vmax j) (popSize : ℕ)
    (hpos : 0 < popSize) (s : PsoState K n) (hs : PsoInv prob xl xu vmax popSize s) (d : PsoDraw K n) (hd : PsoDrawOk xl xu d) :
    ∃ s', psoSolStep prob hc xl xu vmax s d = some s' ∧ PsoInv prob xl xu vmax popSize s' ∧ s'.evaluated = s.evaluated ++ s'.particles ∧
      ∀ (i : ℕ) (x x' : Sol K n), s.pop[i]? = some x → s'.pop[i]? = some x' → x' = x ∨ (x' ∈ s'.particles ∧ BetterSol prob x' x) := by
  obtain ⟨a1, a2, a3⟩ := solAttrs_ok hp
  have hne : s.pop ≠ [] := by
    intro e
    have := hs.size
    rw [e] at this
    simp at this
    omega
  obtain ⟨b, b1, b2, b3⟩ := psoBest_ok prob hc hp s.pop hne
  have hX : ∀ (i : Fin s.pop.length) j, xl j ≤ ((s.particles.map Sol.x).getD i fun _ => 0) j ∧ ((s.particles.map Sol.x).getD i fun _ => 0) j ≤ xu j := by
    intro i j
    have hi : i.1 < (s.particles.map Sol.x).length := by rw [List.length_map, hs.psize, ← hs.size]; exact i.2
    rw [List.getD_eq_getElem _ _ hi, List.getElem_map]
    exact hs.within _ (hs.psub _ (List.getElem_mem _)) j
  have hmv := fun i => C73_move (r := s.pop.length) (fun i => (s.particles.map Sol.x).getD i fun _ => 0) (fun i => (s.pop.get i).x) (fun _ => b.x)
    (fun i => s.V.getD i fun _ => 0) vmax xl xu hv d.w d.c1 d.c2 (fun i => d.r1 i) (fun i => d.r2 i) (d.again.map fun p => (fun i => p.1 i, fun i => p.2 i))
    (fun i => d.u1 i) (fun i => d.u2 i) (fun i j => hd.u1 i j) (fun i j => hd.u2 i j) hX i
  set q := psoMoves xl xu vmax b.x s d with hq
  obtain ⟨r1, r2⟩ := psoPerturb_ok prob xl xu s.pop (fun x hx => hs.within x (hs.sub x hx)) d.mutant hd.mutant (List.ofFn q.1) (by
    intro x hx
    obtain ⟨i, rfl⟩ := List.mem_ofFn.1 hx
    exact (hmv i).1)
  set rows := psoPerturb prob s.pop d.mutant (List.ofFn q.1) with hrows
  set off := newSols s.next rows with hoff
  have hol : off.length = s.pop.length := by rw [hoff, newSols_length, r1, List.length_ofFn]
  have hone : off ≠ [] := by
    intro e
    rw [e] at hol
    exact hne (List.length_eq_zero_iff.1 hol.symm)
  obtain ⟨pop', p1, p2, p3, p4⟩ := replacement_keeps_best solNear (solAttrs prob) a1 a2 hc a3 s.pop off hol.symm (newSols_nodup _ _)
  refine ⟨⟨off, List.ofFn q.2, pop', s.evaluated ++ off, s.next + off.length⟩, ?_,
    ⟨p2.trans hs.size, hol.trans hs.size, by rw [List.length_ofFn]; exact hs.size, ?_, fun x hx => List.mem_append_right _ hx, ?_, ?_, ?_, ?_, ?_⟩, rfl, ?_⟩
  · unfold psoSolStep
    rw [b1, Option.bind_some]
    dsimp only
    rw [← hq, ← hrows, ← hoff]
    unfold swarmAdvance
    rw [if_neg (by simpa using hone), p1]
    rfl
  · intro x hx
    change x ∈ pop' at hx
    obtain ⟨i, hi, rfl⟩ := List.getElem_of_mem hx
    rw [List.mem_append]
    rcases p3 i (by omega) hi with e | ⟨e, -⟩
    · rw [e]; exact Or.inl (hs.sub _ (List.getElem_mem _))
    · exact Or.inr e
  · intro x hx
    rw [List.mem_append] at hx
    rcases hx with hx | hx
    · exact hs.within x hx
    · exact newSols_within _ _ r2 x hx
  · intro v hv' j
    obtain ⟨i, rfl⟩ := List.mem_ofFn.1 hv'
    exact (hmv i).2.1 j
  · exact ids_step _ _ rows (by rw [hoff, hs.next]) hs.ids
  · simp only [List.length_append, hs.next]
  · intro y hy
    rw [List.mem_append] at hy
    rcases hy with hy | hy
    · obtain ⟨z, hz, hb⟩ := hs.best y hy
      obtain ⟨x, hx, hb'⟩ := p4 z (Or.inl hz)
      exact ⟨x, hx, not_isBetter_trans _ a1 _ _ _ hb hb'⟩
    · exact p4 y (Or.inr hy)
  · intro i x x' hx hx'
    obtain ⟨l1, rfl⟩ := List.getElem?_eq_some_iff.1 hx
    obtain ⟨l2, rfl⟩ := List.getElem?_eq_some_iff.1 hx'
    rcases p3 i l1 l2 with e | ⟨e1, e2⟩
    · exact Or.inl e
    · exact Or.inr ⟨e1, (C23_is_better (solAttrs prob) _ _).1.1 e2⟩

theorem psoSolRun_ok (prob : Attrs (Fin n → K) K K 1) (hc : Bool) (hp : ProblemOk prob hc) (xl xu vmax : Fin n → K) (hv : ∀ j, 0 ≤ vmax j) (popSize : ℕ)
    (hpos : 0 < popSize) (ds : List (PsoDraw K n)) (hd : ∀ d ∈ ds, PsoDrawOk xl xu d) : ∀ s, PsoInv prob xl xu vmax popSize s →
    ∃ s', ds.foldlM (psoSolStep prob hc xl xu vmax) s = some s' ∧ PsoInv prob xl xu vmax popSize s' ∧
      s'.evaluated.length = s.evaluated.length + ds.length * popSize := by
  induction ds with
  | nil => exact fun s hs => ⟨s, rfl, hs, by simp⟩
  | cons d ds ih =>
    intro s hs
    obtain ⟨s1, b1, b2, b3, -⟩ := psoSolStep_ok prob hc hp xl xu vmax hv popSize hpos s hs d (hd d (by simp))
    obtain ⟨s2, c1, c2, c3⟩ := ih (fun d' h => hd d' (by simp [h])) s1 b2
    refine ⟨s2, ?_, c2, ?_⟩
    · rw [List.foldlM_cons, b1]; exact c1
    · rw [c3, b3, List.length_append, b2.psize, List.length_cons]; ring

/-- **C165** (PSO). A run of the particle swarm, for all coefficients, random numbers and initial velocities within the limit, on every problem with
bounds: it never raises; all points evaluated are within the bounds and no velocity exceeds the limit; exactly `pop_size · (1 + iterations)` different
solutions are evaluated; the swarm and the personal bests keep their size and consist of evaluated solutions; the reported optimum is one evaluated
solution, and none of the evaluated ones is better. -/
theorem C165_pso (prob : Attrs (Fin n → K) K K 1) (hc : Bool) (hp : ProblemOk prob hc) (xl xu vmax : Fin n → K) (hv : ∀ j, 0 ≤ vmax j) (init V0 : List (Fin n → K))
    (hne : init ≠ []) (hV : V0.length = init.length) (hi : ∀ x ∈ init, WithinBounds xl xu x) (hV0 : ∀ v ∈ V0, ∀ j, |v j| ≤ vmax j)
    (ds : List (PsoDraw K n)) (hd : ∀ d ∈ ds, PsoDrawOk xl xu d) :
    ∃ s b, psoSolRun prob hc xl xu vmax init V0 ds = some s ∧
      (∀ y ∈ s.evaluated, WithinBounds xl xu y.x) ∧ (∀ v ∈ s.V, ∀ j, |v j| ≤ vmax j) ∧
      s.evaluated.length = init.length * (1 + ds.length) ∧ (s.evaluated.map Sol.id).Nodup ∧
      s.pop.length = init.length ∧ s.particles.length = init.length ∧ (∀ x, x ∈ s.pop ∨ x ∈ s.particles → x ∈ s.evaluated) ∧
      psoBest prob s.pop = some b ∧ b ∈ s.evaluated ∧ ∀ y ∈ s.evaluated, ¬ BetterSol prob y b := by
  obtain ⟨a1, a2, a3⟩ := solAttrs_ok hp
  have hpos : 0 < init.length := List.length_pos_iff.2 hne
  obtain ⟨s, h1, h2, h3⟩ := psoSolRun_ok prob hc hp xl xu vmax hv init.length hpos ds hd ⟨newSols 0 init, V0, newSols 0 init, newSols 0 init, init.length⟩
    ⟨newSols_length _ _, newSols_length _ _, hV, fun x hx => hx, fun x hx => hx, newSols_within _ _ hi, hV0, by rw [newSols_id, newSols_length]; simp,
      (newSols_length _ _).symm, fun y hy => ⟨y, hy, isBetter_irrefl _ a1 y⟩⟩
  obtain ⟨b, b1, b2, b3⟩ := psoBest_ok prob hc hp s.pop (by
    intro e
    have := h2.size
    rw [e] at this
    exact hne (List.length_eq_zero_iff.1 this.symm))
  refine ⟨s, b, h1, h2.within, h2.speed, by rw [h3, newSols_length]; ring, h2.ids.nodup_iff.2 List.nodup_range, h2.size, h2.psize,
    fun x hx => hx.elim (h2.sub x) (h2.psub x), b1, h2.sub b b2, ?_⟩
  intro y hy hb
  obtain ⟨x, hx, hxy⟩ := h2.best y hy
  have hxb : isBetter (solAttrs prob) x b 0 = false := by
    by_contra h
    exact b3 x hx ((C23_is_better (solAttrs prob) x b).1.1 (by simpa using h))
  have := not_isBetter_trans _ a1 y x b hxy hxb
  rw [(C23_is_better (solAttrs prob) y b).1.2 hb] at this
  simp at this

/-! ### What a generation and an iteration compute -/

theorem deSum_eq (F : K) (ps : List ((Fin n → K) × (Fin n → K) × (Fin n → K))) (j : Fin n) :
    deSum ps F j = (ps.map fun p => F * p.2.2 j * (p.1 j - p.2.1 j)).sum := by
  induction ps with
  | nil => rfl
  | cons p ps ih => obtain ⟨a, b, c⟩ := p; simp [deSum, ih]

/-- **C165** (DE, the trial vectors). The points a generation evaluates are the mutated trial vectors (in some order). Trial `k` is recombined from member `k` (the target)
and a donor, which is, in every variable where that is within the bounds, the base vector plus the sum of `F · jitter · (difference)`. -/
theorem C165_de_trial (prob : Attrs (Fin n → K) K K 1) (hc : Bool) (hp : ProblemOk prob hc) (xl xu : Fin n → K) (nOff popSize : ℕ) (hn : nOff ≤ popSize)
    (s s' : DeState K n) (hs : DeInv prob xl xu popSize s) (d : DeDraw K n) (hd : DeDrawOk xl xu nOff popSize d)
    (h : deSolStep prob hc xl xu nOff popSize s d = some s') :
    ∃ (rows : List (Fin n → K)) (off : List (Sol K n)), s'.evaluated = s.evaluated ++ off ∧ (off.map Sol.x).Perm (d.mutate rows) ∧ rows.length = nOff ∧
      ∀ k < nOff, ∃ (target base donor trial : Fin n → K), s.pop[k]?.map Sol.x = some target ∧ s.pop[(d.rows k).base]?.map Sol.x = some base ∧ rows[k]? = some trial ∧
        (∀ (j : Fin n) (v : K), v = base j + ((d.rows k).diffs.map fun p => (d.rows k).F * p.2.2 j *
            (((s.pop[p.1]?.map Sol.x).getD fun _ => 0) j - ((s.pop[p.2.1]?.map Sol.x).getD fun _ => 0) j)).sum →
          xl j ≤ v → v ≤ xu j → donor j = v) ∧
        (∀ M, (d.rows k).cross = .mask M → ∀ j, trial j = if M j then donor j else target j) ∧
        (∀ w, (d.rows k).cross = .line w → ∀ j, trial j = target j + w * (d.rows k).CR * (donor j - target j)) ∧
        ∀ w, (d.rows k).cross = .hypercube w → ∀ j, trial j = target j + w j * (d.rows k).CR * (donor j - target j) := by
  set X := s.pop.map Sol.x with hX
  have hXl : X.length = popSize := by rw [hX, List.length_map, hs.size]
  have hget : ∀ i, X[i]? = s.pop[i]?.map Sol.x := fun i => by rw [hX, List.getElem?_map]
  have hcond : nOff ≤ X.length ∧ ∀ k < nOff, (d.rows k).base < X.length ∧ ∀ p ∈ (d.rows k).diffs, p.1 < X.length ∧ p.2.1 < X.length := by
    rw [hXl]; exact ⟨hn, hd.pos⟩
  obtain ⟨rows, r1, r2, r3⟩ := deTrialRows_ok xl xu X nOff hcond.1
    (by intro x hx; obtain ⟨y, hy, rfl⟩ := List.mem_map.1 hx; exact hs.within y (hs.sub y hy)) d (by rw [hXl]; exact hd)
  obtain ⟨m1, m2⟩ := hd.mutate rows r3
  have htl : (newSols s.next (d.mutate rows)).length = nOff := by rw [newSols_length, m1, r2]
  obtain ⟨off, I, i1, i2, i3, i4⟩ := deInfill_ok s.pop nOff popSize (newSols s.next (d.mutate rows), d.perm) ⟨htl, newSols_nodup _ _, hd.perm⟩ (by rw [hs.size]; exact hn)
  have hperm : off.Perm (newSols s.next (d.mutate rows)) := off_perm_trials _ off I i2 (by rw [htl]; exact i3) i4
  unfold deSolStep at h
  rw [← hX, r1, Option.bind_some] at h
  dsimp only at h
  rw [i1, Option.bind_some, Option.map_eq_some_iff] at h
  obtain ⟨pop', -, rfl⟩ := h
  refine ⟨rows, off, rfl, ?_, r2, ?_⟩
  · have := hperm.map Sol.x
    rwa [newSols_x] at this
  intro k hk
  unfold deTrialRows at r1
  rw [if_pos hcond] at r1
  dsimp only at r1
  rw [Option.some_inj] at r1
  subst r1
  have hk' : k < X.length := by omega
  have hb' : (d.rows k).base < X.length := (hcond.2 k hk).1
  refine ⟨X[k], X[(d.rows k).base], repairRandomInit (r := nOff) (fun i j => X.getD (d.rows i).base (fun _ => 0) j +
      deSum ((d.rows i).diffs.map fun p => (X.getD p.1 fun _ => 0, X.getD p.2.1 fun _ => 0, p.2.2)) (d.rows i).F j)
      (fun i => X.getD (d.rows i).base fun _ => 0) xl xu (fun i => (d.rows i).u1) (fun i => (d.rows i).u2) ⟨k, hk⟩, _,
    by rw [← hget, List.getElem?_eq_getElem hk'], by rw [← hget, List.getElem?_eq_getElem hb'], (by rw [List.getElem?_ofFn, dif_pos hk]), ?_, ?_, ?_, ?_⟩
  · intro j v hv hl hu
    have e : X.getD (d.rows k).base (fun _ => 0) j + deSum ((d.rows k).diffs.map fun p => (X.getD p.1 fun _ => 0, X.getD p.2.1 fun _ => 0, p.2.2)) (d.rows k).F j = v := by
      rw [hv, deSum_eq, List.map_map, List.getD_eq_getElem _ _ hb']
      simp only [← hget, List.getD_eq_getElem?_getD, Function.comp_def]
    simp only [repairRandomInit, setWhere, below, above, decide_eq_true_eq, e]
    rw [if_neg (not_lt.2 hl), if_neg (not_lt.2 hu)]
  all_goals
    intro M hM j
    simp only [deVariant, hM, deTrial, List.getD_eq_getElem _ _ hk']

/-- **C165** (PSO, the moves). An iteration: with the particle at `x` with velocity `v`, its personal best `p` and the best of the swarm `b`, let
`u = w·v + c1·r1·(p - x) + c2·r2·(b - x)`, cut to the velocity limit. If `x + u` is within the bounds, the new velocity is `u` and the new
position `x + u` – unless the best is perturbed (`pertube_best`), this is the particle of a best personal best, and the new position is a mutant of that. -/
theorem C165_pso_move (prob : Attrs (Fin n → K) K K 1) (hc : Bool) (hp : ProblemOk prob hc) (xl xu vmax : Fin n → K) (hv : ∀ j, 0 ≤ vmax j) (s s' : PsoState K n)
    (d : PsoDraw K n) (h : psoSolStep prob hc xl xu vmax s d = some s') (b : Sol K n) (hb : psoBest prob s.pop = some b) (i : ℕ) (x p : Sol K n) (v u : Fin n → K)
    (hx : s.particles[i]? = some x) (hpi : s.pop[i]? = some p) (hvi : s.V[i]? = some v)
    (hu : ∀ j, u j = max (-vmax j) (min (vmax j) (d.w * v j + d.c1 * d.r1 i j * (p.x j - x.x j) + d.c2 * d.r2 i j * (b.x j - x.x j))))
    (hin : ∀ j, xl j ≤ x.x j + u j ∧ x.x j + u j ≤ xu j) :
    s'.V[i]? = some u ∧ ∃ y, s'.particles[i]? = some y ∧
      ((y.x = fun j => x.x j + u j) ∨ ∃ m, d.mutant = some m ∧ y.x = m p.x ∧ ∀ z ∈ s.pop, ¬ BetterSol prob z p) := by
  unfold psoSolStep at h
  rw [hb, Option.bind_some] at h
  dsimp only at h
  rw [Option.map_eq_some_iff] at h
  obtain ⟨pop', -, rfl⟩ := h
  obtain ⟨hi, hpe⟩ := List.getElem?_eq_some_iff.1 hpi
  set q := psoMoves xl xu vmax b.x s d with hq
  have hxx : ((s.particles.map Sol.x).getD i fun _ => 0) = x.x := by
    rw [List.getD_eq_getElem?_getD, List.getElem?_map, hx]; rfl
  have hvv : (s.V.getD i fun _ => 0) = v := by rw [List.getD_eq_getElem?_getD, hvi]; rfl
  set Xf : Fin s.pop.length → Fin n → K := fun i => (s.particles.map Sol.x).getD i fun _ => 0 with hXf
  set Vf : Fin s.pop.length → Fin n → K := fun i => s.V.getD i fun _ => 0 with hVf
  have heq := fun j => C73_equation (r := s.pop.length) Xf (fun i => (s.pop.get i).x) (fun _ => b.x) Vf vmax hv d.w d.c1 d.c2 (fun i => d.r1 i) (fun i => d.r2 i) ⟨i, hi⟩ j
  have hX0 : Xf ⟨i, hi⟩ = x.x := hxx
  have hV0 : Vf ⟨i, hi⟩ = v := hvv
  set e := psoEquation (r := s.pop.length) Xf (fun i => (s.pop.get i).x) (fun _ => b.x) Vf vmax d.w d.c1 d.c2 (fun i => d.r1 i) (fun i => d.r2 i) with he
  have e2 : e.2 ⟨i, hi⟩ = u := by
    funext j
    rw [(heq j).1, hu j, hX0, hV0]
    simp only [List.get_eq_getElem, hpe]
  have e1 : e.1 ⟨i, hi⟩ = fun j => x.x j + u j := by
    funext j
    rw [(heq j).2.2, hX0, e2]
  obtain ⟨a1, a2⟩ := psoRetry_ok Xf (fun i => (s.pop.get i).x) (fun _ => b.x) Vf vmax xl xu hv d.w d.c1 d.c2
    ((d.again.map fun p => ((fun i => p.1 i, fun i => p.2 i) : (Fin s.pop.length → Fin n → K) × (Fin s.pop.length → Fin n → K))).take 20) e
    (fun i j => (C73_equation Xf _ _ Vf vmax hv d.w d.c1 d.c2 _ _ i j).2)
  have b1 := a2 ⟨i, hi⟩ (by rw [e1]; exact hin)
  have q2 : q.2 ⟨i, hi⟩ = u := by
    funext j
    have := (a1 ⟨i, hi⟩ j).2
    rw [b1, e1, hX0] at this
    exact (add_left_cancel this).symm
  have q1 : q.1 ⟨i, hi⟩ = fun j => x.x j + u j := by
    funext j
    have hqq : q.1 = repairRandomInit (psoRetry Xf (fun i => (s.pop.get i).x) (fun _ => b.x) Vf vmax xl xu d.w d.c1 d.c2
        ((d.again.map fun p => ((fun i => p.1 i, fun i => p.2 i) : (Fin s.pop.length → Fin n → K) × (Fin s.pop.length → Fin n → K))).take 20) e).1 Xf xl xu
        (fun i => d.u1 i) (fun i => d.u2 i) := rfl
    rw [hqq]
    simp only [repairRandomInit, setWhere, below, above, decide_eq_true_eq]
    rw [b1, e1]
    rw [if_neg (not_lt.2 (hin j).1), if_neg (not_lt.2 (hin j).2)]
  refine ⟨?_, ?_⟩
  · rw [List.getElem?_ofFn, dif_pos hi, q2]
  · have hrow : (List.ofFn q.1)[i]? = some fun j => x.x j + u j := by rw [List.getElem?_ofFn, dif_pos hi, q1]
    have key : ∃ z, (psoPerturb prob s.pop d.mutant (List.ofFn q.1))[i]? = some z ∧
        ((z = fun j => x.x j + u j) ∨ ∃ m, d.mutant = some m ∧ z = m p.x ∧ ∀ z ∈ s.pop, ¬ BetterSol prob z p) := by
      unfold psoPerturb
      split
      · rename_i m k hm hk
        rw [List.getElem?_set]
        by_cases hki : k.1 = i
        · rw [if_pos hki, if_pos (by rw [List.length_ofFn]; omega)]
          refine ⟨_, rfl, Or.inr ⟨m, hm, ?_, ?_⟩⟩
          · simp only [List.get_eq_getElem, hki, hpe]
          · intro z hz hbz
            have hbest : soLe (solAttrs prob) p z := by
              obtain ⟨t, ht⟩ : ∃ t, fitnessOrder (solAttrs prob) s.pop = k :: t := by
                cases hf : fitnessOrder (solAttrs prob) s.pop with
                | nil => rw [hf] at hk; simp at hk
                | cons a t => rw [hf] at hk; simp only [List.head?_cons, Option.some_inj] at hk; exact ⟨t, by rw [hk]⟩
              obtain ⟨z', hz'⟩ := List.get_of_mem hz
              have hmem : z' ∈ fitnessOrder (solAttrs prob) s.pop := (fitnessOrder_perm _ _).mem_iff.2 (List.mem_finRange _)
              have hsort := fitnessOrder_sorted (solAttrs prob) s.pop
              rw [ht] at hmem hsort
              have hkp : s.pop.get k = p := by simp only [List.get_eq_getElem, hki, hpe]
              rw [← hkp, ← hz']
              rcases List.mem_cons.1 hmem with e' | e'
              · rw [e']; exact (soLe_total _ _ _).elim id id
              · exact (List.pairwise_cons.1 hsort).1 _ e'
            obtain ⟨c0, c1⟩ := hp.1 z.x
            obtain ⟨c2, c3⟩ := hp.1 p.x
            have hs' : prob.cv p.x < prob.cv z.x ∨ (prob.cv p.x = prob.cv z.x ∧ prob.F p.x 0 ≤ prob.F z.x 0) := hbest
            rcases hbz with ⟨g1, g2⟩ | ⟨g1, g2, g3⟩ | ⟨g1, g2, g3⟩
            · have h0 := c1.1 g1
              rcases hs' with h' | ⟨h', -⟩
              · rw [h0] at h'; exact absurd h' (not_lt.2 c2)
              · have := c3.2 (h'.trans h0)
                rw [g2] at this
                simp at this
            · have h0 := c1.1 g1
              have h1 := c3.1 g2
              rcases hs' with h' | ⟨-, h'⟩
              · rw [h0, h1] at h'; exact lt_irrefl _ h'
              · exact absurd h' (not_le.2 ((dominates_one _ _).1 g3))
            · rcases hs' with h' | ⟨h', -⟩
              · exact absurd h' (not_lt.2 g3.le)
              · rw [h'] at g3; exact lt_irrefl _ g3
        · rw [if_neg hki]
          exact ⟨_, hrow, Or.inl rfl⟩
      · exact ⟨_, hrow, Or.inl rfl⟩
    obtain ⟨z, hz, hz'⟩ := key
    have hlen := (List.getElem?_eq_some_iff.1 hz).1
    refine ⟨⟨s.next + i, z⟩, ?_, hz'⟩
    simp only [newSols, List.getElem?_mapIdx, hz, Option.map_some]

/-- **C165** (PSO, the perturbed best). With `pertube_best`, some particle whose personal best nobody in the swarm beats is moved to the mutant of that personal best. -/
theorem C165_pso_perturbed (prob : Attrs (Fin n → K) K K 1) (hc : Bool) (xl xu vmax : Fin n → K) (s s' : PsoState K n)
    (d : PsoDraw K n) (h : psoSolStep prob hc xl xu vmax s d = some s') (m : (Fin n → K) → Fin n → K) (hm : d.mutant = some m) :
    ∃ (i : ℕ) (p y : Sol K n), s.pop[i]? = some p ∧ s'.particles[i]? = some y ∧ y.x = m p.x := by
  unfold psoSolStep at h
  cases hb : psoBest prob s.pop with
  | none => rw [hb] at h; simp at h
  | some b =>
    rw [hb, Option.bind_some] at h
    dsimp only at h
    rw [Option.map_eq_some_iff] at h
    obtain ⟨pop', -, rfl⟩ := h
    have hne : s.pop ≠ [] := by
      intro e
      rw [e] at hb
      simp [psoBest, filterOptimum] at hb
    have hlen := fitnessOrder_length (solAttrs prob) s.pop
    cases hf : fitnessOrder (solAttrs prob) s.pop with
    | nil => rw [hf] at hlen; exact absurd (List.length_eq_zero_iff.1 hlen.symm) hne
    | cons k t =>
      refine ⟨k.1, s.pop.get k, ⟨s.next + k.1, m (s.pop.get k).x⟩, by simp, ?_, rfl⟩
      have : psoPerturb prob s.pop d.mutant (List.ofFn (psoMoves xl xu vmax b.x s d).1) =
          (List.ofFn (psoMoves xl xu vmax b.x s d).1).set k.1 (m (s.pop.get k).x) := by
        unfold psoPerturb
        rw [hf, hm]
        rfl
      simp only [newSols, List.getElem?_mapIdx, this, List.getElem?_set, if_true, List.length_ofFn, if_pos k.2, Option.map_some]

/-! ### Examples -/

/-- The problem of the examples: `x²`, no constraints. -/
def exSq : Attrs (Fin 1 → ℚ) ℚ ℚ 1 := ⟨fun x _ => x 0 ^ 2, fun _ => true, fun _ => 0⟩

example : ProblemOk exSq false := ⟨fun x => ⟨le_refl _, by simp [exSq]⟩, fun _ _ => rfl⟩

/-- One variable in `[-10, 10]`, three members; `DE/rand/1/bin` with the base vector `x₁` and the difference `x₂ - x₃`. -/
def exDeDraw : DeDraw ℚ 1 where
  rows _ := ⟨0, [(1, 2, fun _ => 1)], 1 / 2, 1 / 2, fun _ => 1 / 2, fun _ => 1 / 2, .mask fun _ => true⟩
  mutate rows := rows
  perm := [2, 0, 1]

example : DeDrawOk (fun _ => -10) (fun _ => 10) 3 3 exDeDraw := by
  refine ⟨fun k hk => by simp [exDeDraw], fun k j => by simp only [exDeDraw]; norm_num, fun k j => by simp only [exDeDraw]; norm_num,
    fun k => by simp only [exDeDraw]; norm_num, fun k => ⟨fun w h => by simp [exDeDraw] at h, fun w h => by simp [exDeDraw] at h⟩, fun rows h => ⟨rfl, h⟩, by decide⟩

/-- Three members, two generations; the trials of the first are all `3` and only the first of them is taken (`5, 4, 8` become `3, 4, 8`), those of the second are all `1`. -/
example : (deSolRun exSq false (fun _ => -10) (fun _ => 10) 3 3 [![5], ![4], ![8]] [exDeDraw, exDeDraw]).map (fun s => (s.pop.map fun x => (x.id, x.x 0), s.evaluated.length, s.next)) =
    some ([(6, 1), (1, 4), (2, 8)], 9, 9) := by decide +kernel

/-- The mutation of `Variant` (`PM`) meets what `C165_de` asks of it, and so do the initial points of `FloatRandomSampling`. -/
theorem C165_pm_ok (xl xu : Fin n → ℝ) (eta : (r : ℕ) → Fin r → ℝ) (mask : (r : ℕ) → Fin r → Fin n → Bool) (rand : (r : ℕ) → Fin r → Fin n → ℝ)
    (he : ∀ r i, 0 ≤ eta r i) (hr : ∀ r i j, 0 ≤ rand r i j ∧ rand r i j ≤ 1) (rows : List (Fin n → ℝ)) (h : ∀ x ∈ rows, WithinBounds xl xu x) :
    (pmRows xl xu eta mask rand rows).length = rows.length ∧ ∀ x ∈ pmRows xl xu eta mask rand rows, WithinBounds xl xu x :=
  ⟨by simp [pmRows], pmRows_in xl xu eta mask rand he hr rows h⟩

theorem C165_sampling_ok (xl xu : Fin n → ℝ) (hb : ∀ j, xl j ≤ xu j) (u : (N : ℕ) → Fin N → Fin n → ℝ) (hu : ∀ N i j, 0 ≤ u N i j ∧ u N i j < 1) (N : ℕ) :
    (floatRows xl xu u N).length = N ∧ ∀ x ∈ floatRows xl xu u N, WithinBounds xl xu x := by
  obtain ⟨Y, hY, hin⟩ := (C57_float xl xu (u N) (hu N)).1 hb
  have hrows : floatRows xl xu u N = List.ofFn Y := by simp [floatRows, hY]
  rw [hrows]
  refine ⟨by simp, ?_⟩
  intro x hx
  obtain ⟨i, rfl⟩ := List.mem_ofFn.1 hx
  exact fun j => ⟨(hin i j).1, (hin i j).2.1⟩

/-- The velocity limit `max_velocity_rate · (xu - xl)` (`pso.py:185`) and the initial velocities, random (`pso.py:195`) or zero, meet what `C165_pso` asks of them. -/
theorem C165_velocity_ok (rate : K) (hr : 0 ≤ rate) (xl xu : Fin n → K) (hb : ∀ j, xl j ≤ xu j) (u : Fin n → K) (hu : ∀ j, 0 ≤ u j ∧ u j ≤ 1) :
    (∀ j, 0 ≤ psoVmax rate xl xu j) ∧ (∀ j, |u j * psoVmax rate xl xu j| ≤ psoVmax rate xl xu j) ∧ ∀ j, |(0 : K)| ≤ psoVmax rate xl xu j := by
  have h0 : ∀ j, 0 ≤ psoVmax rate xl xu j := fun j => mul_nonneg hr (sub_nonneg.2 (hb j))
  refine ⟨h0, fun j => ?_, fun j => by rw [abs_zero]; exact h0 j⟩
  rw [abs_of_nonneg (mul_nonneg (hu j).1 (h0 j))]
  exact mul_le_of_le_one_left (h0 j) (hu j).2

/-- **More offspring than members.** With `n_offsprings > pop_size` the first generation raises (`X[K]` in `de.py:173` is outside the population), whatever is drawn. -/
theorem C165_more_offspring_refuted (prob : Attrs (Fin n → K) K K 1) (hc : Bool) (xl xu : Fin n → K) (nOff : ℕ) (init : List (Fin n → K)) (hn : init.length < nOff)
    (d : DeDraw K n) (ds : List (DeDraw K n)) : deSolRun prob hc xl xu nOff init.length init (d :: ds) = none := by
  unfold deSolRun
  rw [List.foldlM_cons]
  unfold deSolStep deTrialRows
  rw [if_neg (by rw [List.length_map, newSols_length]; omega)]
  rfl

/-- A step of the swarm: inertia 1, social part 1. -/
def exPsoDraw : PsoDraw ℚ 1 := ⟨1, 0, 1, fun _ _ => 0, fun _ _ => 1, [], fun _ _ => 1 / 2, fun _ _ => 1 / 2, none⟩

example : PsoDrawOk (fun _ => -10) (fun _ => 10) exPsoDraw :=
  ⟨fun k j => by simp only [exPsoDraw]; norm_num, fun k j => by simp only [exPsoDraw]; norm_num, fun m h => by simp [exPsoDraw] at h⟩

/-- **A personal best need not be the best point of its particle.** Two particles at 0 and 5 on `x²`: the first moves to 3, the second moves to the
best point 0. That point is already the personal best of the first, so as a duplicate it is not recorded for the second: its personal best is still 5. -/
theorem C165_personal_best_refuted :
    (psoSolRun exSq false (fun _ => -10) (fun _ => 10) (fun _ => 8) [![0], ![5]] [![3], ![0]] [exPsoDraw]).map
      (fun s => (s.particles.map fun x => x.x 0, s.pop.map fun x => x.x 0, s.V.map fun v => v 0)) = some ([3, 0], [0, 5], [3, -5]) := by
  decide +kernel

/-- With a mutant of the best (here: its half) two iterations of three particles. -/
example : (psoSolRun exSq false (fun _ => -10) (fun _ => 10) (fun _ => 8) [![4], ![6], ![-9]] [![0], ![0], ![0]]
      [{ exPsoDraw with mutant := some fun x j => x j / 2 }, { exPsoDraw with mutant := some fun x j => x j / 2, w := 1 / 2 }]).map
      (fun s => (s.particles.map fun x => x.x 0, s.pop.map fun x => x.x 0, s.evaluated.length, (psoBest exSq s.pop).map fun b => b.x 0)) =
    some ([-1, -2, -1 / 2], [2, -2, -1 / 2], 9, some (-1 / 2)) := by decide +kernel

end Props
