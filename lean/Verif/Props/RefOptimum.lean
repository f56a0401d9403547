import Verif.Model.RefOptimum
import Verif.Props.RankOptimum
import Verif.Props.NSGA3

/-! # C160: the optimum reported by NSGA-III, U-NSGA-III and NSDE-R -/

set_option linter.unusedSimpArgs false
set_option linter.unusedVariables false
set_option linter.unusedSectionVars false

namespace Props
open Model Spec Lemmas

section
variable {ι α β : Type*} {m : ℕ} [LinearOrder α] [LinearOrder β]

/-- What is needed of a survival: it returns `k` different members, and its `opt` is a non-empty list of different given individuals that no given individual dominates. -/
structure RefOk (F : ι → Fin m → α) (c : RefCall ι) : Prop where
  basic : ∀ sub k, sub.Nodup → 1 ≤ k → k ≤ sub.length → (c.op sub k).1.length = k ∧ (c.op sub k).1.Nodup ∧ ∀ x ∈ (c.op sub k).1, x ∈ sub
  opt : ∀ sub k, sub.Nodup → 1 ≤ k → k ≤ sub.length → (c.op sub k).2 ≠ [] ∧ (c.op sub k).2.Nodup ∧ ∀ x ∈ (c.op sub k).2, x ∈ sub ∧ ∀ y ∈ sub, ¬ Dominates (F y) (F x)

/-- One call of the survival: the population consists of different given individuals, and has a feasible one if there is one; then `survival.opt` has been written by this call. -/
theorem refSurvive_spec (at' : Attrs ι α β m) (c : RefCall ι) (hc : RefOk at'.F c) (hs : SortsCV at' c.sortCV) (split : Bool) (hsplit : split = false → ∀ x, at'.feas x = true)
    (n : ℕ) (hn1 : 1 ≤ n) (s : RefState ι) (hp : s.pop ≠ []) (hn : s.pop.Nodup) :
    let t := refSurvive split at'.feas n c s
    t.pop.Nodup ∧ (∀ x ∈ t.pop, x ∈ s.pop) ∧ t.pop.length = min n s.pop.length ∧ t.opt = s.opt ∧
    ((∃ x ∈ s.pop, at'.feas x = true) → (∃ x ∈ t.pop, at'.feas x = true) ∧ ∃ l, t.kept = some l ∧ l ≠ [] ∧ l.Nodup ∧ ∀ x ∈ l, feasibleFront at' s.pop x) := by
  intro t
  obtain ⟨u1, u2⟩ := rankSub_mem split at'.feas hsplit s.pop hn (c.sortCV s.pop)
  set sub := rankSub split at'.feas s.pop (c.sortCV s.pop) with hsub
  have hp0 : s.pop.length ≠ 0 := fun h => hp (List.length_eq_zero_iff.1 h)
  have hSe : t.pop = survivalDo split (fun l k => (c.op l k).1) at'.feas s.pop (c.sortCV s.pop) (some n) := rfl
  have hK : t.kept = if sub.length = 0 then s.kept else some (c.op sub (min sub.length (min n s.pop.length))).2 := rfl
  have hall : t.pop.Nodup ∧ (∀ x ∈ t.pop, x ∈ s.pop) ∧ t.pop.length = min n s.pop.length ∧ ((∃ x ∈ s.pop, at'.feas x = true) → ∃ x ∈ t.pop, at'.feas x = true) := by
    cases split with
    | false =>
      have := C12_unconstrained (fun l k => (c.op l k).1) at'.feas s.pop hp (c.sortCV s.pop) (some n)
      rw [hSe, this]
      obtain ⟨a1, a2, a3⟩ := hc.basic s.pop (min n s.pop.length) hn (by omega) (min_le_right _ _)
      simp only [Option.getD_some]
      refine ⟨a2, a3, a1, fun _ => ?_⟩
      have hne : (c.op s.pop (min n s.pop.length)).1 ≠ [] := by
        intro h; rw [h] at a1; simp at a1; omega
      obtain ⟨x, hx⟩ := List.exists_mem_of_ne_nil _ hne
      exact ⟨x, hx, hsplit rfl x⟩
    | true =>
      set op' : List ι → ℕ → List ι := fun sub k => if k = 0 then [] else (c.op sub k).1 with hop'
      have hbasic : ∀ sub k, sub.Nodup → k ≤ sub.length → (op' sub k).length = k ∧ (op' sub k).Nodup ∧ ∀ x ∈ op' sub k, x ∈ sub := by
        intro sub k hsn hk
        by_cases h0 : k = 0
        · subst h0; simp [hop']
        · simp only [hop', if_neg h0]; exact hc.basic sub k hsn (by omega) hk
      have hSe' : t.pop = survivalDo true op' at'.feas s.pop (c.sortCV s.pop) (some n) := by
        rw [hSe]
        simp only [survivalDo, if_neg hp0, Option.getD_some, if_true]
        by_cases hfl : (splitByFeasibility (fun i => at'.feas (s.pop.get i)) (c.sortCV s.pop) id true false).1.length = 0
        · simp only [if_pos hfl]
        · have : min (splitByFeasibility (fun i => at'.feas (s.pop.get i)) (c.sortCV s.pop) id true false).1.length (min n s.pop.length) ≠ 0 := by omega
          simp only [if_neg hfl, hop', if_neg this]
      have := C12_feasibility_first op' at'.feas at'.cv s.pop hn (c.sortCV s.pop) (hs s.pop) hbasic (some n)
      simp only [← hSe', Option.getD_some] at this
      obtain ⟨a1, a2, a3, a4, -⟩ := this
      refine ⟨a2, a3, a1, ?_⟩
      rintro ⟨x, hx, hxf⟩
      have hne : t.pop ≠ [] := by
        intro h; rw [h] at a1; simp at a1; omega
      obtain ⟨y, hy⟩ := List.exists_mem_of_ne_nil _ hne
      cases hyf : at'.feas y with
      | true => exact ⟨y, hy, hyf⟩
      | false => exact ⟨x, a4 y hy hyf x hx hxf, hxf⟩
  obtain ⟨b1, b2, b3, b4⟩ := hall
  refine ⟨b1, b2, b3, rfl, fun hf => ⟨b4 hf, ?_⟩⟩
  obtain ⟨x, hx, hxf⟩ := hf
  have hxs : x ∈ sub := (u2 x).2 ⟨hx, hxf⟩
  have h0 : sub.length ≠ 0 := fun h => by rw [List.length_eq_zero_iff.1 h] at hxs; simp at hxs
  obtain ⟨o1, o2, o3⟩ := hc.opt sub (min sub.length (min n s.pop.length)) u1 (by omega) (min_le_left _ _)
  refine ⟨_, by rw [hK, if_neg h0], o1, o2, fun y hy => ?_⟩
  obtain ⟨p1, p2⟩ := o3 y hy
  exact ⟨((u2 y).1 p1).1, ((u2 y).1 p1).2, fun z hz hzf => p2 z ((u2 z).2 ⟨hz, hzf⟩)⟩

/-- What `opt` is after a survival of the individuals `given`, with the population `pop`. -/
def RefReport (at' : Attrs ι α β m) (given pop : List ι) (opt : Option (List ι)) : Prop :=
  ∃ l, opt = some l ∧ l ≠ [] ∧ l.Nodup ∧ ((∃ x ∈ given, at'.feas x = true) → ∀ x ∈ l, feasibleFront at' given x) ∧
    ((∀ x ∈ given, at'.feas x = false) → ∃ x ∈ pop, l = [x] ∧ ∀ y ∈ pop, at'.cv x ≤ at'.cv y)

theorem refStep_spec (nsder : Bool) (at' : Attrs ι α β m) (c : RefCall ι) (hc : RefOk at'.F c) (hs : SortsCV at' c.sortCV) (split : Bool) (hsplit : split = false → ∀ x, at'.feas x = true)
    (n : ℕ) (hn1 : 1 ≤ n) (s : RefState ι) (hp : s.pop ≠ []) (hn : s.pop.Nodup) :
    ∃ t, refSetOptimum nsder at' (refSurvive split at'.feas n c s) = some t ∧ t.pop.Nodup ∧ (∀ x ∈ t.pop, x ∈ s.pop) ∧ t.pop.length = min n s.pop.length ∧
      ((∃ x ∈ s.pop, at'.feas x = true) → ∃ x ∈ t.pop, at'.feas x = true) ∧ RefReport at' s.pop t.pop t.opt := by
  obtain ⟨b1, b2, b3, b4, b5⟩ := refSurvive_spec at' c hc hs split hsplit n hn1 s hp hn
  set u := refSurvive split at'.feas n c s with hu
  unfold refSetOptimum
  by_cases hf : u.pop.any at'.feas = true
  · rw [if_neg (by simpa using hf)]
    obtain ⟨x, hx, hxf⟩ := List.any_eq_true.1 hf
    obtain ⟨-, l, k1, k2, k3, k4⟩ := b5 ⟨x, b2 x hx, hxf⟩
    have hrep : RefReport at' s.pop u.pop (some l) := ⟨l, rfl, k2, k3, fun _ => k4, fun h => by rw [h x (b2 x hx)] at hxf; cases hxf⟩
    have hl : l.length ≠ 0 := fun h => k2 (List.length_eq_zero_iff.1 h)
    cases nsder with
    | true => exact ⟨{ u with opt := u.kept }, by simp, b1, b2, b3, fun _ => ⟨x, hx, hxf⟩, by simpa only [k1] using hrep⟩
    | false => exact ⟨{ u with opt := some l }, by simp [k1, k2], b1, b2, b3, fun _ => ⟨x, hx, hxf⟩, hrep⟩
  · rw [if_pos (by simpa using hf)]
    have hne : u.pop ≠ [] := by
      intro h
      rw [h] at b3
      have : s.pop.length ≠ 0 := fun h => hp (List.length_eq_zero_iff.1 h)
      simp at b3; omega
    cases hx : npArgmin at'.cv u.pop with
    | none => exact absurd ((npArgmin_spec at'.cv u.pop).1.1 hx) hne
    | some x =>
      obtain ⟨m1, m2⟩ := (npArgmin_spec at'.cv u.pop).2 x hx
      refine ⟨{ u with opt := some [x] }, rfl, b1, b2, b3, fun h => ?_, [x], rfl, by simp, by simp, fun h => ?_, fun _ => ⟨x, m1, rfl, m2⟩⟩
      · exact (b5 h).1
      · obtain ⟨y, hy, hyf⟩ := (b5 h).1
        exact absurd (List.any_eq_true.2 ⟨y, hy, hyf⟩) hf

/-- The individuals given to the last survival of a run: the initial ones, or the population and the offspring of the last generation. -/
def LastGiven (nsder split : Bool) (at' : Attrs ι α β m) (popSize : ℕ) (init : List ι) (c0 : RefCall ι) (gens : List (RefGen ι)) (given : List ι) : Prop :=
  (gens = [] ∧ given = init) ∨ ∃ gs g s, gens = gs ++ [g] ∧ refRun nsder split at' popSize init c0 gs = some s ∧ given = g.off.elim s.pop (s.pop ++ ·)

/-- **C160.** In every run of NSGA-III, U-NSGA-III or NSDE-R, constrained or not, with any offspring and any number of generations: no generation raises an exception; once a feasible solution is among the individuals of a generation, the population has one after it; and the optimum reported is a non-empty list of different solutions. If the last generation had a feasible solution, all solutions reported are feasible solutions of the last generation, parents and offspring, that no feasible one of them dominates (so none in the population does); otherwise it is one member with the least violation. -/
theorem C160_optimum (nsder : Bool) (at' : Attrs ι α β m) (split : Bool) (hsplit : split = false → ∀ x, at'.feas x = true) (popSize : ℕ) (hn1 : 1 ≤ popSize)
    (init : List ι) (hi : init ≠ []) (c0 : RefCall ι) (gens : List (RefGen ι)) (hc : ∀ c ∈ c0 :: gens.map RefGen.call, RefOk at'.F c ∧ SortsCV at' c.sortCV)
    (hnd : (init ++ (gens.map fun g => g.off.getD []).flatten).Nodup) :
    ∃ s given, refRun nsder split at' popSize init c0 gens = some s ∧ LastGiven nsder split at' popSize init c0 gens given ∧
      s.pop ≠ [] ∧ s.pop.Nodup ∧ (∀ x ∈ s.pop, x ∈ given) ∧ ((∃ x ∈ given, at'.feas x = true) → ∃ x ∈ s.pop, at'.feas x = true) ∧ RefReport at' given s.pop s.opt := by
  suffices H : ∃ s given, refRun nsder split at' popSize init c0 gens = some s ∧ LastGiven nsder split at' popSize init c0 gens given ∧
      s.pop ≠ [] ∧ s.pop.Nodup ∧ (∀ x ∈ s.pop, x ∈ given) ∧ ((∃ x ∈ given, at'.feas x = true) → ∃ x ∈ s.pop, at'.feas x = true) ∧ RefReport at' given s.pop s.opt ∧
      ∀ x ∈ s.pop, x ∈ init ++ (gens.map fun g => g.off.getD []).flatten by
    obtain ⟨s, given, h1, h2, h3, h4, h5, h6, h7, -⟩ := H
    exact ⟨s, given, h1, h2, h3, h4, h5, h6, h7⟩
  have hil : init.length ≠ 0 := fun h => hi (List.length_eq_zero_iff.1 h)
  induction gens using List.reverseRecOn with
  | nil =>
    obtain ⟨t, t1, t2, t3, t4, t5, t6⟩ := refStep_spec nsder at' c0 (hc c0 (by simp)).1 (hc c0 (by simp)).2 split hsplit init.length (by omega) ⟨init, none, none⟩ hi (by simpa using hnd)
    refine ⟨t, init, ?_, Or.inl ⟨rfl, rfl⟩, ?_, t2, t3, t5, t6, ?_⟩
    · unfold refRun; rw [t1]; rfl
    · intro h; rw [h] at t4; simp at t4; omega
    · simpa using t3
  | append_singleton gs g ih =>
    have hnd' : (init ++ (gs.map fun g => g.off.getD []).flatten ++ g.off.getD []).Nodup := by simpa [List.append_assoc] using hnd
    obtain ⟨s, given, r1, r2, r3, r4, r5, r6, r7, r8⟩ := ih (fun c hcm => hc c (by
      rcases List.mem_cons.1 hcm with h | h
      · rw [h]; exact List.mem_cons_self
      · refine List.mem_cons_of_mem _ ?_
        rw [List.map_append]; exact List.mem_append_left _ h)) (List.nodup_append.1 hnd').1
    set merged := g.off.elim s.pop (s.pop ++ ·) with hm
    have hmne : merged ≠ [] := by rw [hm]; cases g.off <;> simp [r3]
    have hmnd : merged.Nodup := by
      rw [hm]
      cases ho : g.off with
      | none => simpa using r4
      | some o =>
        rw [ho] at hnd'
        obtain ⟨q1, q2, q3⟩ := List.nodup_append.1 hnd'
        simp only [Option.elim_some]
        exact List.nodup_append.2 ⟨r4, by simpa using q2, fun a ha b hb => q3 a (r8 a ha) b (by simpa using hb)⟩
    have hcm := hc g.call (by simp)
    obtain ⟨t, t1, t2, t3, t4, t5, t6⟩ := refStep_spec nsder at' g.call hcm.1 hcm.2 split hsplit popSize hn1 { s with pop := merged } hmne hmnd
    have hml : merged.length ≠ 0 := fun h => hmne (List.length_eq_zero_iff.1 h)
    refine ⟨t, merged, ?_, Or.inr ⟨gs, g, s, rfl, r1, rfl⟩, ?_, t2, t3, t5, t6, ?_⟩
    · unfold refRun at r1 ⊢
      rw [← t1]
      revert r1
      cases refSetOptimum nsder at' (refSurvive split at'.feas init.length c0 ⟨init, none, none⟩) with
      | none => intro r1; cases r1
      | some s0 =>
        intro r1
        have r1' : gs.foldlM (refAdvance nsder split at' popSize) s0 = some s := r1
        change (gs ++ [g]).foldlM (refAdvance nsder split at' popSize) s0 = _
        rw [List.foldlM_append, r1']
        simp [refAdvance, hm]
    · intro h; rw [h] at t4; simp at t4; omega
    · intro x hx
      have := t3 x hx
      simp only [List.map_append, List.flatten_append, List.map_cons, List.map_nil, List.flatten_cons, List.flatten_nil, List.append_nil]
      rw [← List.append_assoc]
      change x ∈ merged at this
      rw [hm] at this
      cases ho : g.off with
      | none => rw [ho] at this; exact List.mem_append_left _ (r8 x (by simpa using this))
      | some o =>
        rw [ho] at this
        simp only [Option.elim_some] at this
        rcases List.mem_append.1 this with h | h
        · exact List.mem_append_left _ (r8 x h)
        · exact List.mem_append_right _ (by simpa using h)

end

section
variable {ι α : Type*} {m : ℕ} [LinearOrder α] [AddCommGroup α] [IsOrderedAddMonoid α]

theorem nsga3_opt_nodup {N : ℕ} (fronts : List (List (Fin N))) (hnd : fronts.flatten.Nodup) (D : Fin N → List ℚ) (shuffle : ℕ → List ℕ → List ℕ) (n fuel : ℕ) (S O : List (Fin N))
    (h : nsga3Survive fronts D shuffle n fuel = some (S, O)) : O.Nodup := by
  have key : ∀ L : List ℕ, L.Nodup → (L.filterMap fun p => fronts.flatten[p]?).Nodup := fun L hL => filterMap_nodup_of _ hnd L hL
  unfold nsga3Survive at h
  dsimp only at h
  by_cases h1 : n < fronts.flatten.length
  · rw [if_pos h1] at h
    obtain ⟨st, -, hst⟩ := Option.map_eq_some_iff.1 h
    rw [← (Prod.mk.inj hst).2]
    refine key _ ?_
    by_cases h2 : ((List.range (fronts.headD []).length).filter fun p => p ∈ (((List.range fronts.flatten.length).map fun p => nicheOf ((Option.map D fronts.flatten[p]?).getD [])).dedup.map fun k => argminFirst ((List.range fronts.flatten.length).map fun p => ((Option.map D fronts.flatten[p]?).getD []).getD k 0))).length = 0
    · rw [if_pos h2]; exact List.nodup_range
    · rw [if_neg h2]; exact List.nodup_range.filter _
  · rw [if_neg h1] at h
    rw [← (Prod.mk.inj (Option.some.inj h)).2]
    refine key _ ?_
    by_cases h2 : ((List.range (fronts.headD []).length).filter fun p => p ∈ (((List.range fronts.flatten.length).map fun p => nicheOf ((Option.map D fronts.flatten[p]?).getD [])).dedup.map fun k => argminFirst ((List.range fronts.flatten.length).map fun p => ((Option.map D fronts.flatten[p]?).getD []).getD k 0))).length = 0
    · rw [if_pos h2]; exact List.nodup_range
    · rw [if_neg h2]; exact List.nodup_range.filter _

/-- **C160.** The survival by reference directions meets the conditions of `C160_optimum`, for all distances to the directions (that is, whatever the normalisation has seen before) and all random permutations. -/
theorem C160_survival {paretoRank : (N : ℕ) → (Fin N → Fin m → α) → Fin N → ℕ} (hpr : ∀ N F, IsParetoRank (fun i j => Dominates (F i) (F j)) (paretoRank N F)) (F : ι → Fin m → α)
    (dist : (sub : List ι) → Fin sub.length → List ℚ) (shuffle : ℕ → List ℕ → List ℕ) (hsh : ∀ t l, (shuffle t l).Perm l)
    (sortCV : (pop : List ι) → List (Fin pop.length) → List (Fin pop.length)) : RefOk F (nsga3Call paretoRank F dist shuffle sortCV) := by
  have main : ∀ sub k, sub.Nodup → 1 ≤ k → k ≤ sub.length → ∃ S O : List (Fin sub.length), (nsga3Call paretoRank F dist shuffle sortCV).op sub k = (S.map sub.get, O.map sub.get) ∧ S.length = k ∧ S.Nodup ∧
      O ≠ [] ∧ O.Nodup ∧ ∀ i ∈ O, ∀ j, ¬ Dominates (F (sub.get j)) (F (sub.get i)) := by
    intro sub k hn hk1 hk
    obtain ⟨all, fronts, -, c2, c3, -, c5⟩ := C10_native (paretoRank sub.length) (hpr sub.length) none 0 (fun i => F (sub.get i)) none (some k)
    have c5 := c5 k rfl
    rw [show leading none all = all from rfl] at c5
    obtain ⟨S, O, h1, h2, h3, -, h5, h6⟩ := C34_survival _ all fronts c2 k hk (by omega) c5 (dist sub) shuffle hsh k le_rfl
    refine ⟨S, O, ?_, h2, h3, h5, ?_, h6⟩
    · simp only [nsga3Call, c3, Option.bind_some, h1, Option.map_some, Option.getD_some]
    · have hfnd : fronts.flatten.Nodup := by
        obtain ⟨t, ht⟩ := c5.isPrefix
        have := c2.nodup
        rw [← ht, List.flatten_append] at this
        exact (List.nodup_append.1 this).1
      exact nsga3_opt_nodup fronts hfnd (dist sub) shuffle k k S O h1
  refine ⟨?_, ?_⟩
  · intro sub k hn hk1 hk
    obtain ⟨S, O, h1, h2, h3, -⟩ := main sub k hn hk1 hk
    rw [h1]
    refine ⟨by simpa using h2, h3.map (List.nodup_iff_injective_get.1 hn), ?_⟩
    intro x hx
    obtain ⟨i, -, rfl⟩ := List.mem_map.1 hx
    exact List.get_mem _ _
  · intro sub k hn hk1 hk
    obtain ⟨S, O, h1, -, -, h4, h5, h6⟩ := main sub k hn hk1 hk
    rw [h1]
    refine ⟨by simpa using h4, h5.map (List.nodup_iff_injective_get.1 hn), ?_⟩
    intro x hx
    obtain ⟨i, hi, rfl⟩ := List.mem_map.1 hx
    refine ⟨List.get_mem _ _, fun y hy => ?_⟩
    obtain ⟨j, rfl⟩ := List.get_of_mem hy
    exact h6 i hi j

end

/-! ### Examples -/

/-- NSGA-III on the numbers `10 a + b` with the objectives `a`, `b`, two directions, and distances by the table. -/
def exRefCall (feasible : ℕ → Bool) (table : ℕ → List ℚ) : RefCall ℕ :=
  nsga3Call chainRank (exDigits feasible).F (fun sub i => table (sub.get i)) (fun _ l => l) fun pop l => l.insertionSort fun a b => (exDigits feasible).cv (pop.get a) ≤ (exDigits feasible).cv (pop.get b)

theorem exRefCall_ok (feasible : ℕ → Bool) (table : ℕ → List ℚ) : RefOk (exDigits feasible).F (exRefCall feasible table) ∧ SortsCV (exDigits feasible) (exRefCall feasible table).sortCV :=
  ⟨C160_survival (fun N F => chainRank_ok N F) _ _ _ (fun _ _ => List.Perm.refl _) _, fun pop l => sortBy_ok (fun a => (exDigits feasible).cv (pop.get a)) l⟩

/-- A constrained run: all are infeasible at first, then `33` and `42` appear. -/
example : let feasible := fun x => decide (22 < x)
    let c := exRefCall feasible fun x => [(x / 10 : ℕ), (x % 10 : ℕ)]
    ((refRun false true (exDigits feasible) 3 [12, 11, 22] c []).map fun s => (s.pop, s.kept, s.opt)) = some ([11, 12, 22], none, some [11]) ∧
    ((refRun false true (exDigits feasible) 3 [12, 11, 22] c [⟨some [33, 42], c⟩]).map fun s => (s.pop, s.opt)) = some ([33, 42, 11], some [33, 42]) ∧ RefOk (exDigits feasible).F c := by
  intro feasible c
  exact ⟨by decide +kernel, by decide +kernel, (exRefCall_ok _ _).1⟩

/-- **C160, refuted for membership in the population**: `20`, `11` and `02` do not dominate each other. `11` is the closest to the second direction and is reported, but it belongs to the first niche and does not survive: the optimum of NSGA-III and of NSDE-R has a solution that is not in the population. -/
theorem C160_outside_refuted (nsder : Bool) :
    let table := fun x => if x = 20 then [0, 1 / 2] else if x = 11 then [1 / 25, 2 / 25] else [1, 1 / 2]
    let c := exRefCall (fun _ => true) table
    ((refRun nsder false (exDigits fun _ => true) 2 [20, 11] c [⟨some [2], c⟩]).map fun s => (s.pop, s.opt)) = some ([20, 2], some [20, 11]) := by
  cases nsder <;> decide +kernel

end Props
