import Verif.Model.MOEAD
import Verif.Props.Decomposition
import Mathlib.Tactic.Linarith
import Mathlib.Tactic.NormNum
import Mathlib.Algebra.Order.Ring.Rat

/-!
# C65. MOEA/D: neighbourhoods, replacement, ideal point, and the order in which subproblems are visited
-/

set_option linter.unusedSimpArgs false
set_option linter.unusedVariables false
set_option linter.unusedSectionVars false

namespace Props
open Model

/-! ### Neighbourhoods -/

/-- `order` is what a sorting routine may return for the distances `d` (equal distances in any order). -/
def SortsBy {K : Type*} [LE K] (d : ℕ → K) (n : ℕ) (order : List ℕ) : Prop :=
  order.Perm (List.range n) ∧ order.Pairwise fun i j => d i ≤ d j

/-- C65. The neighbourhood of a subproblem: valid distinct indices, `n_neighbors` many (all of them if there are fewer), nothing
outside is closer than something inside, and the subproblem itself is in it, and comes first, if no other reference direction is the same. -/
theorem C65_neighbors {K : Type*} [LinearOrder K] [Zero K] (d : ℕ → K) (n t k : ℕ) (order : List ℕ) (h : SortsBy d n order) (hk : k < n)
    (hself : d k = 0) (hpos : ∀ j < n, j ≠ k → 0 < d j) (ht : 0 < t) :
    (moeadNeighbors t order).Nodup ∧ (∀ i ∈ moeadNeighbors t order, i < n) ∧ (moeadNeighbors t order).length = min t n ∧
    (∀ i ∈ moeadNeighbors t order, ∀ j < n, j ∉ moeadNeighbors t order → d i ≤ d j) ∧ (moeadNeighbors t order).head? = some k := by
  have hnd : order.Nodup := h.1.nodup_iff.2 List.nodup_range
  have hmem : ∀ i, i ∈ order ↔ i < n := fun i => by rw [h.1.mem_iff, List.mem_range]
  refine ⟨(List.take_sublist _ _).nodup hnd, fun i hi => (hmem i).1 (List.mem_of_mem_take hi), ?_, ?_, ?_⟩
  · rw [moeadNeighbors, List.length_take, h.1.length_eq, List.length_range]
  · intro i hi j hj hnj
    have hjo := (hmem j).2 hj
    rw [moeadNeighbors] at hi hnj
    rw [← List.take_append_drop t order, List.mem_append] at hjo
    have hp := h.2
    rw [← List.take_append_drop t order, List.pairwise_append] at hp
    exact hp.2.2 i hi j (hjo.resolve_left hnj)
  · rcases order with _ | ⟨a, l⟩
    · exact absurd ((hmem k).2 hk) (by simp)
    · rw [moeadNeighbors, List.head?_take, if_neg (by omega)]
      simp only [List.head?_cons, Option.some.injEq]
      by_contra hne
      have hkl : k ∈ l := by
        have := (hmem k).2 hk
        simp only [List.mem_cons] at this
        exact this.resolve_left (fun e => hne e.symm)
      have h1 := (List.pairwise_cons.1 h.2).1 k hkl
      rw [hself] at h1
      exact absurd (hpos a ((hmem a).1 (by simp)) hne) (not_lt.2 h1)

example : SortsBy (fun i => (if i = 1 then (0 : ℚ) else if i = 0 then 1 else 2)) 3 [1, 0, 2] ∧
    moeadNeighbors 2 [1, 0, 2] = [1, 0] := by
  refine ⟨⟨by decide, by decide +kernel⟩, rfl⟩

/-- C65. With two equal reference directions a subproblem need not be in its own neighbourhood: then its own offspring is never
compared with its own solution. -/
theorem C65_neighbors_equal_directions : ∃ order : List ℕ, SortsBy (fun _ => (0 : ℚ)) 2 order ∧ 0 ∉ moeadNeighbors 1 order :=
  ⟨[1, 0], ⟨by decide, by decide +kernel⟩, by decide⟩

/-- C65. Parents: distinct valid members of the population; with probability one all from the neighbourhood. An error exactly if there are too few. -/
theorem C65_parents {K : Type*} [Field K] [LinearOrder K] (prob r : K) (nParents n : ℕ) (N nperm perm : List ℕ) (hN : N.Nodup) (hNv : ∀ i ∈ N, i < n)
    (hp : nperm.Perm N) (hq : perm.Perm (List.range n)) :
    (∀ P, neighborhoodSelect prob r nParents nperm perm = some P → P.length = nParents ∧ P.Nodup ∧ (∀ i ∈ P, i < n) ∧
      (r < prob → ∀ i ∈ P, i ∈ N)) ∧
    (neighborhoodSelect prob r nParents nperm perm = none ↔ (r < prob ∧ N.length < nParents) ∨ (¬ r < prob ∧ n < nParents)) := by
  unfold neighborhoodSelect
  by_cases hr : r < prob
  · simp only [hr, if_true]
    constructor
    · intro P hP
      split_ifs at hP with hl
      cases hP
      refine ⟨by simp [hl], (List.take_sublist _ _).nodup (hp.nodup_iff.2 hN), ?_, ?_⟩
      · exact fun i hi => hNv i (hp.mem_iff.1 (List.mem_of_mem_take hi))
      · exact fun _ i hi => hp.mem_iff.1 (List.mem_of_mem_take hi)
    · rw [hp.length_eq]
      split_ifs with hl
      · simp; omega
      · simp; omega
  · simp only [hr, if_false]
    have hl' : perm.length = n := by rw [hq.length_eq, List.length_range]
    constructor
    · intro P hP
      split_ifs at hP with hl
      cases hP
      refine ⟨by simp [hl], (List.take_sublist _ _).nodup (hq.nodup_iff.2 List.nodup_range), ?_, ?_⟩
      · intro i hi
        have := hq.mem_iff.1 (List.mem_of_mem_take hi)
        simpa using this
      · exact fun h => h.elim
    · rw [hl']
      split_ifs with hl
      · simp; omega
      · simp; omega

example : neighborhoodSelect (9 / 10 : ℚ) (1 / 2) 2 [3, 1, 4] [4, 3, 2, 1, 0] = some [3, 1] ∧
    neighborhoodSelect (9 / 10 : ℚ) (19 / 20) 2 [3, 1, 4] [4, 3, 2, 1, 0] = some [4, 3] ∧
    neighborhoodSelect (9 / 10 : ℚ) (1 / 2) 4 [3, 1, 4] [4, 3, 2, 1, 0] = none := by
  refine ⟨?_, ?_, ?_⟩ <;> decide +kernel

/-! ### Replacement -/

section
variable {K : Type*} [Field K] [LinearOrder K] [IsStrictOrderedRing K] {α : Type*}

theorem foldl_set_get {β : Type*} (I : List ℕ) (g : ℕ → ℕ) (off : β) (pop : List β) (i : ℕ) (hi : i < pop.length) :
    (I.foldl (fun p j => p.set (g j) off) pop).length = pop.length ∧
    (I.foldl (fun p j => p.set (g j) off) pop)[i]? = if ∃ j ∈ I, g j = i then some off else pop[i]? := by
  induction I generalizing pop with
  | nil => simp
  | cons a I ih =>
    have hi' : i < (pop.set (g a) off).length := by simpa using hi
    obtain ⟨h1, h2⟩ := ih (pop.set (g a) off) hi'
    refine ⟨by rw [List.foldl_cons, h1, List.length_set], ?_⟩
    rw [List.foldl_cons, h2]
    by_cases hex : ∃ j ∈ I, g j = i
    · rw [if_pos hex, if_pos]
      obtain ⟨j, hj, e⟩ := hex
      exact ⟨j, by simp [hj], e⟩
    · rw [if_neg hex]
      by_cases ha : g a = i
      · rw [if_pos ⟨a, by simp, ha⟩, ← ha, List.getElem?_set_self (by rw [ha]; exact hi)]
      · rw [if_neg, List.getElem?_set_ne ha]
        rintro ⟨j, hj, e⟩
        simp only [List.mem_cons] at hj
        rcases hj with rfl | hj
        · exact ha e
        · exact hex ⟨j, hj, e⟩

variable (s : List K → List K → List K → K) (W : List (List K)) (u : List K) (N : List ℕ)

/-- What one replacement does, at least two objectives. -/
theorem moeadReplace_where (nObj : ℕ) (hm : 2 ≤ nObj) (pop : List (α × List K)) (off : α × List K)
    (hN : ∀ i ∈ N, i < pop.length ∧ i < W.length) :
    ∃ I : List ℕ, moeadReplace s nObj W u N pop off = some (I.foldl (fun p i => p.set ((N[i]?).getD 0) off) pop) ∧
      (∀ j ∈ I, j < N.length) ∧
      ∀ (j i : ℕ) (p : α × List K) (w : List K), N[j]? = some i → pop[i]? = some p → W[i]? = some w → (j ∈ I ↔ s u off.2 w < s u p.2 w) := by
  unfold moeadReplace
  rw [if_pos hN]
  simp only []
  have hm1 : (nObj == 1) = false := by simp; omega
  by_cases hl : N.length = 1
  · obtain ⟨i0, rfl⟩ := List.length_eq_one_iff.1 hl
    have ha : decompAuto (DecompArg.mat nObj ([i0].map fun i => ((pop[i]?).map Prod.snd).getD [])) (DecompArg.mat nObj ([i0].map fun i => (W[i]?).getD [])) =
        .manyToMany := by
      simp [decompAuto, DecompArg.is1d]
    have hb : decompAuto (DecompArg.mat nObj [off.2]) (DecompArg.mat nObj ([i0].map fun i => (W[i]?).getD [])) =
        .manyToMany := by
      simp [decompAuto, DecompArg.is1d]
    rw [ha, hb]
    refine ⟨if s u off.2 ((W[i0]?).getD []) < s u (((pop[i0]?).map Prod.snd).getD []) ((W[i0]?).getD []) then [0] else [], ?_, ?_, ?_⟩
    · simp only [decompDo, rowwise, DecompArg.rows, repeatRows, tileRows, reshapeMat, List.map_cons, List.map_nil,
        List.length_singleton, List.flatMap_cons, List.flatMap_nil, List.replicate_one, List.append_nil, List.flatten_cons,
        List.flatten_nil, if_true, List.zipWith_cons_cons, List.zipWith_nil_left, Option.map_some, Option.bind_some,
        List.range_one, Nat.zero_mul, List.drop_zero, List.take_succ_cons, List.take_zero, whereLess, List.headD_cons,
        List.getElem?_cons_zero, Option.getD_some, List.length_nil, List.take_nil, List.take]
      congr 2
      by_cases hc : s u off.2 ((W[i0]?).getD []) < s u (((pop[i0]?).map Prod.snd).getD []) ((W[i0]?).getD [])
      · simp [hc]
      · simp [hc]
    · intro j hj
      split_ifs at hj <;> simp_all
    · intro j i p w hj hp hw
      rcases j with _ | j
      · simp only [List.getElem?_cons_zero, Option.some.injEq] at hj
        subst hj
        simp only [hp, hw, Option.map_some, Option.getD_some]
        split_ifs with hc <;> simp [hc]
      · simp at hj
  · have hl1 : (N.length == 1) = false := by simp [hl]
    have ha : decompAuto (DecompArg.mat nObj (N.map fun i => ((pop[i]?).map Prod.snd).getD [])) (DecompArg.mat nObj (N.map fun i => (W[i]?).getD [])) =
        .oneToOne := by
      simp [decompAuto, DecompArg.is1d, hl1, hm1, DecompArg.rows]
    have hb : decompAuto (DecompArg.mat nObj [off.2]) (DecompArg.mat nObj (N.map fun i => (W[i]?).getD [])) =
        .oneToMany := by
      simp [decompAuto, DecompArg.is1d, hl1, hm1, DecompArg.rows]
    rw [ha, hb]
    have h1 := (C32_vectors (s u) (DecompArg.mat nObj (N.map fun i => ((pop[i]?).map Prod.snd).getD []))
      (DecompArg.mat nObj (N.map fun i => (W[i]?).getD [])) [] []).2.2 (by simp [DecompArg.rows])
    have h2 := (C32_vectors (s u) (DecompArg.mat nObj [off.2]) (DecompArg.mat nObj (N.map fun i => (W[i]?).getD [])) off.2 []).1
      (by simp [DecompArg.rows])
    rw [h1, h2]
    simp only [Option.bind_some, DecompArg.rows, whereLess]
    rw [if_pos (by simp)]
    simp only [Option.map_some]
    refine ⟨_, rfl, ?_, ?_⟩
    · intro j hj
      simp only [List.mem_filter, List.mem_range] at hj
      simpa using hj.1
    · intro j i p w hj hp hw
      have hjl := (List.getElem?_eq_some_iff.1 hj).1
      have e1 : (List.map (fun w => s u off.2 w) (List.map (fun i => (W[i]?).getD []) N))[j]? = some (s u off.2 w) := by
        simp [hj, hw]
      have e2 : (List.zipWith (s u) (List.map (fun i => ((pop[i]?).map Prod.snd).getD []) N) (List.map (fun i => (W[i]?).getD []) N))[j]? =
          some (s u p.2 w) := by
        simp [List.getElem?_zipWith, hj, hw, hp]
      rw [List.mem_filter, List.mem_range, e1, e2]
      simp [hjl]

/-- C65. Replacement: the population keeps its size; a solution is replaced by the offspring exactly if its subproblem is a
neighbour and the offspring has a strictly smaller scalarised value there; everything else stays. -/
theorem C65_replace (nObj : ℕ) (hm : 2 ≤ nObj) (pop : List (α × List K)) (off : α × List K)
    (hN : ∀ i ∈ N, i < pop.length ∧ i < W.length) :
    ∃ pop', moeadReplace s nObj W u N pop off = some pop' ∧ pop'.length = pop.length ∧
      (∀ i, i ∉ N → pop'[i]? = pop[i]?) ∧
      ∀ (i : ℕ) (p : α × List K) (w : List K), i ∈ N → pop[i]? = some p → W[i]? = some w →
        pop'[i]? = some (if s u off.2 w < s u p.2 w then off else p) := by
  obtain ⟨I, hI, hIl, hIm⟩ := moeadReplace_where s W u N nObj hm pop off hN
  refine ⟨_, hI, ?_, ?_, ?_⟩
  · rcases Nat.eq_zero_or_pos pop.length with h0 | h0
    · have hn : pop = [] := List.length_eq_zero_iff.1 h0
      subst hn
      have : I = [] := by
        rcases I with _ | ⟨a, I⟩
        · rfl
        · have := hIl a (by simp)
          have := (hN (N[a]'this) (List.getElem_mem _)).1
          simp at this
      rw [this]; rfl
    · exact (foldl_set_get I (fun i => (N[i]?).getD 0) off pop 0 h0).1
  · intro i hi
    by_cases hil : i < pop.length
    · rw [(foldl_set_get I (fun i => (N[i]?).getD 0) off pop i hil).2, if_neg]
      rintro ⟨j, hj, e⟩
      have hjl := hIl j hj
      rw [List.getElem?_eq_getElem hjl, Option.getD_some] at e
      exact hi (e ▸ List.getElem_mem _)
    · have hlen : ∀ (I : List ℕ) (q : List (α × List K)), (I.foldl (fun p i => p.set ((N[i]?).getD 0) off) q).length = q.length := by
        intro I
        induction I with
        | nil => intro q; rfl
        | cons a I ih => intro q; rw [List.foldl_cons, ih, List.length_set]
      rw [List.getElem?_eq_none (by rw [hlen]; omega), List.getElem?_eq_none (by omega)]
  · intro i p w hi hp hw
    have hil := (List.getElem?_eq_some_iff.1 hp).1
    rw [(foldl_set_get I (fun i => (N[i]?).getD 0) off pop i hil).2]
    obtain ⟨j, hjl, hj⟩ := List.getElem_of_mem hi
    have hj' : N[j]? = some i := by rw [List.getElem?_eq_getElem hjl, hj]
    by_cases hc : s u off.2 w < s u p.2 w
    · rw [if_pos, if_pos hc]
      exact ⟨j, (hIm j i p w hj' hp hw).2 hc, by rw [hj', Option.getD_some]⟩
    · rw [if_neg, hp, if_neg hc]
      rintro ⟨j', hj'', e⟩
      have hl' := hIl j' hj''
      have e' : N[j']? = some i := by
        rw [List.getElem?_eq_getElem hl'] at e ⊢
        simpa using e
      exact hc ((hIm j' i p w e' hp hw).1 hj'')

example : moeadReplace (fun u f w => tchebicheff u f w) 2 [[1, 0], [1 / 2, 1 / 2], [0, 1]] [0, 0] [0, 1]
    [("a", [2, 6]), ("b", [4, 4]), ("c", [6, (2 : ℚ)])] ("o", [3, 1]) =
      some [("a", [2, 6]), ("o", [3, 1]), ("c", [6, 2])] := by decide +kernel

end

/-! ### Runs -/

section
variable {K : Type*} [Field K] [LinearOrder K] [IsStrictOrderedRing K] {α R : Type*}

/-- What the set-up guarantees (`moead.py:89-108`): one reference direction, with its weights and its neighbours, for every one of the
`n` subproblems, and a random generator that permutes. -/
structure MoeadOk (c : MoeadCfg K α R) (n : ℕ) : Prop where
  obj : 2 ≤ c.nObj
  pos : 0 < n
  nbrs : c.neighbors.length = n
  nbr : ∀ N ∈ c.neighbors, ∀ i ∈ N, i < n
  wts : c.weights.length = n
  perm : ∀ r k, (c.perm r k).1.Perm (List.range k)
  f : ∀ x, (c.f x).length = c.nObj

/-- Between two passes over the subproblems. -/
def MoeadIdle (m : MoeadState K α R) : Prop := m.gen = none ∧ m.state = none

/-- In the middle of a pass: an offspring of subproblem `k` is waiting, `rest` follow. -/
def MoeadBusy (m : MoeadState K α R) (k : ℕ) (rest : List ℕ) : Prop := m.gen = some ⟨some k, rest⟩ ∧ m.state.isSome

theorem moeadAbsorb_ok (c : MoeadCfg K α R) (n k : ℕ) (hc : MoeadOk c n) (m : MoeadState K α R) (hp : m.pop.length = n) (hk : k < n)
    (off : α × List K) : ∃ m' N, c.neighbors[k]? = some N ∧ moeadAbsorb c k off m = some m' ∧ m'.pop.length = n ∧ m'.ideal = moeadIdeal m.ideal off.2 ∧
      m'.rng = m.rng ∧ m'.gen = m.gen ∧ m'.state = m.state ∧
      (∀ i, i ∉ N → m'.pop[i]? = m.pop[i]?) ∧
      ∀ (i : ℕ) (p : α × List K) (w : List K), i ∈ N → m.pop[i]? = some p → c.weights[i]? = some w →
        m'.pop[i]? = some (if c.s (m'.ideal.map fun v => v - c.eps) off.2 w < c.s (m'.ideal.map fun v => v - c.eps) p.2 w then off else p) := by
  have hkl : k < c.neighbors.length := by rw [hc.nbrs]; exact hk
  obtain ⟨pop', h1, h2, h3, h4⟩ := C65_replace c.s c.weights ((moeadIdeal m.ideal off.2).map fun v => v - c.eps) (c.neighbors[k]'hkl) c.nObj hc.obj
    m.pop off (fun i hi => by
      have := hc.nbr _ (List.getElem_mem hkl) i hi
      exact ⟨by omega, by rw [hc.wts]; exact this⟩)
  refine ⟨{ m with pop := pop', ideal := moeadIdeal m.ideal off.2 }, _, List.getElem?_eq_getElem hkl, ?_, by rw [h2, hp], rfl, rfl, rfl, rfl, h3, h4⟩
  unfold moeadAbsorb
  simp only [List.getElem?_eq_getElem hkl, Option.bind_some, h1, Option.map_some]

/-- One call of `next` in the middle of a pass. -/
theorem moeadNext_busy (c : MoeadCfg K α R) (n k : ℕ) (rest : List ℕ) (hc : MoeadOk c n) (m : MoeadState K α R) (hp : m.pop.length = n) (hk : k < n)
    (hb : MoeadBusy m k rest) :
    ∃ m' x m1, m.state = some x ∧ moeadAbsorb c k (x, c.f x) m = some m1 ∧
      moeadNext c m = some (m', ⟨some (x, c.f x), rest.isEmpty⟩) ∧ m'.pop = m1.pop ∧ m'.ideal = m1.ideal ∧
      (rest = [] → MoeadIdle m') ∧ (∀ k' ks, rest = k' :: ks → MoeadBusy m' k' ks) := by
  obtain ⟨x, hx⟩ := Option.isSome_iff_exists.1 hb.2
  obtain ⟨m1, N, hN, h1, h2, h3, h4, h5, h6, -⟩ := moeadAbsorb_ok c n k hc m hp hk (x, c.f x)
  have hi : moeadInfill c m = some m := by unfold moeadInfill; rw [hx]; rfl
  have ha : moeadAdvance c (some (x, c.f x)) m = some (moeadYield c rest m1) := by
    unfold moeadAdvance
    rw [hb.1]
    simp only [h1, Option.map_some]
  refine ⟨(moeadYield c rest m1).1, x, m1, hx, h1, ?_, ?_, ?_, ?_, ?_⟩
  · unfold moeadNext
    simp only [hi, hx, Option.bind_some, Option.map_some, ha]
    rcases rest with _ | ⟨k', ks⟩ <;> rfl
  · rcases rest with _ | ⟨k', ks⟩ <;> rfl
  · rcases rest with _ | ⟨k', ks⟩ <;> rfl
  · rintro rfl; exact ⟨rfl, rfl⟩
  · rintro k' ks rfl; exact ⟨rfl, rfl⟩

/-- The first call of `next` in a pass. -/
theorem moeadNext_idle (c : MoeadCfg K α R) (n : ℕ) (hc : MoeadOk c n) (m : MoeadState K α R) (hp : m.pop.length = n) (hi : MoeadIdle m) :
    ∃ m0 k rest, (c.perm m.rng n).1 = k :: rest ∧ m0.pop = m.pop ∧ m0.ideal = m.ideal ∧ MoeadBusy m0 k rest ∧ moeadNext c m = moeadNext c m0 := by
  have hperm := hc.perm m.rng n
  rcases hl : (c.perm m.rng n).1 with _ | ⟨k, rest⟩
  · rw [hl] at hperm
    have := hperm.length_eq
    rw [List.length_range] at this
    have := hc.pos
    simp at *
    omega
  · refine ⟨(moeadYield c (k :: rest) { m with rng := (c.perm m.rng n).2 }).1, k, rest, rfl, rfl, rfl, ⟨rfl, rfl⟩, ?_⟩
    have e : moeadInfill c m = some (moeadYield c (k :: rest) { m with rng := (c.perm m.rng n).2 }).1 := by
      unfold moeadInfill
      rw [hi.2]
      simp only [Option.isNone_none, if_true, moeadAdvance, hi.1, hp, hl, Option.map_some, hi.2]
    have e2 : moeadInfill c (moeadYield c (k :: rest) { m with rng := (c.perm m.rng n).2 }).1 =
        some (moeadYield c (k :: rest) { m with rng := (c.perm m.rng n).2 }).1 := by
      unfold moeadInfill
      rfl
    unfold moeadNext
    rw [e, e2]

/-- The states in which `next` may be called. -/
def MoeadInv (n : ℕ) (m : MoeadState K α R) : Prop :=
  m.pop.length = n ∧ (MoeadIdle m ∨ ∃ k rest, MoeadBusy m k rest ∧ k < n ∧ ∀ i ∈ rest, i < n)

/-- One call of `next`: one offspring is evaluated; only a neighbourhood of one subproblem changes, only for the better. -/
theorem C65_next (c : MoeadCfg K α R) (n : ℕ) (hc : MoeadOk c n) (m : MoeadState K α R) (hm : MoeadInv n m) :
    ∃ m' x b N, moeadNext c m = some (m', ⟨some (x, c.f x), b⟩) ∧ MoeadInv n m' ∧ (b = true ↔ MoeadIdle m') ∧ N ∈ c.neighbors ∧
      m'.ideal = moeadIdeal m.ideal (c.f x) ∧
      (∀ i, i ∉ N → m'.pop[i]? = m.pop[i]?) ∧
      ∀ (i : ℕ) (p : α × List K) (w : List K), i ∈ N → m.pop[i]? = some p → c.weights[i]? = some w →
        m'.pop[i]? = some (if c.s (m'.ideal.map fun v => v - c.eps) (c.f x) w < c.s (m'.ideal.map fun v => v - c.eps) p.2 w
          then (x, c.f x) else p) := by
  have key : ∀ (m : MoeadState K α R) k rest, m.pop.length = n → MoeadBusy m k rest → k < n → (∀ i ∈ rest, i < n) →
    ∃ m' x b N, moeadNext c m = some (m', ⟨some (x, c.f x), b⟩) ∧ MoeadInv n m' ∧ (b = true ↔ MoeadIdle m') ∧ N ∈ c.neighbors ∧
      m'.ideal = moeadIdeal m.ideal (c.f x) ∧
      (∀ i, i ∉ N → m'.pop[i]? = m.pop[i]?) ∧
      ∀ (i : ℕ) (p : α × List K) (w : List K), i ∈ N → m.pop[i]? = some p → c.weights[i]? = some w →
        m'.pop[i]? = some (if c.s (m'.ideal.map fun v => v - c.eps) (c.f x) w < c.s (m'.ideal.map fun v => v - c.eps) p.2 w
          then (x, c.f x) else p) := by
    intro m k rest hp hb hk hr
    obtain ⟨m', x, m1, hx, h1, h2, h3, h4, h5, h6⟩ := moeadNext_busy c n k rest hc m hp hk hb
    obtain ⟨m1', N, hN, g1, g2, g3, -, -, -, g4, g5⟩ := moeadAbsorb_ok c n k hc m hp hk (x, c.f x)
    rw [h1] at g1
    cases g1
    refine ⟨m', x, _, N, h2, ⟨by rw [h3, g2], ?_⟩, ?_, List.mem_of_getElem? hN, by rw [h4, g3], by rw [h3]; exact g4, by rw [h3, h4]; exact g5⟩
    · rcases rest with _ | ⟨k', ks⟩
      · exact Or.inl (h5 rfl)
      · exact Or.inr ⟨k', ks, h6 k' ks rfl, hr k' (by simp), fun i hi => hr i (by simp [hi])⟩
    · rcases rest with _ | ⟨k', ks⟩
      · simp [h5 rfl]
      · have := (h6 k' ks rfl).1
        simp [MoeadIdle, this]
  obtain ⟨hp, hi | ⟨k, rest, hb, hk, hr⟩⟩ := hm
  · obtain ⟨m0, k, rest, h1, h2, h3, h4, h5⟩ := moeadNext_idle c n hc m hp hi
    have hperm := hc.perm m.rng n
    rw [h1] at hperm
    have hlt : ∀ i ∈ k :: rest, i < n := fun i hi => by simpa using hperm.mem_iff.1 hi
    rw [h5, ← h2, ← h3]
    exact key m0 k rest (by rw [h2, hp]) h4 (hlt k (by simp)) (fun i hi => hlt i (by simp [hi]))
  · exact key m k rest hp hb hk hr

/-- The smallest value of every objective among the individuals `E`. -/
def IsIdealOf (E : List (α × List K)) (ideal : List K) : Prop :=
  ∀ (j : ℕ) (v : K), ideal[j]? = some v → (∃ p ∈ E, p.2[j]? = some v) ∧ ∀ p ∈ E, ∀ w, p.2[j]? = some w → v ≤ w

theorem isIdealOf_step (E : List (α × List K)) (ideal : List K) (q : α × List K) (h : IsIdealOf E ideal) (hl : ideal.length = q.2.length) :
    IsIdealOf (E ++ [q]) (moeadIdeal ideal q.2) := by
  intro j v hv
  rw [moeadIdeal, List.getElem?_zipWith] at hv
  have hjl : j < ideal.length := by
    by_contra hge
    rw [List.getElem?_eq_none (by omega)] at hv
    simp at hv
  have hjq : j < q.2.length := by omega
  rw [List.getElem?_eq_getElem hjl, List.getElem?_eq_getElem hjq] at hv
  simp only [Option.some.injEq] at hv
  obtain ⟨⟨p, hp, hpv⟩, hmin⟩ := h j _ (List.getElem?_eq_getElem hjl)
  refine ⟨?_, ?_⟩
  · rcases min_choice (ideal[j]) (q.2[j]) with e | e
    · exact ⟨p, by simp [hp], by rw [hpv, ← hv, e]⟩
    · exact ⟨q, by simp, by rw [List.getElem?_eq_getElem hjq, ← hv, e]⟩
  · intro p' hp' w hw
    rw [List.mem_append, List.mem_singleton] at hp'
    rw [← hv]
    rcases hp' with hp' | rfl
    · exact (min_le_left _ _).trans (hmin p' hp' w hw)
    · rw [List.getElem?_eq_getElem hjq] at hw
      cases hw
      exact min_le_right _ _

/-- C65. The ideal point after the initialisation: the smallest value of every objective in the population. -/
theorem C65_initial_ideal (pop : List (α × List K)) (k : ℕ) (hk : ∀ p ∈ pop, p.2.length = k) :
    (pop = [] → moeadInitIdeal pop = none) ∧
    (pop ≠ [] → ∃ ideal, moeadInitIdeal pop = some ideal ∧ ideal.length = k ∧ IsIdealOf pop ideal) := by
  refine ⟨by rintro rfl; rfl, ?_⟩
  intro hne
  rcases pop with _ | ⟨p, ps⟩
  · exact absurd rfl hne
  refine ⟨_, rfl, ?_⟩
  have key : ∀ (ps E : List (α × List K)) (a : List K), (∀ q ∈ ps, q.2.length = k) → a.length = k → IsIdealOf E a →
      (ps.foldl (fun a q => moeadIdeal a q.2) a).length = k ∧ IsIdealOf (E ++ ps) (ps.foldl (fun a q => moeadIdeal a q.2) a) := by
    intro ps
    induction ps with
    | nil => intro E a _ h1 h2; simpa using ⟨h1, h2⟩
    | cons q ps ih =>
      intro E a hq h1 h2
      have hq0 := hq q (by simp)
      have := ih (E ++ [q]) (moeadIdeal a q.2) (fun r hr => hq r (by simp [hr])) (by simp [moeadIdeal, h1, hq0])
        (isIdealOf_step E a q h2 (by omega))
      simpa using this
  have := key ps [p] p.2 (fun q hq => hk q (by simp [hq])) (hk p (by simp)) (by
    intro j v hv
    refine ⟨⟨p, by simp, hv⟩, ?_⟩
    intro p' hp' w hw
    simp only [List.mem_singleton] at hp'
    subst hp'
    rw [hv] at hw
    cases hw
    exact le_refl _)
  simpa using this

example : moeadInitIdeal [("a", [2, 6]), ("b", [4, 4]), ("c", [6, (2 : ℚ)])] = some [2, 2] := by decide +kernel

/-- C65. Any number of iterations, for every behaviour of the random generator and of the operators: no error, the population keeps its size, every member is one of the individuals
that were evaluated, with the objective values of its design vector, and the ideal point is the smallest value of every objective among all individuals evaluated so far. -/
theorem C65_run (c : MoeadCfg K α R) (n : ℕ) (hc : MoeadOk c n) (t : ℕ) (m : MoeadState K α R) (hm : MoeadInv n m) (E : List (α × List K))
    (hE : ∀ p ∈ m.pop, p ∈ E) (hl : m.ideal.length = c.nObj) (hid : IsIdealOf E m.ideal) :
    ∃ m' seen, moeadNexts c t m = some (m', seen) ∧ seen.length = t ∧ (∀ v ∈ seen, ∃ x, v.evaluated = some (x, c.f x)) ∧
      MoeadInv n m' ∧ m'.pop.length = n ∧
      (∀ p ∈ m'.pop, p ∈ E ∨ some p ∈ seen.map MoeadSeen.evaluated) ∧
      IsIdealOf (E ++ seen.filterMap MoeadSeen.evaluated) m'.ideal := by
  induction t generalizing m E with
  | zero => exact ⟨m, [], rfl, rfl, by simp, hm, hm.1, fun p hp => Or.inl (hE p hp), by simpa using hid⟩
  | succ t ih =>
    obtain ⟨m1, x, b, N, h1, h2, -, hN, h3, h4, h5⟩ := C65_next c n hc m hm
    have hmem : ∀ p ∈ m1.pop, p ∈ E ∨ p = (x, c.f x) := by
      intro p hp
      obtain ⟨i, hi, rfl⟩ := List.getElem_of_mem hp
      have hin : i < n := by rw [h2.1] at hi; exact hi
      have hip : i < m.pop.length := by rw [hm.1]; exact hin
      by_cases hiN : i ∈ N
      · have := h5 i _ _ hiN (List.getElem?_eq_getElem hip) (List.getElem?_eq_getElem (by rw [hc.wts]; exact hin))
        rw [List.getElem?_eq_getElem hi, Option.some.injEq] at this
        rw [this]
        split_ifs
        · exact Or.inr rfl
        · exact Or.inl (hE _ (List.getElem_mem _))
      · have := h4 i hiN
        rw [List.getElem?_eq_getElem hi, List.getElem?_eq_getElem hip, Option.some.injEq] at this
        rw [this]
        exact Or.inl (hE _ (List.getElem_mem _))
    have hlx := hc.f x
    obtain ⟨m', seen, g1, g2, g3, g4, g5, g6, g7⟩ := ih m1 h2 (E ++ [(x, c.f x)]) (fun p hp => by
        rcases hmem p hp with h | h
        · simp [h]
        · simp [h]) (by rw [h3, moeadIdeal, List.length_zipWith]; omega)
        (by rw [h3]; exact isIdealOf_step E m.ideal (x, c.f x) hid (by rw [hl]; exact hlx.symm))
    refine ⟨m', ⟨some (x, c.f x), b⟩ :: seen, ?_, by simp [g2], ?_, g4, g5, ?_, ?_⟩
    · simp [moeadNexts, h1, g1]
    · intro v hv
      rw [List.mem_cons] at hv
      rcases hv with rfl | hv
      · exact ⟨x, rfl⟩
      · exact g3 v hv
    · intro p hp
      rcases g6 p hp with h | h
      · rw [List.mem_append, List.mem_singleton] at h
        rcases h with h | rfl
        · exact Or.inl h
        · exact Or.inr (by simp)
      · exact Or.inr (by rw [List.map_cons, List.mem_cons]; exact Or.inr h)
    · simpa using g7

/-- Composition of calls. -/
theorem moeadNexts_add (c : MoeadCfg K α R) (a b : ℕ) (m m1 m2 : MoeadState K α R) (l1 l2 : List (MoeadSeen K α))
    (h1 : moeadNexts c a m = some (m1, l1)) (h2 : moeadNexts c b m1 = some (m2, l2)) : moeadNexts c (a + b) m = some (m2, l1 ++ l2) := by
  induction a generalizing m l1 with
  | zero =>
    simp only [moeadNexts, Option.some.injEq, Prod.mk.injEq] at h1
    obtain ⟨rfl, rfl⟩ := h1
    simpa using h2
  | succ a ih =>
    rw [moeadNexts] at h1
    rw [show a + 1 + b = (a + b) + 1 from by omega, moeadNexts]
    obtain ⟨r, hr, h1⟩ := Option.bind_eq_some_iff.1 h1
    obtain ⟨q, hq, h1⟩ := Option.map_eq_some_iff.1 h1
    simp only [Prod.mk.injEq] at h1
    obtain ⟨rfl, rfl⟩ := h1
    rw [hr]
    simp [ih r.1 q.2 hq]

/-- The rest of a pass. -/
theorem moead_rest (c : MoeadCfg K α R) (n : ℕ) (hc : MoeadOk c n) (rest : List ℕ) : ∀ (k : ℕ) (m : MoeadState K α R), m.pop.length = n →
    (∀ i ∈ k :: rest, i < n) → MoeadBusy m k rest →
    ∃ m' seen, moeadNexts c (rest.length + 1) m = some (m', seen) ∧ MoeadIdle m' ∧ m'.pop.length = n ∧
      seen.map MoeadSeen.ended = List.replicate rest.length false ++ [true] := by
  induction rest with
  | nil =>
    intro k m hp hlt hb
    obtain ⟨m', x, m1, hx, h1, h2, h3, h4, h5, h6⟩ := moeadNext_busy c n k [] hc m hp (hlt k (by simp)) hb
    obtain ⟨m1', N, hN, g1, g2, -⟩ := moeadAbsorb_ok c n k hc m hp (hlt k (by simp)) (x, c.f x)
    rw [h1] at g1
    cases g1
    exact ⟨m', [⟨some (x, c.f x), true⟩], by simp [moeadNexts, h2], h5 rfl, by rw [h3, g2], rfl⟩
  | cons k' ks ih =>
    intro k m hp hlt hb
    obtain ⟨m', x, m1, hx, h1, h2, h3, h4, h5, h6⟩ := moeadNext_busy c n k (k' :: ks) hc m hp (hlt k (by simp)) hb
    obtain ⟨m1', N, hN, g1, g2, -⟩ := moeadAbsorb_ok c n k hc m hp (hlt k (by simp)) (x, c.f x)
    rw [h1] at g1
    cases g1
    obtain ⟨m2, seen, q1, q2, q3, q4⟩ := ih k' m' (by rw [h3, g2]) (fun i hi => hlt i (by simp only [List.mem_cons] at hi ⊢; exact Or.inr hi)) (h6 k' ks rfl)
    refine ⟨m2, ⟨some (x, c.f x), false⟩ :: seen, ?_, q2, q3, ?_⟩
    · rw [List.length_cons, moeadNexts, h2]
      simp [q1]
    · rw [List.map_cons, q4]
      simp [List.replicate_succ]

/-- C65. A generation of MOEA/D takes exactly as many iterations, with one evaluation each, as there are subproblems; only the last one of them ends
the generation (only then the optimum, the termination criterion and the callback are updated), so `g` generations cost exactly `g` times the population size. -/
theorem C65_generation (c : MoeadCfg K α R) (n : ℕ) (hc : MoeadOk c n) (g : ℕ) (m : MoeadState K α R) (hp : m.pop.length = n) (hi : MoeadIdle m) :
    ∃ m' seen, moeadNexts c (g * n) m = some (m', seen) ∧ MoeadIdle m' ∧ m'.pop.length = n ∧
      seen.map MoeadSeen.ended = (List.replicate g (List.replicate (n - 1) false ++ [true])).flatten := by
  induction g generalizing m with
  | zero => exact ⟨m, [], by simp [moeadNexts], hi, hp, rfl⟩
  | succ g ih =>
    obtain ⟨m0, k, rest, h1, h2, h3, h4, h5⟩ := moeadNext_idle c n hc m hp hi
    have hperm := hc.perm m.rng n
    rw [h1] at hperm
    have hlt : ∀ i ∈ k :: rest, i < n := fun i hi => by simpa using hperm.mem_iff.1 hi
    have hlen : rest.length + 1 = n := by
      have := hperm.length_eq
      simpa using this
    obtain ⟨m1, seen1, q1, q2, q3, q4⟩ := moead_rest c n hc rest k m0 (by rw [h2, hp]) hlt h4
    have q1' : moeadNexts c n m = some (m1, seen1) := by
      rw [← hlen, moeadNexts, h5, ← moeadNexts, q1]
    obtain ⟨m2, seen2, r1, r2, r3, r4⟩ := ih m1 q3 q2
    refine ⟨m2, seen1 ++ seen2, ?_, r2, r3, ?_⟩
    · rw [Nat.add_mul, Nat.one_mul, Nat.add_comm]
      exact moeadNexts_add c n (g * n) m m1 m2 seen1 seen2 q1' r1
    · rw [List.map_append, q4, r4, List.replicate_succ, List.flatten_cons, show n - 1 = rest.length by omega]

/-- C65. If the scalarisation does not depend on the ideal point (weighted sum), no subproblem's value ever gets worse. -/
theorem C65_monotone (c : MoeadCfg K α R) (n : ℕ) (hc : MoeadOk c n) (hs : ∀ u u' f w, c.s u f w = c.s u' f w) (t : ℕ) (m m' : MoeadState K α R)
    (seen : List (MoeadSeen K α)) (hm : MoeadInv n m) (h : moeadNexts c t m = some (m', seen)) (i : ℕ) (p p' : α × List K) (w u : List K)
    (hw : c.weights[i]? = some w) (hp : m.pop[i]? = some p) (hp' : m'.pop[i]? = some p') : c.s u p'.2 w ≤ c.s u p.2 w := by
  induction t generalizing m seen p with
  | zero =>
    simp only [moeadNexts, Option.some.injEq, Prod.mk.injEq] at h
    obtain ⟨rfl, -⟩ := h
    rw [hp] at hp'
    cases hp'
    exact le_refl _
  | succ t ih =>
    obtain ⟨m1, x, b, N, h1, h2, -, hN, h3, h4, h5⟩ := C65_next c n hc m hm
    rw [moeadNexts, h1, Option.bind_some] at h
    obtain ⟨q, hq, h⟩ := Option.map_eq_some_iff.1 h
    simp only [Prod.mk.injEq] at h
    obtain ⟨rfl, -⟩ := h
    by_cases hiN : i ∈ N
    · have e := h5 i p w hiN hp hw
      refine (ih m1 q.2 h2 hq _ e).trans ?_
      split_ifs with hc
      · rw [hs u (m1.ideal.map fun v => v - c.eps), hs u (m1.ideal.map fun v => v - c.eps) p.2]
        exact hc.le
      · exact le_refl _
    · have e := h4 i hiN
      rw [hp] at e
      exact ih m1 q.2 h2 hq p e

/-- A small configuration: two subproblems, each the neighbour of both. -/
def moeadDemo : MoeadCfg ℚ ℕ ℕ where
  nObj := 2
  neighbors := [[0, 1], [1, 0]]
  weights := [[1, 0], [0, 1]]
  s := fun _ f w => weightedSum f w
  eps := 0
  perm := fun r n => (List.range n, r)
  mate := fun r _ k => (r + k, r + 3)
  f := fun x => [(x : ℚ), 5 - (x : ℚ)]

example : MoeadOk moeadDemo 2 where
  obj := by decide
  pos := by decide
  nbrs := by decide
  nbr := by decide
  wts := by decide
  perm := fun r k => List.Perm.refl _
  f := fun x => rfl

example : ((moeadNexts moeadDemo 2 ⟨[(4, [4, 1]), (4, [4, 1])], [4, 1], 1, none, none⟩).map fun r => (r.1.pop, r.1.ideal, r.2.map MoeadSeen.ended)) =
    some ([(1, [1, 4]), (5, [5, 0])], [1, 0], [false, true]) := by decide +kernel

/-! ### Parallel variant -/

/-- C65. The parallel variant: all offspring update the ideal point first; then the replacements; sizes and membership as before. -/
theorem C65_parallel (c : MoeadCfg K α R) (n : ℕ) (hc : MoeadOk c n) (m : MoeadState K α R) (hp : m.pop.length = n) (indices : List ℕ)
    (hidx : ∀ k ∈ indices, k < n) (infills : List (α × List K)) (hF : ∀ p ∈ infills, p.2.length = c.nObj) :
    (indices.length ≠ infills.length → moeadParallel c indices infills m = none) ∧
    (indices.length = infills.length → ∃ m', moeadParallel c indices infills m = some m' ∧ m'.pop.length = n ∧
      (∀ p ∈ m'.pop, p ∈ m.pop ∨ p ∈ infills) ∧
      ∀ E, m.ideal.length = c.nObj → IsIdealOf E m.ideal → IsIdealOf (E ++ infills) m'.ideal) := by
  refine ⟨fun h => by rw [moeadParallel, if_neg h], ?_⟩
  intro h
  rw [moeadParallel, if_pos h]
  simp only []
  generalize hu : (infills.foldl (fun a q => moeadIdeal a q.2) m.ideal).map (fun v => v - c.eps) = u
  have key : ∀ (l : List (ℕ × (α × List K))) (pop : List (α × List K)), (∀ q ∈ l, q.1 < n) → pop.length = n →
      ∃ pop', l.foldlM (fun pop q => (c.neighbors[q.1]?).bind fun N => moeadReplace c.s c.nObj c.weights u N pop q.2) pop = some pop' ∧
        pop'.length = n ∧ ∀ p ∈ pop', p ∈ pop ∨ ∃ q ∈ l, p = q.2 := by
    intro l
    induction l with
    | nil => intro pop _ h; exact ⟨pop, rfl, h, fun p hp => Or.inl hp⟩
    | cons q l ih =>
      intro pop hq hpl
      have hkl : q.1 < c.neighbors.length := by rw [hc.nbrs]; exact hq q (by simp)
      obtain ⟨pop1, h1, h2, h3, h4⟩ := C65_replace c.s c.weights u (c.neighbors[q.1]'hkl) c.nObj hc.obj pop q.2
        (fun i hi => by
          have := hc.nbr _ (List.getElem_mem hkl) i hi
          exact ⟨by omega, by rw [hc.wts]; exact this⟩)
      obtain ⟨pop', g1, g2, g3⟩ := ih pop1 (fun r hr => hq r (by simp [hr])) (by rw [h2, hpl])
      refine ⟨pop', ?_, g2, ?_⟩
      · rw [List.foldlM_cons, List.getElem?_eq_getElem hkl, Option.bind_some, h1]
        exact g1
      · intro p hp
        rcases g3 p hp with hp | ⟨r, hr, rfl⟩
        · obtain ⟨i, hi, rfl⟩ := List.getElem_of_mem hp
          have hip : i < pop.length := by omega
          by_cases hiN : i ∈ c.neighbors[q.1]'hkl
          · have := h4 i _ _ hiN (List.getElem?_eq_getElem hip) (List.getElem?_eq_getElem (by rw [hc.wts]; omega))
            rw [List.getElem?_eq_getElem hi, Option.some.injEq] at this
            rw [this]
            split_ifs
            · exact Or.inr ⟨q, by simp, rfl⟩
            · exact Or.inl (List.getElem_mem _)
          · have := h3 i hiN
            rw [List.getElem?_eq_getElem hi, List.getElem?_eq_getElem hip, Option.some.injEq] at this
            rw [this]
            exact Or.inl (List.getElem_mem _)
        · exact Or.inr ⟨r, by simp [hr], rfl⟩
  obtain ⟨pop', h1, h2, h3⟩ := key (List.zip indices infills) m.pop (fun q hq => hidx _ (List.of_mem_zip hq).1) hp
  refine ⟨_, by rw [h1]; rfl, h2, ?_, ?_⟩
  · intro p hp
    rcases h3 p hp with h | ⟨q, hq, rfl⟩
    · exact Or.inl h
    · exact Or.inr (List.of_mem_zip hq).2
  · intro E hl hE
    have : ∀ (l E : List (α × List K)) (a : List K), (∀ q ∈ l, q.2.length = c.nObj) → a.length = c.nObj → IsIdealOf E a →
        IsIdealOf (E ++ l) (l.foldl (fun a q => moeadIdeal a q.2) a) := by
      intro l
      induction l with
      | nil => intro E a _ _ h; simpa using h
      | cons q l ih =>
        intro E a hq ha h
        have := ih (E ++ [q]) (moeadIdeal a q.2) (fun r hr => hq r (by simp [hr])) (by simp [moeadIdeal, ha, hq q (by simp)])
          (isIdealOf_step E a q h (by rw [ha, hq q (by simp)]))
        simpa using this
    exact this infills E m.ideal hF hl hE

example : ((moeadParallel moeadDemo [1, 0] [(9, [0, 9]), (8, [9, (0 : ℚ)])] ⟨[(4, [4, 1]), (4, [4, 1])], [4, 1], 1, none, none⟩).map
    fun m => (m.pop, m.ideal)) = some ([(9, [0, 9]), (8, [9, 0])], [0, 0]) := by decide +kernel

/-! ### What replacement means for the objectives -/

/-- C65. With the Tchebicheff scalarisation (default for two objectives) an offspring that is strictly better in every objective
than the solution of a neighbouring subproblem always replaces it. -/
theorem C65_dominating_enters (u f p w : List K) (n : ℕ) (hn : 0 < n) (hf : f.length = n) (hp : p.length = n) (hu : u.length = n) (hw : w.length = n)
    (hlt : ∀ (i : ℕ) (a b : K), f[i]? = some a → p[i]? = some b → a < b) (hui : ∀ (i : ℕ) (a b : K), u[i]? = some a → f[i]? = some b → a ≤ b)
    (hw0 : ∀ v ∈ w, 0 ≤ v) (hw1 : ∃ v ∈ w, 0 < v) : tchebicheff u f w < tchebicheff u p w := by
  obtain ⟨⟨i, a, b, d, hfi, hub, hwd, e⟩, -⟩ := C32_tchebicheff_value u f w n hn hf hu hw
  obtain ⟨-, hmax⟩ := C32_tchebicheff_value u p w n hn hp hu hw
  have hin : i < n := by rw [← hf]; exact (List.getElem?_eq_some_iff.1 hfi).1
  have hpi : p[i]? = some (p[i]'(by omega)) := List.getElem?_eq_getElem (by omega)
  have h1 := hlt i a _ hfi hpi
  have h2 := hui i b a hub hfi
  have hd := hw0 d (List.mem_of_getElem? hwd)
  rw [e, abs_of_nonneg (by linarith)]
  rcases hd.lt_or_eq with hd | hd
  · have := hmax i _ b d hpi hub hwd
    rw [abs_of_nonneg (by linarith)] at this
    exact lt_of_lt_of_le (by nlinarith) this
  · obtain ⟨v, hv, hv0⟩ := hw1
    obtain ⟨j, hj, rfl⟩ := List.getElem_of_mem hv
    have hjf : f[j]? = some (f[j]'(by omega)) := List.getElem?_eq_getElem (by omega)
    have hjp : p[j]? = some (p[j]'(by omega)) := List.getElem?_eq_getElem (by omega)
    have hju : u[j]? = some (u[j]'(by omega)) := List.getElem?_eq_getElem (by omega)
    have := hmax j _ _ _ hjp hju (List.getElem?_eq_getElem hj)
    have g1 := hlt j _ _ hjf hjp
    have g2 := hui j _ _ hju hjf
    rw [abs_of_nonneg (by linarith)] at this
    rw [← hd, mul_zero]
    exact lt_of_lt_of_le (mul_pos (by linarith) hv0) this

example : tchebicheff ([0, 0] : List ℚ) [1, 2] [1, 0] < tchebicheff ([0, 0] : List ℚ) [2, 3] [1, 0] := by decide +kernel

/-- C65. MOEA/D keeps no elite: the solution with the best value of an objective, dominated by nobody, can be replaced, so the ideal point is attained by no
member of the population any more. -/
theorem C65_loses_best : moeadReplace (fun u f w => tchebicheff u f w) 2 [[1 / 2, 1 / 2]] [1, 3] [0] [("a", [1, (6 : ℚ)])] ("o", [3, 3]) =
    some [("o", [3, 3])] := by decide +kernel

end
end Props
