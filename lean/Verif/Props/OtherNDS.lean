import Verif.Lemmas.OtherNDS
import Verif.Props.ENS

/-! # C06 - C09: bi-objective, find_non_dominated, dominance degree and tree-based sorting -/

namespace Props
open Model Spec Lemmas
variable {α : Type*} [LinearOrder α] {m n : ℕ}

/-! ## C06 -/

/-- C06 (partial). If no two points have the same first objective value, the native bi-objective routine
terminates and returns the canonical Pareto fronts, for every argsort of the first column.
Missing with respect to the full property: ties in the first objective (see the two refutations). -/
theorem C06_biobj_partial (I : Equiv.Perm (Fin n)) (F : Fin n → Fin 2 → α)
    (hI : SortedBy (fun a b => a 0 ≤ b 0) I F) (hties : ∀ i j, i ≠ j → F i 0 ≠ F j 0) (fuel : ℕ) (hf : n ≤ fuel) :
    ∃ fronts, biobjSort fuel I F = some fronts ∧
      CanonicalFronts (fun i j => Dominates (F i) (F j)) fronts := by
  have hpw : (List.finRange n).Pairwise (fun a b => F (I a) 0 < F (I b) 0) :=
    (List.pairwise_lt_finRange n).imp (fun {a b} h =>
      lt_of_le_of_ne (hI _ _ h) (hties _ _ (fun e => h.ne (I.injective e))))
  obtain ⟨r, r1, r2⟩ := biobjLoop_spec (fun i => F (I i)) fuel (List.finRange n) (by simpa using hf) hpw
  refine ⟨_, by rw [biobjSort, r1]; rfl, ?_⟩
  exact canonical_map I (dom := fun i j => Dominates (F i) (F j)) (r2.canonical (by simp))

example : let F : Fin 4 → Fin 2 → ℤ := ![![3, 3], ![1, 5], ![2, 2], ![4, 5]]
    let I : Equiv.Perm (Fin 4) := ⟨![1, 2, 0, 3], ![2, 0, 1, 3], by decide, by decide⟩
    (∀ i j, i < j → F (I i) 0 ≤ F (I j) 0) ∧ (∀ i j, i ≠ j → F i 0 ≠ F j 0) ∧
    biobjSort 4 I F = some [[1, 2], [0], [3]] := by decide

/-- C06 is violated by the unchanged code (1): with a tie in the first objective the first front contains a
point dominated by another member of the same front. -/
theorem C06_biobj_refuted_dominated_member :
    ∃ (F : Fin 2 → Fin 2 → ℤ) (I : Equiv.Perm (Fin 2)) (first : List (Fin 2)), SortedBy (fun a b => a 0 ≤ b 0) I F ∧
      biobjSort 2 I F = some [first] ∧ ∃ i ∈ first, ∃ j ∈ first, Dominates (F j) (F i) := by
  refine ⟨![![1, 5], ![1, 3]], Equiv.refl _, [0, 1], ?_, by decide, 0, by decide, 1, by decide, by decide⟩
  unfold SortedBy; decide

/-- C06 is violated by the unchanged code (2): of two equal points (neither dominated) only one is in the
first front. -/
theorem C06_biobj_refuted_duplicate :
    ∃ (F : Fin 2 → Fin 2 → ℤ) (I : Equiv.Perm (Fin 2)) (first : List (Fin 2)) (rest : List (List (Fin 2))),
      SortedBy (fun a b => a 0 ≤ b 0) I F ∧ biobjSort 2 I F = some (first :: rest) ∧
      ∃ i, i ∉ first ∧ ∀ j, ¬ Dominates (F j) (F i) := by
  refine ⟨![![1, 1], ![1, 1]], Equiv.refl _, [0], [[1]], ?_, by decide, 1, by decide, by decide⟩
  unfold SortedBy; decide

/-! ## C07 -/

section find
variable [AddCommGroup α] [IsOrderedAddMonoid α]

/-- C07. Membership for every tolerance `eps ≥ 0`. -/
theorem C07_find_epsilon (eps : α) (heps : 0 ≤ eps) (F : Fin n → Fin m → α) (i : Fin n) :
    i ∈ findNonDominated eps F ↔
      ¬ ∃ j, j ≠ i ∧ (∃ c, F j c + eps < F i c) ∧ ∀ c, F j c ≤ F i c + eps :=
  findNonDominated_mem eps heps F i

/-- C07. Without tolerance: exactly the indices of the non-dominated rows, in increasing order and without
repetition. -/
theorem C07_find_exact (F : Fin n → Fin m → α) :
    (∀ i, i ∈ findNonDominated 0 F ↔ ∀ j, ¬ Dominates (F j) (F i)) ∧
    (findNonDominated 0 F).Pairwise (· < ·) := by
  constructor
  · intro i
    rw [findNonDominated_mem 0 le_rfl]
    simp only [add_zero]
    push Not
    constructor
    · intro h j hd
      by_cases hji : j = i
      · subst hji; exact dominates_strictPO.irrefl _ hd
      · obtain ⟨c, hc⟩ := h j hji hd.2
        exact absurd hc (not_lt.2 (hd.1 c))
    · intro h j _ hb
      by_contra hcon
      push Not at hcon
      exact h j ⟨hcon, hb⟩
  · exact (List.pairwise_lt_finRange n).filter _

/-- C07. Some point is always found (without tolerance). -/
theorem C07_find_nonempty (F : Fin n → Fin m → α) (hn : 0 < n) : findNonDominated 0 F ≠ [] := by
  have hpo : StrictPO (fun i j => Dominates (F i) (F j)) :=
    ⟨fun i => dominates_strictPO.irrefl _, fun i j k => dominates_strictPO.trans _ _ _⟩
  obtain ⟨i, _, hi⟩ := StrictPO.exists_minimal hpo Set.univ ⟨⟨0, hn⟩, trivial⟩
  exact List.ne_nil_of_mem (((C07_find_exact F).1 i).2 fun j => hi j trivial)

/-- C07. `find_non_dominated(F, _F)` of `util/nds`: exactly the rows of `F` no row of `_F` dominates. -/
theorem C07_find_against {k : ℕ} (F : Fin n → Fin m → α) (F' : Fin k → Fin m → α) (i : Fin n) :
    i ∈ findNonDominatedAgainst F F' ↔ ∀ j, ¬ Dominates (F' j) (F i) := by
  unfold findNonDominatedAgainst
  simp only [List.mem_filter, List.mem_finRange, true_and, List.all_eq_true, true_implies, forall_const,
    decide_eq_true_eq]
  apply forall_congr'
  intro j
  rw [C02_matrix_eq_relation]
  obtain ⟨h1, h2, h3⟩ := C01_get_relation (F i) (F' j) (none : Option ℤ) none
  simp only [Better] at h1 h2 h3
  by_cases ha : Dominates (F' j) (F i)
  · simp [h2.2 ha, ha]
  · by_cases hb : Dominates (F i) (F' j)
    · simp [h1.2 hb, ha]
    · simp [h3.2 ⟨hb, ha⟩, ha]

end find

example : findNonDominated (0:ℤ) ![![1, 5], ![2, 2], ![1, 5], ![3, 3]] = [0, 1, 2] := by decide
example : findNonDominatedAgainst ![![1, 5], ![2, (2:ℤ)]] ![![1, 4]] = [1] := by decide

/-- With a positive tolerance `find_non_dominated` may return nothing at all although there are points: the
epsilon relation of the code is not transitive and can be cyclic. -/
theorem C07_epsilon_empty_refuted : ∃ (F : Fin 3 → Fin 3 → ℤ) (eps : ℤ), 0 < eps ∧ findNonDominated eps F = [] :=
  ⟨![![0, 1, 2], ![2, 0, 1], ![1, 2, 0]], 1, by decide, by decide⟩

/-! ## C08 -/

/-- C08. DDA-NS (strategy "fast") terminates and returns the canonical Pareto fronts, whatever order the
argsorts of the columns give equal values. -/
theorem C08_dda_fast (F : Fin n → Fin m → α) (b : Fin m → List (Fin n))
    (hb : ∀ c, ArgSorted (fun i => F i c) (b c)) (order : List (Fin n)) (hn : 0 < n) (hm : 0 < m)
    (fuel : ℕ) (hf : n ≤ fuel) :
    ∃ fronts, ddaSort "fast" fuel F b order = .ok fronts ∧
      CanonicalFronts (fun i j => Dominates (F i) (F j)) fronts := by
  obtain ⟨d, h1, h2, h3⟩ := degreeMatrix_spec F b hb hn hm
  have hpo : StrictPO (fun i j => Dominates (F i) (F j)) :=
    ⟨fun i => dominates_strictPO.irrefl _, fun i j k => dominates_strictPO.trans _ _ _⟩
  obtain ⟨r, r1, r2⟩ := ddaLoop_spec m hpo h2 h3 fuel Finset.univ d 0 (by simp) (by simp) (by simp)
    (by simpa using hf)
  refine ⟨r, ?_, r2.canonical (by simp)⟩
  simp [ddaSort, ddaNs, h1, r1]

/-- C08. DDA-ENS (strategy "efficient") returns the canonical Pareto fronts; `order` is any
`np.lexsort(F.T)`, i.e. any rearrangement sorted lexicographically with the last objective first. -/
theorem C08_dda_efficient (F : Fin n → Fin m → α) (b : Fin m → List (Fin n))
    (hb : ∀ c, ArgSorted (fun i => F i c) (b c)) (order : List (Fin n)) (ho : order.Perm (List.finRange n))
    (hs : order.Pairwise (fun i j => LexLELast (F i) (F j))) (hn : 0 < n) (hm : 0 < m) (fuel : ℕ) :
    ∃ fronts, ddaSort "efficient" fuel F b order = .ok fronts ∧
      CanonicalFronts (fun i j => Dominates (F i) (F j)) fronts := by
  obtain ⟨d, h1, h2, _⟩ := degreeMatrix_spec F b hb hn hm
  have hpo : StrictPO (fun i j => Dominates (F i) (F j)) :=
    ⟨fun i => dominates_strictPO.irrefl _, fun i j k => dominates_strictPO.trans _ _ _⟩
  obtain ⟨r1, r2⟩ := ddaEns_fold m hpo h2 order [] ⟨by simp, by simp, by simp, by simp⟩
    (by simpa using ho.nodup_iff.2 (List.nodup_finRange n)) (by simp)
    (hs.imp (fun h => lexLELast_not_dom h))
  refine ⟨_, by simp [ddaSort, ddaEns, h1], r1.canonical hpo (fun i => ?_)⟩
  rw [r2.mem_iff, List.flatten_nil, List.nil_append, ho.mem_iff]
  exact List.mem_finRange i

/-- C08. Any other strategy name is rejected with ValueError. -/
theorem C08_dda_invalid (F : Fin n → Fin m → α) (b : Fin m → List (Fin n)) (order : List (Fin n)) (fuel : ℕ)
    (s : String) : ddaSort s fuel F b order = .valueError ↔ s ≠ "efficient" ∧ s ≠ "fast" := by
  unfold ddaSort
  simp only
  split_ifs with h1 h2
  · cases ddaEns F b order <;> simp [h1]
  · cases ddaNs fuel F b <;> simp [h2]
  · simp [h1, h2]

/-- The sorts assumed above exist and the routine computes the fronts (with a tie in column 0). -/
example : let F : Fin 4 → Fin 2 → ℤ := ![![2, 2], ![1, 5], ![2, 3], ![1, 5]]
    let b : Fin 2 → List (Fin 4) := ![[1, 3, 2, 0], [0, 2, 3, 1]]
    (∀ c, (b c).Perm (List.finRange 4)) ∧ (∀ c, (b c).Pairwise (fun i j => F i c ≤ F j c)) ∧
    ddaSort "fast" 4 F b [] = .ok [[0, 1, 3], [2]] ∧
    ddaSort "efficient" 0 F b [0, 2, 1, 3] = .ok [[0, 1, 3], [2]] ∧
    ddaSort "other" 0 F b [] = .valueError := by decide

/-- Outside the guard `0 < m`: with no objective columns DDA-NS never makes progress (it would loop forever). -/
theorem C08_dda_no_objectives_diverges (fuel : ℕ) (F : Fin 1 → Fin 0 → ℤ) :
    ddaSort "fast" fuel F (fun c => c.elim0) [] = .failed := by
  have hloop : ∀ fuel (d : Fin 1 → Fin 1 → ℤ), ddaLoop 0 fuel d 0 = none := by
    intro fuel
    induction fuel with
    | zero => intro d; simp [ddaLoop]
    | succ fuel ih =>
      intro d
      have hfr : ddaFront 0 d = [] := by
        unfold ddaFront
        rw [List.filter_eq_nil_iff]
        intro i _
        cases ((List.finRange 1).map fun j => d j i).max? with
        | none => simp
        | some v => simp only [decide_eq_true_eq]; push_cast; omega
      rw [ddaLoop, if_pos (by omega)]
      simp only [hfr, List.length_nil, Nat.add_zero, ih]
      rfl
  simp [ddaSort, ddaNs, degreeMatrix, degreeLoop, hloop]

/-! ## C09 -/

/-- C09 (partial). For point sets without duplicate rows the tree-based sorting terminates and returns the
canonical Pareto fronts (as sets; the order inside a front is the tree traversal order), for every
lexicographic presort and every per-row objective order that is a permutation (`obj_seq`).
Missing with respect to the full property: duplicate rows (see the refutation). -/
theorem C09_tree_partial {b : ℕ} (I : Equiv.Perm (Fin n)) (seq : Fin n → Fin b → Fin b)
    (hseq : ∀ k, Function.Surjective (seq k)) (F : Fin n → Fin (b + 1) → α) (hI : SortedBy LexLE I F)
    (hdup : ∀ i j, i ≠ j → F i ≠ F j) (fuel : ℕ) (hf : n ≤ fuel) :
    ∃ fronts, treeSort fuel I seq F = some fronts ∧
      CanonicalFronts (fun i j => Dominates (F i) (F j)) fronts := by
  have h0 : ∀ {x y : Fin (b + 1) → α}, LexLE x y → x 0 ≤ y 0 := by
    rintro x y (rfl | ⟨k, h1, h2⟩)
    · exact le_refl _
    · rcases Nat.eq_zero_or_pos k.val with hk | hk
      · have : k = 0 := Fin.ext hk
        subst this; exact h2.le
      · exact (h1 0 (Fin.lt_def.2 hk)).le
  obtain ⟨r, r1, r2⟩ := treeLoop_spec (fun i => F (I i)) seq hseq
    (fun x y hxy => hdup _ _ (fun e => hxy (I.injective e))) fuel (List.finRange n) (by simpa using hf)
    (List.nodup_finRange n) ((List.pairwise_lt_finRange n).imp (fun h => h0 (hI _ _ h)))
    ((List.pairwise_lt_finRange n).imp (fun h => lexLE_not_dom (hI _ _ h)))
  refine ⟨_, by rw [treeSort, r1]; rfl, ?_⟩
  have := canonical_map I (dom := fun i j => Dominates (F i) (F j)) (r2.canonical (by simp))
  rw [List.map_map] at this
  exact this

example : let F : Fin 4 → Fin 3 → ℤ := ![![1, 4, 4], ![2, 3, 3], ![2, 5, 5], ![3, 3, 4]]
    let I : Equiv.Perm (Fin 4) := Equiv.refl _
    (∀ i j, i < j → (F (I i) = F (I j) ∨ ∃ k, (∀ l, l < k → F (I i) l = F (I j) l) ∧ F (I i) k < F (I j) k)) ∧
    (∀ i j, i ≠ j → F i ≠ F j) ∧
    treeSort 4 I (fun _ => id) F = some [[0, 1], [2, 3]] := by decide

/-- C09 is violated by the unchanged code on duplicate rows: the second copy of a non-dominated point is put
into the second front. -/
theorem C09_tree_refuted_duplicates :
    ∃ (F : Fin 2 → Fin 2 → ℤ) (I : Equiv.Perm (Fin 2)) (first : List (Fin 2)) (rest : List (List (Fin 2))),
      SortedBy LexLE I F ∧ treeSort 2 I (fun _ => id) F = some (first :: rest) ∧
      ∃ i, i ∉ first ∧ ∀ j, ¬ Dominates (F j) (F i) := by
  refine ⟨![![1, 1], ![1, 1]], Equiv.refl _, [0], [[1]], ?_, by decide, 1, by decide, by decide⟩
  unfold SortedBy LexLE; decide

end Props
