import Verif.Lemmas.Dominator
import Mathlib.Data.Fin.VecNotation
import Mathlib.Data.Rat.Defs
import Mathlib.Algebra.Order.Ring.Rat
import Mathlib.Tactic.NormNum
import Mathlib.Tactic.FinCases

/-! # C01, C02: dominance -/

namespace Props
open Model Spec Lemmas
variable {α β : Type*} [LinearOrder α] [LinearOrder β] {m n k : ℕ}

/-- C01. The three answers of `get_relation` mean exactly "a better", "b better", "neither". -/
theorem C01_get_relation (a b : Fin m → α) (cva cvb : Option β) :
    (getRelation a b cva cvb = 1 ↔ Better a b cva cvb) ∧
    (getRelation a b cva cvb = -1 ↔ Better b a cvb cva) ∧
    (getRelation a b cva cvb = 0 ↔ ¬ Better a b cva cvb ∧ ¬ Better b a cvb cva) := by
  have asym : ∀ a b : Fin m → α, Dominates a b → ¬ Dominates b a := fun a b h h' =>
    dominates_strictPO.irrefl a (dominates_strictPO.trans a b a h h')
  have key : ∀ a b : Fin m → α,
      (relLoop a b (List.finRange m) 0 = 1 ↔ Dominates a b) ∧
      (relLoop a b (List.finRange m) 0 = -1 ↔ Dominates b a) ∧
      (relLoop a b (List.finRange m) 0 = 0 ↔ ¬ Dominates a b ∧ ¬ Dominates b a) := by
    intro a b
    rw [relLoop_full]
    by_cases h1 : Dominates a b
    · simp [h1, asym a b h1]
    · by_cases h2 : Dominates b a <;> simp [h1, h2]
  cases cva with
  | none => simpa [getRelation, Better] using key a b
  | some x =>
    cases cvb with
    | none => simpa [getRelation, Better] using key a b
    | some y =>
      rcases lt_trichotomy x y with h | h | h
      · simp [getRelation, Better, h, h.ne, h.ne', not_lt_of_gt h]
      · simpa [getRelation, Better, h] using key a b
      · simp [getRelation, Better, h, h.ne, h.ne', not_lt_of_gt h]

example : getRelation ![1, 2, 3] ![1, 3, 3] (some 0) (some (0 : ℤ)) = 1 ∧
    getRelation ![1, 2, 3] ![1, 1, 3] (none : Option ℤ) (some 0) = -1 ∧
    getRelation ![1, 9] ![2, 1] (some 1) (some (0 : ℤ)) = -1 ∧
    getRelation ![1, 9] ![2, 1] (none : Option ℤ) none = 0 := by decide

/-- C01. Swapping the arguments negates the answer. -/
theorem C01_antisymmetric (a b : Fin m → α) (cva cvb : Option β) :
    getRelation b a cvb cva = - getRelation a b cva cvb := by
  obtain ⟨h1, h2, h3⟩ := C01_get_relation a b cva cvb
  obtain ⟨g1, g2, g3⟩ := C01_get_relation b a cvb cva
  by_cases ha : Better a b cva cvb
  · rw [h1.2 ha, g2.2 ha]
  · by_cases hb : Better b a cvb cva
    · rw [h2.2 hb, g1.2 hb]; rfl
    · rw [h3.2 ⟨ha, hb⟩, g3.2 ⟨hb, ha⟩]; rfl

example : getRelation ![2, 1] ![2, 5] (some (3 : ℤ)) (some 3) = 1 := by decide

/-- C01. No solution dominates itself. -/
theorem C01_self (a : Fin m → α) (cva : Option β) : getRelation a a cva cva = 0 := by
  have := C01_antisymmetric a a cva cva
  omega

/-- C01. Dominance is transitive (all three violations given). -/
theorem C01_transitive_cv (a b c : Fin m → α) (x y z : β)
    (h1 : getRelation a b (some x) (some y) = 1) (h2 : getRelation b c (some y) (some z) = 1) :
    getRelation a c (some x) (some z) = 1 := by
  rw [(C01_get_relation _ _ _ _).1] at *
  simp only [Better] at *
  rcases h1 with h1 | ⟨rfl, h1⟩
  · rcases h2 with h2 | ⟨rfl, _⟩
    · exact Or.inl (h1.trans h2)
    · exact Or.inl h1
  · rcases h2 with h2 | ⟨rfl, h2⟩
    · exact Or.inl h2
    · exact Or.inr ⟨rfl, dominates_strictPO.trans _ _ _ h1 h2⟩

example : getRelation ![1, 5] ![1, 7] (some (0 : ℤ)) (some 0) = 1 ∧
    getRelation ![1, 7] ![0, 0] (some (0 : ℤ)) (some 2) = 1 := by decide

/-- C01. Dominance is transitive (no violations given). -/
theorem C01_transitive (a b c : Fin m → α)
    (h1 : getRelation a b (none : Option β) none = 1) (h2 : getRelation b c (none : Option β) none = 1) :
    getRelation a c (none : Option β) none = 1 := by
  rw [(C01_get_relation _ _ _ _).1] at *
  exact dominates_strictPO.trans _ _ _ h1 h2

example : getRelation ![1, 5] ![1, 7] (none : Option ℤ) none = 1 ∧
    getRelation ![1, 7] ![3, 7] (none : Option ℤ) none = 1 := by decide

section Matrix
variable [AddCommGroup α]

/-- C02. Meaning of every entry of the vectorised domination matrix, for any tolerance. -/
theorem C02_matrix_entry (F : Fin n → Fin m → α) (F' : Fin k → Fin m → α) (eps : α) (i : Fin n) (j : Fin k) :
    (dominationMatrix F F' eps i j = 1 ↔
      (∃ c, F i c + eps < F' j c) ∧ ∀ c, F i c ≤ F' j c + eps) ∧
    (dominationMatrix F F' eps i j = -1 ↔
      (∃ c, F' j c + eps < F i c) ∧ ∀ c, F' j c ≤ F i c + eps) ∧
    (dominationMatrix F F' eps i j ∈ ({-1, 0, 1} : Set ℤ)) := by
  have e1 : ((List.finRange m).any fun c => decide (F i c + eps < F' j c)) = true ↔ ∃ c, F i c + eps < F' j c := by
    simp
  have e2 : ((List.finRange m).any fun c => decide (F i c > F' j c + eps)) = true ↔ ∃ c, F' j c + eps < F i c := by
    simp
  have f1 : (∀ c, F i c ≤ F' j c + eps) ↔ ¬ ∃ c, F' j c + eps < F i c := by simp
  have f2 : (∀ c, F' j c ≤ F i c + eps) ↔ ¬ ∃ c, F i c + eps < F' j c := by simp
  rw [f1, f2, ← e1, ← e2]
  unfold dominationMatrix
  generalize (List.finRange m).any (fun c => decide (F i c + eps < F' j c)) = s
  generalize (List.finRange m).any (fun c => decide (F i c > F' j c + eps)) = l
  cases s <;> cases l <;> simp

/-- C02. Without tolerance the vectorised matrix is `get_relation` of the rows. -/
theorem C02_matrix_eq_relation (F : Fin n → Fin m → α) (F' : Fin k → Fin m → α) (i : Fin n) (j : Fin k) :
    dominationMatrix F F' 0 i j = getRelation (F i) (F' j) (none : Option ℤ) none := by
  obtain ⟨h1, h2, h3⟩ := C02_matrix_entry F F' 0 i j
  obtain ⟨g1, g2, g3⟩ := C01_get_relation (F i) (F' j) (none : Option ℤ) none
  simp only [add_zero] at h1 h2
  have d1 : dominationMatrix F F' 0 i j = 1 ↔ Dominates (F i) (F' j) := by rw [h1, Dominates, and_comm]
  have d2 : dominationMatrix F F' 0 i j = -1 ↔ Dominates (F' j) (F i) := by rw [h2, Dominates, and_comm]
  simp only [Better] at g1 g2 g3
  by_cases ha : Dominates (F i) (F' j)
  · rw [d1.2 ha, g1.2 ha]
  · by_cases hb : Dominates (F' j) (F i)
    · rw [d2.2 hb, g2.2 hb]
    · rw [g3.2 ⟨ha, hb⟩]
      rcases h3 with h | h | h
      · exact absurd (d2.1 h) hb
      · exact h
      · exact absurd (d1.1 h) ha

/-- C02. The loop version and the vectorised version agree when there are no constraints
(`G` has no columns, or no row has a positive entry). -/
theorem C02_loop_eq_vectorised (F : Fin n → Fin m → α) (G : Fin n → List α)
    (hG : ∀ i, ∀ g ∈ G i, g ≤ 0) (i j : Fin n) :
    dominationMatrixLoop F G i j = dominationMatrix F F 0 i j := by
  have hs : ∀ i, sumPositive (G i) = 0 := by
    intro i
    unfold sumPositive
    apply List.sum_eq_zero
    intro x hx
    obtain ⟨g, hg, rfl⟩ := List.mem_map.1 hx
    rw [if_neg (not_lt.2 (hG i g hg))]
  have r : ∀ i j, getRelation (F i) (F j) (some (sumPositive (G i))) (some (sumPositive (G j))) =
      getRelation (F i) (F j) (none : Option ℤ) none := by
    intro i j; simp [hs, getRelation]
  rw [C02_matrix_eq_relation]
  unfold dominationMatrixLoop
  rw [r, r]
  rcases lt_trichotomy i j with h | h | h
  · rw [if_pos h]
  · subst h; rw [if_neg (lt_irrefl _), if_neg (lt_irrefl _), C01_self]
  · rw [if_neg (not_lt_of_gt h), if_pos h, ← C01_antisymmetric]

/-- C02. With constraints the loop version answers 1 exactly if row `i` is better in the constrained
sense, the violation of a row being the sum of its positive entries; and it is skew-symmetric. -/
theorem C02_loop_constrained (F : Fin n → Fin m → α) (G : Fin n → List α) (i j : Fin n) :
    (dominationMatrixLoop F G i j = 1 ↔
      Better (F i) (F j) (some ((G i).map (max 0)).sum) (some ((G j).map (max 0)).sum)) ∧
    dominationMatrixLoop F G j i = - dominationMatrixLoop F G i j := by
  have hs : ∀ g : List α, sumPositive g = (g.map (max 0)).sum := by
    intro g
    unfold sumPositive
    congr 1
    apply List.map_congr_left
    intro x _
    by_cases hx : 0 < x
    · rw [if_pos hx, max_eq_right hx.le]
    · rw [if_neg hx, max_eq_left (not_lt.1 hx)]
  unfold dominationMatrixLoop
  simp only [hs]
  rcases lt_trichotomy i j with h | h | h
  · simp only [h, if_true, not_lt_of_gt h, if_false, C01_get_relation, true_and]
  · subst h
    simp only [lt_irrefl, if_false, neg_zero, and_true, Better, true_and, false_or]
    simpa using dominates_strictPO.irrefl (F i)
  · simp only [h, if_true, not_lt_of_gt h, if_false, neg_neg, and_true]
    rw [← C01_antisymmetric, (C01_get_relation _ _ _ _).1]

end Matrix

example : dominationMatrix ![![1, 2], ![1, 3], ![0, 9]] ![![1, 2], ![1, 3], ![0, 9]] (0 : ℤ) 0 1 = 1 ∧
    dominationMatrix ![![1, 2], ![1, 3], ![0, 9]] ![![1, 2], ![1, 3], ![0, 9]] (0 : ℤ) 0 2 = 0 ∧
    dominationMatrix ![![1, 2], ![1, 3]] ![![1, 2], ![1, 3]] (5 : ℤ) 0 1 = 0 := by decide
example : ∀ i : Fin 2, ∀ g ∈ (![[-1, 0], [-3]] : Fin 2 → List ℤ) i, g ≤ 0 := by decide
example : dominationMatrixLoop ![![1, 2], ![0, 0]] ![[-3, 2], [1, 2]] (0 : Fin 2) (1 : Fin 2) = (1 : ℤ) := by decide

end Props
