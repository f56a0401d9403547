import Verif.Model.Dominator

namespace Lemmas
open Model Spec
variable {α : Type*} [LinearOrder α] {m : ℕ}

theorem relLoop_one (a b : Fin m → α) (l : List (Fin m)) :
    relLoop a b l 1 = if ∃ i ∈ l, b i < a i then 0 else 1 := by
  induction l with
  | nil => simp [relLoop]
  | cons i is ih =>
    rw [relLoop]
    rcases lt_trichotomy (a i) (b i) with h | h | h
    · simp [h, ih, not_lt_of_gt h]
    · simp [h, ih]
    · simp [h, not_lt_of_gt h]

theorem relLoop_neg (a b : Fin m → α) (l : List (Fin m)) :
    relLoop a b l (-1) = if ∃ i ∈ l, a i < b i then 0 else -1 := by
  induction l with
  | nil => simp [relLoop]
  | cons i is ih =>
    rw [relLoop]
    rcases lt_trichotomy (a i) (b i) with h | h | h
    · simp [h]
    · simp [h, ih]
    · simp [h, ih, not_lt_of_gt h]

theorem relLoop_zero (a b : Fin m → α) (l : List (Fin m)) :
    relLoop a b l 0 =
      if (∃ i ∈ l, a i < b i) ∧ ¬ (∃ i ∈ l, b i < a i) then 1
      else if (∃ i ∈ l, b i < a i) ∧ ¬ (∃ i ∈ l, a i < b i) then -1 else 0 := by
  induction l with
  | nil => simp [relLoop]
  | cons i is ih =>
    rw [relLoop]
    rcases lt_trichotomy (a i) (b i) with h | h | h
    · have h' := not_lt_of_gt h
      simp only [h, if_true, relLoop_one, List.mem_cons, exists_eq_or_imp, true_or, not_true, and_false,
        h', false_or, if_false, true_and]
      simp only [show (0:ℤ) ≠ -1 by decide, if_false]
      split <;> simp_all
    · have h1 : ¬ a i < b i := by simp [h]
      have h2 : ¬ b i < a i := by simp [h]
      simp only [h1, h2, if_false, ih, List.mem_cons, exists_eq_or_imp, false_or]
    · have h' := not_lt_of_gt h
      simp only [h, if_true, relLoop_neg, List.mem_cons, exists_eq_or_imp, true_or, not_true, and_false,
        h', false_or, if_false, true_and]
      simp only [show (0:ℤ) ≠ 1 by decide, if_false]
      split <;> simp_all

theorem dominates_iff (a b : Fin m → α) :
    Dominates a b ↔ (∃ i, a i < b i) ∧ ¬ ∃ i, b i < a i := by
  simp [Dominates, and_comm]

theorem dominates_strictPO : StrictPO (fun a b : Fin m → α => Dominates a b) where
  irrefl a h := by obtain ⟨_, i, hi⟩ := h; exact lt_irrefl _ hi
  trans a b c h1 h2 := by
    obtain ⟨h1, i, hi⟩ := h1
    obtain ⟨h2, _⟩ := h2
    exact ⟨fun i => (h1 i).trans (h2 i), i, hi.trans_le (h2 i)⟩

theorem relLoop_full (a b : Fin m → α) :
    relLoop a b (List.finRange m) 0 = if Dominates a b then 1 else if Dominates b a then -1 else 0 := by
  rw [relLoop_zero]
  simp only [dominates_iff, List.mem_finRange, true_and]

end Lemmas
