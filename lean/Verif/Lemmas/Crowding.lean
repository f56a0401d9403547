import Verif.Model.Crowding
import Mathlib.Order.Fin.Basic
import Mathlib.Algebra.BigOperators.Group.List.Lemmas
import Mathlib.Algebra.Order.BigOperators.Group.List
import Mathlib.Tactic.Ring
import Mathlib.Tactic.FieldSimp
import Mathlib.Algebra.BigOperators.Fin

set_option linter.unusedSimpArgs false

namespace Lemmas
open Model
variable {α : Type*} [Field α] [LinearOrder α] [IsStrictOrderedRing α] {n m : ℕ}

omit [IsStrictOrderedRing α] in
theorem columnNorm_sorted (col : Fin n → α) (hs : ∀ k l, k ≤ l → col k ≤ col l) (hn : 0 < n) :
    columnNorm col = col ⟨n - 1, by omega⟩ - col ⟨0, hn⟩ := by
  unfold columnNorm
  have h1 : ((List.finRange n).map col).max? = some (col ⟨n - 1, by omega⟩) := by
    rw [List.max?_eq_some_iff]
    refine ⟨List.mem_map.2 ⟨_, List.mem_finRange _, rfl⟩, fun b hb => ?_⟩
    obtain ⟨k, _, rfl⟩ := List.mem_map.1 hb
    exact hs _ _ (by rw [Fin.le_def]; simp only; omega)
  have h2 : ((List.finRange n).map col).min? = some (col ⟨0, hn⟩) := by
    rw [List.min?_eq_some_iff]
    refine ⟨List.mem_map.2 ⟨_, List.mem_finRange _, rfl⟩, fun b hb => ?_⟩
    obtain ⟨k, _, rfl⟩ := List.mem_map.1 hb
    exact hs _ _ (by rw [Fin.le_def]; simp only; omega)
  rw [h1, h2]; rfl

omit [IsStrictOrderedRing α] in
theorem columnNorm_eq_zero (col : Fin n → α) (hs : ∀ k l, k ≤ l → col k ≤ col l) (hn : 0 < n) :
    columnNorm col = 0 ↔ ∀ a b, col a = col b := by
  rw [columnNorm_sorted col hs hn, sub_eq_zero]
  constructor
  · intro h a b
    have e : ∀ a, col a = col ⟨0, hn⟩ := fun a => le_antisymm
      ((hs a ⟨n - 1, by omega⟩ (by rw [Fin.le_def]; simp only; omega)).trans h.le)
      (hs _ _ (by rw [Fin.le_def]; simp only; omega))
    rw [e a, e b]
  · intro h; exact h _ _

theorem columnNorm_nonneg (col : Fin n → α) (hs : ∀ k l, k ≤ l → col k ≤ col l) (hn : 0 < n) : 0 ≤ columnNorm col := by
  rw [columnNorm_sorted col hs hn, sub_nonneg]
  exact hs _ _ (by rw [Fin.le_def]; simp only; omega)

theorem divNorm_nonneg {norm : α} (h : 0 ≤ norm) {d : WithTop α} (hd : 0 ≤ d) : 0 ≤ divNorm norm d := by
  unfold divNorm
  split_ifs
  · exact le_rfl
  · cases d with
    | top => simp
    | coe d =>
      simp only [WithTop.map_coe]
      have : 0 ≤ d := by exact_mod_cast hd
      exact_mod_cast div_nonneg this h

theorem distToLast_nonneg (col : Fin n → α) (hs : ∀ k l, k ≤ l → col k ≤ col l) (k : Fin n) : 0 ≤ distToLast col k := by
  unfold distToLast
  split_ifs with h
  · simp
  · have : 0 ≤ col k - col ⟨k.val - 1, by omega⟩ := sub_nonneg.2 (hs _ _ (by rw [Fin.le_def]; simp only; omega))
    exact_mod_cast this

theorem distToNext_nonneg (col : Fin n → α) (hs : ∀ k l, k ≤ l → col k ≤ col l) (k : Fin n) : 0 ≤ distToNext col k := by
  unfold distToNext
  split_ifs with h
  · have : 0 ≤ col ⟨k.val + 1, h⟩ - col k := sub_nonneg.2 (hs _ _ (by rw [Fin.le_def]; simp only; omega))
    exact_mod_cast this
  · simp

omit [LinearOrder α] [IsStrictOrderedRing α] in
theorem sum_top (l : List (WithTop α)) (h : ⊤ ∈ l) : l.sum = ⊤ := by
  induction l with
  | nil => simp at h
  | cons a l ih =>
    rw [List.sum_cons]
    rcases List.mem_cons.1 h with h | h
    · rw [← h]; exact WithTop.top_add _
    · rw [ih h]; exact WithTop.add_top _

omit [LinearOrder α] [IsStrictOrderedRing α] in
theorem sum_coe (l : List α) : (l.map (fun x : α => (x : WithTop α))).sum = ((l.sum : α) : WithTop α) := by
  induction l with
  | nil => rfl
  | cons a l ih => rw [List.map_cons, List.sum_cons, List.sum_cons, ih]; rfl

end Lemmas
