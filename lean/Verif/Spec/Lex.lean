import Verif.Spec.Pareto
import Mathlib.Logic.Equiv.Defs

namespace Spec

/-- Lexicographic comparison of two objective vectors with column `0` as the most significant key. -/
def LexLE {m : ℕ} {α : Type*} [LinearOrder α] (a b : Fin m → α) : Prop :=
  a = b ∨ ∃ k, (∀ l, l < k → a l = b l) ∧ a k < b k

/-- Lexicographic comparison with the last column as the most significant key (`np.lexsort(F.T)`). -/
def LexLELast {m : ℕ} {α : Type*} [LinearOrder α] (a b : Fin m → α) : Prop :=
  a = b ∨ ∃ k, (∀ l, k < l → a l = b l) ∧ a k < b k

/-- The permutation `I` sorts the rows of `F` with respect to the relation `le`. -/
def SortedBy {n : ℕ} {β : Type*} (le : β → β → Prop) (I : Equiv.Perm (Fin n)) (F : Fin n → β) : Prop :=
  ∀ i j, i < j → le (F (I i)) (F (I j))

end Spec
