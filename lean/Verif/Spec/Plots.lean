import Mathlib.Data.Real.Basic
import Mathlib.Data.List.Forall2

/-!
# Specification: reading values off a plot

Every set of solutions that was added to a plot is a list of vectors; what is drawn has the same shape.
-/

namespace Spec

/-- What is drawn corresponds to what was added, set by set and solution by solution. -/
def Drawn {A B : Type} (R : A → B → Prop) (data : List (List A)) (out : List (List B)) : Prop := List.Forall₂ (List.Forall₂ R) data out

/-- The value `x` is drawn at height `h` of an axis that is labelled `lo` at the bottom (height 0) and `up` at the top (height 1); the other way round for a reversed axis. -/
def OnAxis (reversed : Bool) (lo up x h : ℝ) : Prop := if reversed then x = up - h * (up - lo) else x = lo + h * (up - lo)

/-- `lo` and `up` are the smallest and the largest of some numbers. -/
def RangeOf (S : ℝ → Prop) (lo up : ℝ) : Prop := S lo ∧ S up ∧ ∀ x, S x → lo ≤ x ∧ x ≤ up

/-- `a` comes strictly before `b` in the lexicographic order by the columns `L`, most important first. -/
def StrictlyBefore {n : ℕ} (L : List (Fin n)) (a b : Fin n → ℝ) : Prop := ∃ (p : ℕ) (k : Fin n), L[p]? = some k ∧ a k < b k ∧ ∀ (q : ℕ) (m : Fin n), q < p → L[q]? = some m → a m = b m

/-- `a` and `b` agree on the columns `L`. -/
def AgreeOn {n : ℕ} (L : List (Fin n)) (a b : Fin n → ℝ) : Prop := ∀ m ∈ L, a m = b m

end Spec
