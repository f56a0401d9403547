import Mathlib.Analysis.SpecialFunctions.BinaryEntropy

/-! # Crowding entropy (Wang, Wu & Yuan 2010), stated without reference to the code -/

namespace Spec

/-- `a` stands before `b` when the points are ordered by `v`, points of equal value by their number. -/
def StandsBefore (v : ℕ → ℝ) (a b : ℕ) : Prop := v a < v b ∨ (v a = v b ∧ a < b)

/-- Among the points `0 .. N - 1`, `b` directly follows `a` in that order. -/
def DirectlyBefore (v : ℕ → ℝ) (N a b : ℕ) : Prop := a < N ∧ b < N ∧ StandsBefore v a b ∧ ∀ c < N, ¬ (StandsBefore v a c ∧ StandsBefore v c b)

/-- The first of the points `0 .. N - 1` in that order. -/
def StandsFirst (v : ℕ → ℝ) (N i : ℕ) : Prop := ∀ a < N, ¬ StandsBefore v a i

/-- The last of the points `0 .. N - 1` in that order. -/
def StandsLast (v : ℕ → ℝ) (N i : ℕ) : Prop := ∀ a < N, ¬ StandsBefore v i a

/-- The values of the points are not all equal. -/
def HasSpread (v : ℕ → ℝ) (N : ℕ) : Prop := ∃ a < N, ∃ b < N, v a ≠ v b

/-- Shannon's entropy of the probabilities `p`, `1 - p`, in bits. -/
noncomputable def bits (p : ℝ) : ℝ := Real.binEntropy p / Real.log 2

end Spec
