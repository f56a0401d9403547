import Mathlib.Analysis.SpecialFunctions.Trigonometric.Basic
import Verif.Spec.Pareto

/-!
# Specification: Pareto-optimal solutions of a problem with its own bounds for every variable

Independent of the model.
-/

namespace Spec

/-- Variable `i` (from 0) is between `-(i + 1) / 2` and `(i + 1) / 2`. -/
def WideningBox (n : ℕ) (x : List ℝ) : Prop := x.length = n ∧ ∀ i < n, -(((i : ℝ) + 1) / 2) ≤ x.getD i 0 ∧ x.getD i 0 ≤ ((i : ℝ) + 1) / 2

/-- `x` is in `D` and nothing in `D` has an objective vector that dominates the one of `x`. -/
def ParetoSolution {m : ℕ} (D : List ℝ → Prop) (F : List ℝ → Fin m → ℝ) (x : List ℝ) : Prop := D x ∧ ∀ x', D x' → ¬ Dominates (F x') (F x)

/-- Going from 0 to `v`, the function is never as low as at `v`. -/
def LowestSoFar (φ : ℝ → ℝ) (v : ℝ) : Prop := ∀ t, 0 ≤ t → t < v → φ v < φ t

/-- Going from `v` to 1, the function is never again as high as at `v`. -/
def HighestFromHere (φ : ℝ → ℝ) (v : ℝ) : Prop := ∀ t, v < t → t ≤ 1 → φ t < φ v

/-- A line falling from 1 to 0 with ripples below it: `k - 1` full periods and a half of a cosine. -/
noncomputable def rippled (k v : ℝ) : ℝ := 1 - v + v / (2 * k) - (1 - Real.cos ((2 * k - 1) * (Real.pi * v))) / (4 * k)

end Spec
