import Mathlib.Analysis.SpecialFunctions.Trigonometric.Basic
import Mathlib.Algebra.BigOperators.Fin
import Verif.Spec.TestProblem

/-!
# Specification: the WFG test problems

Independent of the model: the decision space and the Pareto fronts the literature states.
-/

namespace Spec

/-- The decision space: variable `i` (from zero) lies between 0 and `2 (i + 1)`. -/
def WfgBox (n : ℕ) (x : List ℝ) : Prop := x.length = n ∧ ∀ i < n, 0 ≤ x.getD i 0 ∧ x.getD i 0 ≤ 2 * ((i : ℝ) + 1)

/-- The part of the ellipsoid with semi-axes 2, 4, 6, ... that is nowhere negative. -/
def WfgEllipsoid {m : ℕ} (f : Fin m → ℝ) : Prop := (∀ i, 0 ≤ f i) ∧ ∑ i, (f i / (2 * ((i : ℕ) + 1))) ^ 2 = 1

/-- The front of WFG1 at the positions `t 0, ..., t (m - 2)`: a convex surface, except for the last objective. -/
noncomputable def wfg1Surface {m : ℕ} (t : ℕ → ℝ) (i : Fin m) : ℝ :=
  2 * ((i : ℕ) + 1) *
    if (i : ℕ) = m - 1 then 1 - t 0 + Real.sin (10 * Real.pi * t 0) / (10 * Real.pi)
    else (∏ j ∈ Finset.range (m - 1 - i), (1 - Real.cos (Real.pi * t j / 2))) * if (i : ℕ) = 0 then 1 else 1 - Real.sin (Real.pi * t (m - 1 - i) / 2)

end Spec
