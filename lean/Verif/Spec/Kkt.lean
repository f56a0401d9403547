import Mathlib.Analysis.SpecialFunctions.Pow.Real
import Mathlib.Algebra.BigOperators.Fin

/-!
# Specification: Karush-Kuhn-Tucker points

Independent of the model. `a i` are the gradients of the functions whose maximum is minimised, `dg j` those of the inequality
constraints with values `g j`.
-/

namespace Spec

/-- The multipliers `lam`, `mu` satisfy the first order conditions of the min-max problem: nonnegative, the weights of the functions
add up to one, the gradients cancel, and only active constraints have a multiplier. -/
structure KktPoint {m J n : ℕ} (a : Fin m → Fin n → ℝ) (dg : Fin J → Fin n → ℝ) (g : Fin J → ℝ) (lam : Fin m → ℝ) (mu : Fin J → ℝ) : Prop where
  nonneg : (∀ i, 0 ≤ lam i) ∧ ∀ j, 0 ≤ mu j
  weights : ∑ i, lam i = 1
  stationary : ∀ v, ∑ i, lam i * a i v + ∑ j, mu j * dg j v = 0
  slack : ∀ j, mu j * g j = 0

/-- The first order conditions of the multi-objective problem, with every objective having a positive weight. -/
def ParetoKkt {m J n : ℕ} (df : Fin m → Fin n → ℝ) (dg : Fin J → Fin n → ℝ) (g : Fin J → ℝ) : Prop :=
  ∃ (lam : Fin m → ℝ) (mu : Fin J → ℝ), (∀ i, 0 < lam i) ∧ (∀ j, 0 ≤ mu j) ∧
    (∀ v, ∑ i, lam i * df i v + ∑ j, mu j * dg j v = 0) ∧ ∀ j, mu j * g j = 0

end Spec
