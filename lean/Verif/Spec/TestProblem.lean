import Mathlib.Data.Real.Basic
import Mathlib.Data.Fin.VecNotation
import Verif.Spec.Pareto

/-!
# Specification: optima of a test problem

Independent of the model. Decision vectors are lists of reals, objective vectors functions `Fin m → ℝ`.
-/

namespace Spec

/-- The decision space of a problem with `n` variables and the same bounds for every variable. -/
def Cube (n : ℕ) (lo hi : ℝ) (x : List ℝ) : Prop := x.length = n ∧ ∀ v ∈ x, lo ≤ v ∧ v ≤ hi

/-- `x` is an optimal solution of the minimisation of `f` over `D`, with optimal value `v`. -/
def OptimalAt (D : List ℝ → Prop) (f : List ℝ → ℝ) (x : List ℝ) (v : ℝ) : Prop :=
  D x ∧ f x = v ∧ ∀ y, D y → v ≤ f y

/-- `f` is a Pareto-optimal objective vector of the problem `F` over the (feasible) decision space `D`: it is
attained, and nothing that is attained dominates it. -/
def ParetoPoint {m : ℕ} (D : List ℝ → Prop) (F : List ℝ → Fin m → ℝ) (f : Fin m → ℝ) : Prop :=
  (∃ x, D x ∧ F x = f) ∧ ∀ x, D x → ¬ Dominates (F x) f

end Spec
