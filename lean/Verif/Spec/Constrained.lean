import Verif.Spec.TestProblem

/-!
# Specification: constrained problems with one objective

Independent of the model.
-/

namespace Spec

/-- A problem with one objective: bounds of the variables, objective, inequality constraints (satisfied if not positive) and equality constraints (satisfied if zero). -/
structure ConProblem where
  xl : List ℝ
  xu : List ℝ
  F : List ℝ → ℝ
  G : List ℝ → List ℝ
  H : List ℝ → List ℝ

/-- As many entries as bounds, each within its bounds. -/
def Within (xl xu x : List ℝ) : Prop := x.length = xl.length ∧ ∀ i, i < x.length → xl.getD i 0 ≤ x.getD i 0 ∧ x.getD i 0 ≤ xu.getD i 0

/-- Within the bounds, and all constraints are satisfied. -/
def ConProblem.Feasible (p : ConProblem) (x : List ℝ) : Prop := Within p.xl p.xu x ∧ (∀ g ∈ p.G x, g ≤ 0) ∧ ∀ h ∈ p.H x, h = 0

/-- `x` is feasible, and no feasible solution is better by more than `ε`. -/
def ConProblem.OptimalUpTo (p : ConProblem) (ε : ℝ) (x : List ℝ) : Prop := p.Feasible x ∧ ∀ y, p.Feasible y → p.F x - ε ≤ p.F y

end Spec
