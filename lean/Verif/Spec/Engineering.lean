import Mathlib.Data.List.Forall2
import Mathlib.Analysis.SpecialFunctions.Pow.Real
import Verif.Spec.Constrained

/-!
# Specification: engineering design problems

Independent of the model. A problem has bounds, declared numbers of objectives and inequality constraints, and an evaluation that may fail (division by zero, root of a negative number).
-/

namespace Spec

/-- A design problem as declared to the user. `eval x` are the objectives and the inequality constraints, `none` = undefined. -/
structure Design where
  xl : List ℝ
  xu : List ℝ
  nObj : ℕ
  nIeq : ℕ
  eval : List ℝ → Option (List ℝ × List ℝ)

/-- Every solution within the bounds has an evaluation, with as many objectives and constraints as declared. -/
def Design.WellDefined (p : Design) : Prop :=
  p.xl.length = p.xu.length ∧ ∀ x, Within p.xl p.xu x → ∃ f g, p.eval x = some (f, g) ∧ f.length = p.nObj ∧ g.length = p.nIeq

/-- `x` is within the bounds, has objectives `f` and satisfies all constraints. -/
def Design.Feasible (p : Design) (x f : List ℝ) : Prop := Within p.xl p.xu x ∧ ∃ g, p.eval x = some (f, g) ∧ ∀ v ∈ g, v ≤ 0

/-- `x` with objectives `f` is feasible, and no feasible solution is at least as good in all objectives and different in one. -/
def Design.Efficient (p : Design) (x f : List ℝ) : Prop :=
  p.Feasible x f ∧ ∀ y f', p.Feasible y f' → List.Forall₂ (· ≤ ·) f' f → f' = f

/-- The shear stress in the weld of a beam with weld thickness `h`, weld length `l` and beam height `t` under a load of 6000 at distance 14. -/
noncomputable def weldShear (h l t : ℝ) : ℝ :=
  let τ₁ := 6000 / (√2 * h * l)
  let r := √((l ^ 2 + (h + t) ^ 2) / 4)
  let τ₂ := 6000 * (14 + l / 2) * r / (√2 * h * l * (l ^ 2 / 12 + (h + t) ^ 2 / 4))
  √(τ₁ ^ 2 + τ₂ ^ 2 + l * τ₁ * τ₂ / r)

end Spec
