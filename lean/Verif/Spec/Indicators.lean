import Mathlib.Analysis.Real.Sqrt
import Mathlib.Algebra.BigOperators.Fin
import Mathlib.Algebra.Order.BigOperators.Group.List

/-!
# Specification: performance indicators

Independent of the model: textbook definitions of the (modified) distances, GD, IGD, GD+ and IGD+. `s` is the unit of length of
each objective (all ones: plain distances).
-/

namespace Spec

variable {m : ℕ}

/-- Euclidean distance, each objective measured in units of `s`. -/
noncomputable def euclid (s z a : Fin m → ℝ) : ℝ := Real.sqrt (∑ k, ((z k - a k) / s k) ^ 2)

/-- The modified distance of GD+ and IGD+: only the objectives in which the solution `a` is worse than the reference `z`
count. -/
noncomputable def plusDist (s z a : Fin m → ℝ) : ℝ := Real.sqrt (∑ k, (max (a k - z k) 0 / s k) ^ 2)

/-- The smallest of the values of `f` on `S`. -/
noncomputable def least {P : Type*} (f : P → ℝ) (S : List P) : ℝ := sInf {r | ∃ a ∈ S, r = f a}

/-- Arithmetic mean. -/
noncomputable def avg (l : List ℝ) : ℝ := l.sum / l.length

/-- (I) from every reference point to the closest solution, averaged. -/
noncomputable def invGenDist (d : (Fin m → ℝ) → (Fin m → ℝ) → ℝ) (pf F : List (Fin m → ℝ)) : ℝ :=
  avg (pf.map fun z => least (fun a => d z a) F)

/-- from every solution to the closest reference point, averaged. -/
noncomputable def genDist (d : (Fin m → ℝ) → (Fin m → ℝ) → ℝ) (pf F : List (Fin m → ℝ)) : ℝ :=
  avg (F.map fun a => least (fun z => d z a) pf)

/-- `a` is nowhere worse than `b`. -/
def WeaklyDominates (a b : Fin m → ℝ) : Prop := ∀ k, a k ≤ b k

/-- Every solution in `B` is weakly dominated by one in `A`. -/
def Covers (A B : List (Fin m → ℝ)) : Prop := ∀ b ∈ B, ∃ a ∈ A, WeaklyDominates a b

/-- additive epsilon indicator: the smallest shift by which the solutions `F` have to be improved to cover the reference
set. -/
noncomputable def IsAddEps (pf F : List (Fin m → ℝ)) (e : ℝ) : Prop :=
  IsLeast {x : ℝ | ∀ z ∈ pf, ∃ a ∈ F, ∀ k, a k - x ≤ z k} e

end Spec
