import Mathlib.Analysis.SpecialFunctions.Pow.Real
import Mathlib.Analysis.SpecialFunctions.Trigonometric.Basic

/-!
# Specification: the constraints of CTP2 to CTP8

Deb, Pratap and Meyarivan, "Constrained test problems for multi-objective evolutionary optimization" (2001). Independent of the model.
-/

namespace Spec

/-- The parameters of one constraint. -/
structure CtpRow where
  theta : ℝ
  a : ℝ
  b : ℝ
  c : ℕ
  d : ℝ
  e : ℝ

/-- Left side: how far the point is from the rotated boundary line. -/
noncomputable def CtpRow.lhs (p : CtpRow) (f1 f2 : ℝ) : ℝ := Real.cos p.theta * (f2 - p.e) - Real.sin p.theta * f1

/-- Right side: the ripples of the boundary. -/
noncomputable def CtpRow.rhs (p : CtpRow) (f1 f2 : ℝ) : ℝ :=
  p.a * |Real.sin (p.b * Real.pi * (Real.sin p.theta * (f2 - p.e) + Real.cos p.theta * f1) ^ p.c)| ^ p.d

/-- The published table, from CTP2 on. -/
noncomputable def ctpPublished : List (List CtpRow) :=
  [[⟨-0.2 * Real.pi, 0.2, 10, 1, 6, 1⟩],
   [⟨-0.2 * Real.pi, 0.1, 10, 1, 0.5, 1⟩],
   [⟨-0.2 * Real.pi, 0.75, 10, 1, 0.5, 1⟩],
   [⟨-0.2 * Real.pi, 0.1, 10, 2, 0.5, 1⟩],
   [⟨0.1 * Real.pi, 40, 0.5, 1, 2, -2⟩],
   [⟨-0.05 * Real.pi, 40, 5, 1, 6, 0⟩],
   [⟨0.1 * Real.pi, 40, 0.5, 1, 2, -2⟩, ⟨-0.05 * Real.pi, 40, 2, 1, 6, 0⟩]]

end Spec
