import Mathlib.Analysis.SpecialFunctions.Pow.Real
import Verif.Model.ZDT

/-!
# Model: the two-bar truss problem

`pymoo/problems/multi/truss2d.py`. `_evaluate` for one row of `X`, over the reals. A bar without cross section has infinite stress in
numpy (division by zero), which is modelled by `none`.
-/

namespace Model

/-- `self.Amax` (truss2d.py 17). -/
noncomputable def trussAmax : ℝ := 0.01

/-- `self.Smax` (truss2d.py 18). -/
noncomputable def trussSmax : ℝ := 100000

/-- The first objective (truss2d.py 30). -/
noncomputable def trussVolume (x1 x2 y : ℝ) : ℝ := x1 * √(16 + y ^ 2) + x2 * √(1 + y ^ 2)

/-- The second objective (truss2d.py 33-37); `none` = infinite. -/
noncomputable def trussStress (x1 x2 y : ℝ) : Option ℝ :=
  if y * x1 = 0 ∨ y * x2 = 0 then none
  else some (max (20 * √(16 + y ^ 2) / (y * x1)) (80 * √(1 + y ^ 2) / (y * x2)))

/-- The bounds (truss2d.py 20-21). -/
def trussBox (x1 x2 y : ℝ) : Prop := (0 ≤ x1 ∧ x1 ≤ trussAmax) ∧ (0 ≤ x2 ∧ x2 ≤ trussAmax) ∧ (1 ≤ y ∧ y ≤ 3)

/-- Within the bounds and `g1 <= 0` (truss2d.py 40-43). -/
def trussFeasible (x1 x2 y : ℝ) : Prop := trussBox x1 x2 y ∧ ∃ s, trussStress x1 x2 y = some s ∧ s - trussSmax ≤ 0

/-- `_evaluate`, both objectives of a solution with finite stress (truss2d.py 42). -/
noncomputable def trussF (x1 x2 y : ℝ) : Fin 2 → ℝ := ![trussVolume x1 x2 y, (trussStress x1 x2 y).getD 0]

/-- `T` (truss2d.py 46). -/
noncomputable def trussT : ℝ := 2 * √5 * trussAmax

/-- `calc_y` (truss2d.py 56-57). -/
noncomputable def trussY (V : ℝ) : ℝ := √(3200 * V ^ 2 + 40 * V * √(6400 * V ^ 2 - 12) - 4)

/-- `calc_SV` (truss2d.py 59-60). -/
noncomputable def trussSV (y : ℝ) : ℝ := (4 + y ^ 2) / (0.01 * y)

/-- `calc_x1` (truss2d.py 62-63). -/
noncomputable def trussX1 (y : ℝ) : ℝ := 0.0025 * √((16 + y ^ 2) / (1 + y ^ 2))

/-- `calc_S` (truss2d.py 65-69). -/
noncomputable def trussS (V : ℝ) : ℝ := trussSV (trussY V) / V

/-- `V_max` (truss2d.py 71-76): the first objective at `[calc_x1(3), 0.01, 3]`. -/
noncomputable def trussVmax : ℝ := trussF (trussX1 3) 0.01 3 0

/-- `_calc_pareto_front` (truss2d.py 45-84). -/
noncomputable def trussFront : List (Fin 2 → ℝ) :=
  ((linspace (400 / trussSmax) trussT 1000).map fun f1 : ℝ => ![f1, 400 / f1]) ++
    (linspace trussT trussVmax 100).map fun f1 : ℝ => ![f1, trussS f1]

end Model
