import Verif.Model.GProblems

/-!
# Model: the cantilevered beam (`pymoo/problems/single/cantilevered_beam.py`)

`_evaluate` for one row over the reals, the bounds, and what `pareto_front` and `pareto_set` return.
-/

namespace Model
open Spec

/-- cantilevered_beam.py:24-26: the moment of inertia. -/
noncomputable def beamI (x : List ℝ) : ℝ :=
  1 / 12 * col x 2 * (col x 3 - 2 * col x 1) ^ 3 + 2 * (1 / 12 * col x 0 * col x 1 ^ 3 + col x 0 * col x 1 * (col x 3 - col x 1) ^ 2 / 4)

/-- cantilevered_beam.py:15-35 with E = 1e7, L = 36, P = 1000. -/
noncomputable def beamProblem : ConProblem where
  xl := [2, 0.1, 0.1, 3]
  xu := [12, 1, 2, 7]
  F x := (2 * col x 1 * col x 0 + (col x 3 - 2 * col x 1) * col x 2) * 36
  G x := [(1000 * 36 * col x 3 / (2 * beamI x) - 5000) / 5000, (1000 * 36 ^ 3 / (3 * 10000000 * beamI x) - 0.1) / 0.1]
  H _ := []

/-- cantilevered_beam.py:37-38 `_calc_pareto_front`. -/
noncomputable def beamFront : ℝ := 92.7693

/-- cantilevered_beam.py:40-41 `_calc_pareto_set`. -/
noncomputable def beamSet : List ℝ := [9.4846, 0.1, 0.1, 7]

end Model
