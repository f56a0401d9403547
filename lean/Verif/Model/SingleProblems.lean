import Mathlib.Analysis.SpecialFunctions.Trigonometric.Basic
import Mathlib.Analysis.SpecialFunctions.Sqrt
import Mathlib.Analysis.Real.Sqrt
import Mathlib.Algebra.BigOperators.Group.List.Basic

/-!
# Model: single-objective test problems (pymoo/problems/single/*.py)

`_evaluate` is modelled for one row of `X` (`axis=1` reductions work row by row), with real arithmetic instead of floats.
`self.n_var` is the length of the row (`Problem.evaluate` is only called with rows of `n_var` values).
-/

namespace Model

/-- `Sphere._evaluate` (sphere.py 13-14). -/
noncomputable def sphere (x : List ℝ) : ℝ := (x.map fun v => (v - 1 / 2) ^ 2).sum

/-- `Sphere._calc_pareto_front` (sphere.py 16-17). -/
noncomputable def sphereFront : ℝ := 0

/-- `Sphere._calc_pareto_set` (sphere.py 19-20). -/
noncomputable def sphereSet (n : ℕ) : List ℝ := List.replicate n (1 / 2)

/-- `Rastrigin._evaluate` (rastrigin.py 14-16). -/
noncomputable def rastrigin (A : ℝ) (x : List ℝ) : ℝ :=
  A * x.length + (x.map fun v => v ^ 2 - A * Real.cos (2 * Real.pi * v)).sum

/-- `Rastrigin._calc_pareto_front` (rastrigin.py 18-19). -/
noncomputable def rastriginFront : ℝ := 0

/-- `Rastrigin._calc_pareto_set` (rastrigin.py 21-22). -/
noncomputable def rastriginSet (n : ℕ) : List ℝ := List.replicate n 0

/-- `Ackley._evaluate` (ackley.py 27-30). -/
noncomputable def ackley (a b c : ℝ) (x : List ℝ) : ℝ :=
  -1 * a * Real.exp (-1 * b * √(1 / x.length * (x.map fun v => v * v).sum)) +
    -1 * Real.exp (1 / x.length * (x.map fun v => Real.cos (c * v)).sum) + a + Real.exp 1

/-- `Ackley._calc_pareto_front` (ackley.py 32-33). -/
noncomputable def ackleyFront : ℝ := 0

/-- `Ackley._calc_pareto_set` (ackley.py 35-36). -/
noncomputable def ackleySet (n : ℕ) : List ℝ := List.replicate n 0

/-- `Griewank._evaluate` (griewank.py 13-18): the `i`-th variable (from 1) is divided by `√i`. -/
noncomputable def griewank (x : List ℝ) : ℝ :=
  1 + 1 / 4000 * (x.map fun v => v ^ 2).sum - (x.zipIdx.map fun e => Real.cos (e.1 / √((e.2 : ℝ) + 1))).prod

/-- `Griewank._calc_pareto_front` (griewank.py 20-21). -/
noncomputable def griewankFront : ℝ := 0

/-- `Griewank._calc_pareto_set` (griewank.py 23-24). -/
noncomputable def griewankSet (n : ℕ) : List ℝ := List.replicate n 0

/-- `Zakharov._evaluate` (zakharov.py 13-15), the weighted sum `a`. -/
noncomputable def zakharovA (x : List ℝ) : ℝ := (x.zipIdx.map fun e => 1 / 2 * ((e.2 : ℝ) + 1) * e.1).sum

/-- `Zakharov._evaluate` (zakharov.py 13-15). -/
noncomputable def zakharov (x : List ℝ) : ℝ :=
  (x.map fun v => v ^ 2).sum + zakharovA x ^ 2 + zakharovA x ^ 4

/-- `Zakharov._calc_pareto_front` (zakharov.py 17-18). -/
noncomputable def zakharovFront : ℝ := 0

/-- `Zakharov._calc_pareto_set` (zakharov.py 20-21). -/
noncomputable def zakharovSet (n : ℕ) : List ℝ := List.replicate n 0

/-- `Rosenbrock._evaluate` (rosenbrock.py 13-18): one term per pair of neighbouring variables. With fewer than two variables
`column_stack([])` raises (`none`). -/
noncomputable def rosenbrock (x : List ℝ) : Option ℝ :=
  if x.length < 2 then none
  else some ((List.range (x.length - 1)).map fun i =>
    100 * (x.getD (i + 1) 0 - x.getD i 0 ^ 2) ^ 2 + (1 - x.getD i 0) ^ 2).sum

/-- `Rosenbrock._calc_pareto_front` (rosenbrock.py 20-21). -/
noncomputable def rosenbrockFront : ℝ := 0

/-- `Rosenbrock._calc_pareto_set` (rosenbrock.py 23-24). -/
noncomputable def rosenbrockSet (n : ℕ) : List ℝ := List.replicate n 1

/-- `Himmelblau._evaluate` (himmelblau.py 10-11). -/
noncomputable def himmelblau (x : List ℝ) : ℝ :=
  (x.getD 0 0 ^ 2 + x.getD 1 0 - 11) ^ 2 + (x.getD 0 0 + x.getD 1 0 ^ 2 - 7) ^ 2

/-- `Himmelblau._calc_pareto_front` (himmelblau.py 13-14). -/
noncomputable def himmelblauFront : ℝ := 0

/-- `Himmelblau._calc_pareto_set` (himmelblau.py 16-22). -/
noncomputable def himmelblauSet : List (List ℝ) :=
  [[3, 2], [-2.805118, 3.131312], [-3.779310, -3.283186], [3.584428, -1.848126]]

/-- `Schwefel._evaluate` (schwefel.py 13-14). -/
noncomputable def schwefel (x : List ℝ) : ℝ :=
  418.9829 * x.length - (x.map fun v => v * Real.sin (√|v|)).sum

/-- `Schwefel._calc_pareto_front` (schwefel.py 16-17). -/
noncomputable def schwefelFront : ℝ := 0

/-- `Schwefel._calc_pareto_set` (schwefel.py 19-20). -/
noncomputable def schwefelSet (n : ℕ) : List ℝ := List.replicate n 420.9687

/-- `PressureVessel._evaluate` (pressure_vessel.py 15-20), the objective, with the four variables as arguments. -/
noncomputable def vesselF (x1 x2 r L : ℝ) : ℝ :=
  let d1 := x1 * 0.0625
  let d2 := x2 * 0.0625
  0.6224 * d1 * r * L + 1.7781 * d2 * r ^ 2 + 3.1661 * d1 ^ 2 * L + 19.84 * d1 ^ 2 * r

/-- `PressureVessel._evaluate` (pressure_vessel.py 15-26), the four constraint values. -/
noncomputable def vesselG (x1 x2 r L : ℝ) : List ℝ :=
  let d1 := x1 * 0.0625
  let d2 := x2 * 0.0625
  [(-d1 + 0.0193 * r) / 3, (-d2 + 0.00954 * r) / 3,
   (-Real.pi * r ^ 2 * L - 4 * Real.pi / 3 * r ^ 3 + 1296000) / 1296000, (L - 240) / 240]

/-- `PressureVessel.__init__` (pressure_vessel.py 10-13): the bounds. -/
def vesselBox (x1 x2 r L : ℝ) : Prop :=
  (1 ≤ x1 ∧ x1 ≤ 99) ∧ (1 ≤ x2 ∧ x2 ≤ 99) ∧ (10 ≤ r ∧ r ≤ 200) ∧ (10 ≤ L ∧ L ≤ 200)

/-- `PressureVessel._calc_pareto_front` (pressure_vessel.py 28-29). -/
noncomputable def vesselFront : ℝ := 5885.3

end Model
