import Mathlib.Analysis.SpecialFunctions.Sqrt
import Mathlib.Algebra.BigOperators.Group.List.Basic
import Verif.Spec.Constrained

/-!
# Model: the G problems of the CEC 2006 competition (pymoo/problems/single/g.py)

`_evaluate` for one row over the reals, the bounds, and what `pareto_set` returns (`...Set`). Modelled are the problems whose documented optimum is exact (G1, G3, G6, G11, G12, G23) or can be bounded (G7,
G24); the others are not. The base class returns as the front the objective value of the set (g.py:17-20); G1 overrides it.
-/

namespace Model
open Spec

/-- g.py:18-20 `G._calc_pareto_front`, for a set of one solution. -/
noncomputable def gFront (p : ConProblem) (set : List ℝ) : ℝ := p.F set

/-- `x[:, i]`. -/
def col (x : List ℝ) (i : ℕ) : ℝ := x.getD i 0

/-- g.py:23-48 `G1`. -/
noncomputable def g1Problem : ConProblem where
  xl := List.replicate 13 0
  xu := [1, 1, 1, 1, 1, 1, 1, 1, 1, 100, 100, 100, 1]
  F x := 5 * (x.take 4).sum - 5 * ((x.take 4).map fun v => v ^ 2).sum - ((x.take 13).drop 4).sum
  G x := [2 * col x 0 + 2 * col x 1 + col x 9 + col x 10 - 10, 2 * col x 0 + 2 * col x 2 + col x 9 + col x 11 - 10,
    2 * col x 1 + 2 * col x 2 + col x 10 + col x 11 - 10, -8 * col x 0 + col x 9, -8 * col x 1 + col x 10, -8 * col x 2 + col x 11,
    -2 * col x 3 - col x 4 + col x 9, -2 * col x 5 - col x 6 + col x 10, -2 * col x 7 - col x 8 + col x 11]
  H _ := []

/-- g.py:50-51. -/
def g1Front : ℝ := -15

/-- g.py:53-54. -/
def g1Set : List ℝ := [1, 1, 1, 1, 1, 1, 1, 1, 1, 3, 3, 3, 1]

/-- g.py:128-139 `G3` with `n` variables. -/
noncomputable def g3Problem (n : ℕ) : ConProblem where
  xl := List.replicate n 0
  xu := List.replicate n 1
  F x := -(√n ^ n) * x.prod
  G _ := []
  H x := [(x.map fun v => v ^ 2).sum - 1]

/-- g.py:141-142. -/
noncomputable def g3Set (n : ℕ) : List ℝ := List.replicate n (1 / √n)

/-- g.py:203-217 `G6`. -/
noncomputable def g6Problem : ConProblem where
  xl := [13, 0]
  xu := [100, 100]
  F x := (col x 0 - 10) ^ 3 + (col x 1 - 20) ^ 3
  G x := [-((col x 0 - 5) ^ 2) - (col x 1 - 5) ^ 2 + 100, (col x 0 - 6) ^ 2 + (col x 1 - 5) ^ 2 - 82.81]
  H _ := []

/-- g.py:219-220. -/
noncomputable def g6Set : List ℝ := [14.095, 5 - √(100 - (14.095 - 5) ^ 2)]

/-- g.py:223-259 `G7`. -/
noncomputable def g7Problem : ConProblem where
  xl := List.replicate 10 (-10)
  xu := List.replicate 10 10
  F x := col x 0 ^ 2 + col x 1 ^ 2 + col x 0 * col x 1 - 14 * col x 0 - 16 * col x 1 + (col x 2 - 10) ^ 2 + 4 * (col x 3 - 5) ^ 2 + (col x 4 - 3) ^ 2
    + 2 * (col x 5 - 1) ^ 2 + 5 * col x 6 ^ 2 + 7 * (col x 7 - 11) ^ 2 + 2 * (col x 8 - 10) ^ 2 + (col x 9 - 7) ^ 2 + 45
  G x := [4 * col x 0 + 5 * col x 1 - 3 * col x 6 + 9 * col x 7 - 105, 10 * col x 0 - 8 * col x 1 - 17 * col x 6 + 2 * col x 7,
    -8 * col x 0 + 2 * col x 1 + 5 * col x 8 - 2 * col x 9 - 12, 3 * (col x 0 - 2) ^ 2 + 4 * (col x 1 - 3) ^ 2 + 2 * col x 2 ^ 2 - 7 * col x 3 - 120,
    5 * col x 0 ^ 2 + 8 * col x 1 + (col x 2 - 6) ^ 2 - 2 * col x 3 - 40, col x 0 ^ 2 + 2 * (col x 1 - 2) ^ 2 - 2 * col x 0 * col x 1 + 14 * col x 4 - 6 * col x 5,
    0.5 * (col x 0 - 8) ^ 2 + 2 * (col x 1 - 4) ^ 2 + 3 * col x 4 ^ 2 - col x 5 - 30, -3 * col x 0 + 6 * col x 1 + 12 * (col x 8 - 8) ^ 2 - 7 * col x 9]
  H _ := []

/-- g.py:261-273. -/
noncomputable def g7Set : List ℝ := [2.171997834812, 2.363679362798, 8.773925117415, 5.095984215855, 0.990655966387, 1.430578427576, 1.321647038816, 9.828728107011, 8.280094195305, 8.375923511901]

/-- g.py:378-389 `G11`. -/
noncomputable def g11Problem : ConProblem where
  xl := [-1, -1]
  xu := [1, 1]
  F x := col x 0 ^ 2 + (col x 1 - 1) ^ 2
  G x := [col x 1 - col x 0 ^ 2]
  H _ := []

/-- g.py:391-392. -/
noncomputable def g11Set : List ℝ := [-√0.5, 0.5]

/-- g.py:395-414 `G12`: the constraint is the least of 729 terms, starting from infinity (`none` before the first). -/
noncomputable def g12Min : Option ℝ → List ℝ → Option ℝ
  | a, [] => a
  | none, v :: l => g12Min (some v) l
  | some a, v :: l => g12Min (some (min a v)) l

/-- The terms in the order of the loops (g.py:404-411). -/
noncomputable def g12Terms (x : List ℝ) : List ℝ :=
  (List.range' 1 9).flatMap fun i : ℕ => (List.range' 1 9).flatMap fun j : ℕ => (List.range' 1 9).map fun k : ℕ =>
    (col x 0 - i) ^ 2 + (col x 1 - j) ^ 2 + (col x 2 - k) ^ 2 - 0.0625

noncomputable def g12Problem : ConProblem where
  xl := [0, 0, 0]
  xu := [10, 10, 10]
  F x := -1 + 0.01 * ((col x 0 - 5) ^ 2 + (col x 1 - 5) ^ 2 + (col x 2 - 5) ^ 2)
  G x := (g12Min none (g12Terms x)).toList
  H _ := []

/-- g.py:416-417. -/
def g12Set : List ℝ := [5, 5, 5]

/-- g.py:1227-1246 `G23`. -/
noncomputable def g23Problem : ConProblem where
  xl := [0, 0, 0, 0, 0, 0, 0, 0, 0.01]
  xu := [300, 300, 100, 200, 100, 300, 100, 200, 0.03]
  F x := -9 * col x 4 - 15 * col x 7 + 6 * col x 0 + 16 * col x 1 + 10 * (col x 5 + col x 6)
  G x := [col x 8 * col x 2 + 0.02 * col x 5 - 0.025 * col x 4, col x 8 * col x 3 + 0.02 * col x 6 - 0.015 * col x 7]
  H x := [col x 0 + col x 1 - col x 2 - col x 3, 0.03 * col x 0 + 0.01 * col x 1 - col x 8 * (col x 2 + col x 3), col x 2 + col x 5 - col x 4, col x 3 + col x 6 - col x 7]

/-- g.py:1248-1249. -/
noncomputable def g23Set : List ℝ := [0, 100, 0, 100, 0, 0, 100, 200, 0.01]

/-- g.py:1252-1264 `G24`. -/
noncomputable def g24Problem : ConProblem where
  xl := [0, 0]
  xu := [3, 4]
  F x := -col x 0 - col x 1
  G x := [-2 * col x 0 ^ 4 + 8 * col x 0 ^ 3 - 8 * col x 0 ^ 2 + col x 1 - 2, -4 * col x 0 ^ 4 + 32 * col x 0 ^ 3 - 88 * col x 0 ^ 2 + 96 * col x 0 + col x 1 - 36]
  H _ := []

/-- g.py:1266-1267. -/
noncomputable def g24Set : List ℝ := [2.329520197477607, 3.17849307411768]

end Model
