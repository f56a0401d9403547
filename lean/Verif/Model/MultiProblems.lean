import Mathlib.Analysis.SpecialFunctions.Trigonometric.Basic
import Mathlib.Algebra.Order.Floor.Ring
import Mathlib.Data.Real.Sign
import Verif.Model.ZDT

/-!
# Model: bi-objective test problems with a computed Pareto front

`pymoo/problems/multi/{bnh,srn,omnitest,sympart}.py`. `_evaluate` for one row of `X`, over the reals.
-/

namespace Model

/-- `BNH._evaluate`, the objectives (bnh.py 22-23). -/
noncomputable def bnhF (x y : ℝ) : Fin 2 → ℝ := ![4 * x ^ 2 + 4 * y ^ 2, (x - 5) ^ 2 + (y - 5) ^ 2]

/-- `BNH._evaluate`, the constraints (bnh.py 24-25). -/
noncomputable def bnhG (x y : ℝ) : Fin 2 → ℝ :=
  ![1 / 25 * ((x - 5) ^ 2 + y ^ 2 - 25), -1 / 7.7 * ((x - 8) ^ 2 + (y + 3) ^ 2 - 7.7)]

/-- The bounds of BNH (bnh.py 17-18). -/
def bnhBox (x y : ℝ) : Prop := (0 ≤ x ∧ x ≤ 5) ∧ (0 ≤ y ∧ y ≤ 3)

/-- `BNH._calc_pareto_front` (bnh.py 31-37): `x2[x1 >= 3] = 3`. -/
noncomputable def bnhFront (n : ℕ) : List (Fin 2 → ℝ) :=
  ((linspace 0 5 n).zip (linspace 0 5 n)).map fun e => bnhF e.1 (if 3 ≤ e.1 then 3 else e.2)

/-- `SRN._evaluate`, the objectives (srn.py 14-15). -/
noncomputable def srnF (x y : ℝ) : Fin 2 → ℝ := ![2 + (x - 2) ^ 2 + (y - 1) ^ 2, 9 * x - (y - 1) ^ 2]

/-- `SRN._evaluate`, the constraints (srn.py 17-18). -/
noncomputable def srnG (x y : ℝ) : Fin 2 → ℝ := ![x ^ 2 + y ^ 2 - 225, x - 3 * y + 10]

/-- The bounds of SRN (srn.py 11, `xl=-20, xu=+20`). -/
def srnBox (x y : ℝ) : Prop := (-20 ≤ x ∧ x ≤ 20) ∧ (-20 ≤ y ∧ y ≤ 20)

/-- `SRN._calc_pareto_set` (srn.py 27-30). -/
noncomputable def srnSet (n : ℕ) : List (ℝ × ℝ) := (linspace 2.5 14.7902 n).map fun y => (-2.5, y)

/-- `SRN._calc_pareto_front` (srn.py 23-25). -/
noncomputable def srnFront (n : ℕ) : List (Fin 2 → ℝ) := (srnSet n).map fun e => srnF e.1 e.2

/-- `OmniTest._evaluate` (omnitest.py 28-31). -/
noncomputable def omni (x : List ℝ) : Fin 2 → ℝ :=
  ![(x.map fun v => Real.sin (Real.pi * v)).sum, (x.map fun v => Real.cos (Real.pi * v)).sum]

/-- `OmniTest._calc_pareto_set` (omnitest.py 40-43): the combinations of the three intervals, one per variable. Their order (that of
`np.meshgrid`) is not modelled. -/
def omniCombos : ℕ → List (List ℕ)
  | 0 => [[]]
  | n + 1 => (omniCombos n).flatMap fun c => [0, 1, 2].map fun m => m :: c

/-- `OmniTest._calc_pareto_set` (omnitest.py 33-47): for every combination `h` points, `k`-th coordinate by coordinate. -/
noncomputable def omniSet (n points : ℕ) : List (List ℝ) :=
  let h := points / 3 ^ n
  (omniCombos n).flatMap fun c => (List.range h).map fun k =>
    c.map fun m : ℕ => (linspace (2 * m + 1) (2 * m + 3 / 2) h).getD k 0

/-- `OmniTest._calc_pareto_front` (omnitest.py 49-51). -/
noncomputable def omniFront (n points : ℕ) : List (Fin 2 → ℝ) := (omniSet n points).map omni

/-- `SYMPARTRotated.__init__` and `_evaluate`, `IRM @ x` (sympart.py 40, 49-56): rotation by `-w`; `w = 0` leaves the point alone. -/
noncomputable def symBack (w x y : ℝ) : ℝ × ℝ :=
  if w = 0 then (x, y) else (Real.cos w * x + Real.sin w * y, -Real.sin w * x + Real.cos w * y)

/-- `SYMPARTRotated._evaluate`, the tile of one coordinate (sympart.py 59-63): `sign(t_hat) * min(|t_hat|, 1)` with
`t_hat = sign(v) * ceil((|v| - off) / width)`. -/
noncomputable def symTile (off width v : ℝ) : ℝ :=
  let t := Real.sign v * (⌈(|v| - off) / width⌉ : ℝ)
  Real.sign t * min |t| 1

/-- `SYMPARTRotated._evaluate` (sympart.py 48-70). -/
noncomputable def symF (a b c w x y : ℝ) : Fin 2 → ℝ :=
  let q := symBack w x y
  let p1 := q.1 - symTile (a + c / 2) (2 * a + c) q.1 * c
  let p2 := q.2 - symTile (b / 2) b q.2 * b
  ![(p1 + a) ^ 2 + p2 ^ 2, (p1 - a) ^ 2 + p2 ^ 2]

/-- The bounds of SYM-PART (sympart.py 42-44). -/
def symBox (b c x y : ℝ) : Prop := (-10 * max b c ≤ x ∧ x ≤ 10 * max b c) ∧ (-10 * max b c ≤ y ∧ y ≤ 10 * max b c)

/-- `SYMPARTRotated._calc_pareto_set`, the rotation (sympart.py 83-87). -/
noncomputable def symTurn (w : ℝ) (e : ℝ × ℝ) : ℝ × ℝ :=
  if w = 0 then e else (Real.cos w * e.1 + -Real.sin w * e.2, Real.sin w * e.1 + Real.cos w * e.2)

/-- `SYMPARTRotated._calc_pareto_set` (sympart.py 72-88): nine lines with `int(n / 9)` points each. -/
noncomputable def symSet (a b c w : ℝ) (n : ℕ) : List (ℝ × ℝ) :=
  [(-1 : ℝ), 0, 1].flatMap fun row => [(1 : ℝ), 0, -1].flatMap fun col =>
    (linspace (row * c - a) (row * c + a) (n / 9)).map fun x1 => symTurn w (x1, col * b)

end Model
