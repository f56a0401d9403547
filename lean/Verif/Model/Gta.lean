import Mathlib.Analysis.SpecialFunctions.Pow.Real
import Verif.Model.DTLZ
import Verif.Model.Observers

/-!
# Model: the dynamic problems of the CEC 2015 competition

`pymoo/vendor/gta.py` (the functions), `pymoo/problems/dynamic/cec2015.py` and `pymoo/problems/dynamic/misc.py` (the problem classes).
Numbers are reals. `none` = an exception.
-/

namespace Model

/-! ### The functions, for one solution -/

/-- `fda2_deb`, the exponent `H` (gta.py 455). -/
noncomputable def gtaH2 (t : ℝ) : ℝ := 2 * Real.sin (0.5 * Real.pi * (t - 1))

/-- `fda2_deb(x, t)` (gta.py 453-462). -/
noncomputable def gtaFda2 (x : List ℝ) (t : ℝ) : Fin 2 → ℝ :=
  let f1 := x.headD 0
  let H := gtaH2 t
  let XII := (x.drop 1).take 5
  let XIII := (x.drop 6).take 7
  let g := 1 + (XII.map fun v => v ^ 2).sum
  let Htemp := (XIII.map fun v => (v - H / 4) ^ 2).sum
  let h := 1 - (f1 / g) ^ ((2:ℝ) ^ (H + Htemp))
  ![f1, g * h]

/-- `FDA4(X, t)` (gta.py 465-474), for solutions with at least two variables. -/
noncomputable def gtaFda4 (X : List ℝ) (t : ℝ) : Fin 3 → ℝ :=
  let XII := X.drop 2
  let G := |Real.sin (0.5 * Real.pi * t)|
  let g := (XII.map fun xi => (xi - G) ^ 2).sum
  ![(1 + g) * Real.cos (X.getD 0 0 * Real.pi / 2) * Real.cos (X.getD 1 0 * Real.pi / 2),
    (1 + g) * Real.cos (X.getD 0 0 * Real.pi / 2) * Real.sin (X.getD 1 0 * Real.pi / 2),
    (1 + g) * Real.sin (X.getD 0 0 * Real.pi / 2)]

/-- `FDA5(X, t)` (gta.py 477-488), for solutions with at least two variables. -/
noncomputable def gtaFda5 (X : List ℝ) (t : ℝ) : Fin 3 → ℝ :=
  let XII := X.drop 2
  let G := |Real.sin (0.5 * Real.pi * t)|
  let g := G + (XII.map fun xi => (xi - G) ^ 2).sum
  let F := 1 + 100 * Real.sin (0.5 * Real.pi * t) ^ 4
  let y : ℕ → ℝ := fun i => X.getD i 0 ^ F
  ![(1 + g) * Real.cos (y 0 * Real.pi / 2) * Real.cos (y 1 * Real.pi / 2),
    (1 + g) * Real.cos (y 0 * Real.pi / 2) * Real.sin (y 1 * Real.pi / 2),
    (1 + g) * Real.sin (y 0 * Real.pi / 2)]

/-- `DIMP2`, the optimal value of the variable `k` of `n` (gta.py 498). -/
noncomputable def gtaDimpG (n k : ℕ) (t : ℝ) : ℝ :=
  Real.sin ((0.5 * Real.pi * t + 2 * Real.pi * ((k : ℝ) + 1) / ((n : ℝ) + 1)) ^ 2)

/-- `DIMP2(X, t)` (gta.py 491-503). -/
noncomputable def gtaDimp2 (X : List ℝ) (t : ℝ) : Fin 2 → ℝ :=
  let n := X.length
  let g := 1 + 2 * ((X.drop 1).length : ℝ) + ((List.range (n - 1)).map fun j =>
    (X.getD (j + 1) 0 - gtaDimpG n (j + 1) t) ^ 2 - 2 * Real.cos (3 * Real.pi * (X.getD (j + 1) 0 - gtaDimpG n (j + 1) t))).sum
  let f1 := X.headD 0
  ![f1, g * (1 - √(f1 / g))]

/-- `dMOP2`, the exponent `H` (gta.py 512). -/
noncomputable def gtaH (t : ℝ) : ℝ := 0.75 * Real.sin (0.5 * Real.pi * t) + 1.25

/-- `dMOP2(X, t)` (gta.py 506-516). -/
noncomputable def gtaDmop2 (X : List ℝ) (t : ℝ) : Fin 2 → ℝ :=
  let XII := X.drop 1
  let G := Real.sin (0.5 * Real.pi * t)
  let g := 1 + 9 * (XII.map fun xi => (xi - G) ^ 2).sum
  let f1 := X.headD 0
  ![f1, g * (1 - (f1 / g) ^ gtaH t)]

/-- `HE2(X, t)` (gta.py 537-547); the `n` of the factor is always 30. -/
noncomputable def gtaHe2 (X : List ℝ) (t : ℝ) : Fin 2 → ℝ :=
  let XII := X.drop 1
  let g := 1 + 9 / (30 - 1) * XII.sum
  let f1 := X.headD 0
  let h := 1 - √(f1 / g) ^ gtaH t - (f1 / g) ^ gtaH t * Real.sin (10 * Real.pi * f1)
  ![f1, g * h]

/-! ### The problem classes of `cec2015.py` -/

/-- `_evaluate` of the classes of cec2015.py (13-106, for instance 17-21): the function for every row at the current time. `fn` is the function of gta.py. -/
noncomputable def cecEvaluate {m : ℕ} {Fr : Type*} (fn : List ℝ → ℝ → Fin m → ℝ) (nt taut : ℕ) (s : DynState Fr) (X : List (List ℝ)) :
    List (Fin m → ℝ) :=
  X.map fun x => fn x (dynTime nt taut s : ℚ)

/-- A call of a Python function with `given` positional arguments, of which it requires `required` and takes no others. -/
def pyCall {A : Type*} (required given : ℕ) (v : A) : Option A := if given = required then some v else none

/-- `dMOP3._evaluate` (cec2015.py 68-76): `f(x, t)` for every row, where `dMOP3` takes six arguments (gta.py 519); `v` stands for what it would return. -/
def cecDmop3 {A : Type*} (v : List ℝ → A) (X : List (List ℝ)) : Option (List A) := X.mapM fun x => pyCall 6 2 (v x)

/-! ### The problem classes of `misc.py` -/

/-- A number, or a one-dimensional numpy array. -/
inductive NpVal | num (v : ℝ) | arr (v : List ℝ)

/-- What the attribute `time` of a problem is: the number computed by the property (dyn.py 45-55), or the method of `HE7b`, `HE9b` (misc.py 100-104, 126-130). -/
inductive TimeAttr | number (v : ℝ) | method (nt taut : ℕ)

/-- `self.time(t)`: a number cannot be called; the method returns the time of the clock value it is given. -/
noncomputable def TimeAttr.call (a : TimeAttr) (t : ℕ) : Option ℝ :=
  match a with
  | .number _ => none
  | .method nt taut => some (1 / (nt : ℝ) * ((t / taut : ℕ) : ℝ))

/-- `math.sin`, `math.cos` and `math.sqrt` of a value: arrays with other than one entry raise `TypeError`. -/
noncomputable def mathFn (f : ℝ → ℝ) : NpVal → Option NpVal
  | .num v => some (.num (f v))
  | .arr [v] => some (.num (f v))
  | .arr _ => none

/-- An elementwise operation with numbers. -/
noncomputable def npMap (f : ℝ → ℝ) : NpVal → NpVal
  | .num v => .num (f v)
  | .arr v => .arr (v.map f)

/-- Elementwise binary operation with broadcasting of numbers; arrays of different lengths raise. -/
noncomputable def npBin (f : ℝ → ℝ → ℝ) : NpVal → NpVal → Option NpVal
  | .num a, .num b => some (.num (f a b))
  | .num a, .arr b => some (.arr (b.map (f a)))
  | .arr a, .num b => some (.arr (a.map fun v => f v b))
  | .arr a, .arr b => if a.length = b.length then some (.arr (List.zipWith f a b)) else none

/-- The loop of `_f1` and `_g` in `HE7`, `HE9` (gta.py 554-564, 566-576, 590-599, 601-610): `rows` is `X`, `first` the first index, `body k value x` is the
squared term of the index `k`. `2.0 / index` raises if the loop is empty. The value added last is left out. -/
noncomputable def heLoop (body : ℕ → NpVal → NpVal → Option NpVal) (first : ℕ) (rows : List NpVal) : Option NpVal := do
  let value ← rows.head?
  let ks := (List.range rows.length).filter fun k => first ≤ k ∧ (k - first) % 2 = 0
  let terms ← ks.mapM fun k => do
    let x ← rows[k]?
    body k value x
  let sum ← terms.foldlM (npBin (· + ·)) (.num 0)
  if ks = [] then none else pure (npMap (fun v => v * (2 / ks.length)) sum)

/-- The squared term of `HE9` (gta.py 595, 606) for `n` rows. -/
noncomputable def he9Body (n : ℕ) (k : ℕ) (value x : NpVal) : Option NpVal := do
  let s ← mathFn Real.sin (npMap (fun v => 6 * Real.pi * v + k * Real.pi / n) value)
  let d ← npBin (· - ·) x s
  pure (npMap (fun v => v ^ 2) d)

/-- The squared term of `HE7` (gta.py 559-560, 571-572) for `n` rows; `trig` is the function of the last factor. -/
noncomputable def he7Body (trig : ℝ → ℝ) (n : ℕ) (k : ℕ) (value x : NpVal) : Option NpVal := do
  let val := npMap (fun v => 6 * Real.pi * v + k * Real.pi / n) value
  let c ← mathFn Real.cos (npMap (fun v => 4 * v) val)
  let q ← npBin (· * ·) (npMap (fun v => 0.3 * v * v) value) c
  let a ← npBin (· + ·) q (npMap (fun v => 0.6 * v) value)
  let b ← mathFn trig val
  let p ← npBin (· * ·) a b
  let d ← npBin (· - ·) x p
  pure (npMap (fun v => v ^ 2) d)

/-- The problem classes of misc.py that are evaluated with `self.time(t)`. -/
inductive MiscKind | fda2 | dimp2 | he2 | he7 | he9

/-- `time` of each class (misc.py 9-145). -/
def MiscKind.time (k : MiscKind) (nt taut : ℕ) (now : ℝ) : TimeAttr :=
  match k with
  | .he7 | .he9 => .method nt taut
  | _ => .number now

/-- `_evaluate` of `FDA2_deb`, `DIMP2b`, `HE2b`, `HE7b`, `HE9b` (misc.py 19-22, 57-60, 75-78, 106-109, 132-135) for the rows `X`. `t=1` always: `Problem.evaluate`
drops keyword arguments (problem.py 174-176). The function is given the whole matrix, so `X[0]`, `X[k]` are rows; `rest` stands for what follows the part
modelled (for HE7 and HE9 the value of `_f1`, the first thing computed). -/
noncomputable def miscEvaluate {A : Type} (k : MiscKind) (nt taut : ℕ) (now : ℝ) (rest : ℝ → Option NpVal → A) (X : List (List ℝ)) : Option A := do
  let t ← (k.time nt taut now).call 1
  let rows := X.map NpVal.arr
  match k with
  | .he7 => do
    let s ← heLoop (he7Body Real.cos X.length) 2 rows
    pure (rest t (some s))
  | .he9 => do
    let s ← heLoop (he9Body X.length) 2 rows
    pure (rest t (some s))
  | _ => pure (rest t none)

/-- `DMOP2._evaluate` (misc.py 38-40) with `Problem._format_dict` (problem.py 280-293): the function is given the whole matrix, so that `f1` is the first row and
the sums run over the other rows; the two columns of `n_var` entries must fit the shape `(len(X), 2)`. The rows have `nvar` entries. -/
noncomputable def miscDmop2 (nvar : ℕ) (t : ℝ) (X : List (List ℝ)) : Option (List (Fin 2 → ℝ)) :=
  match X with
  | [] => none
  | first :: others =>
    if nvar = X.length then
      some ((List.range nvar).map fun j =>
        let G := Real.sin (0.5 * Real.pi * t)
        let g := 1 + 9 * (others.map fun r => (r.getD j 0 - G) ^ 2).sum
        let f1 := first.getD j 0
        ![f1, g * (1 - (f1 / g) ^ gtaH t)])
    else none

/-- `DMOP2._calc_pareto_front` (misc.py 42-46): `self.t` is never set by this class; `t` is the attribute, if the user has set it. -/
noncomputable def miscDmop2Front (t : Option ℝ) (n : ℕ) : Option (List (Fin 2 → ℝ)) :=
  t.map fun t => (linspace 0 1 n).map fun x : ℝ => ![x, 1 - x ^ gtaH t]

end Model
