import Mathlib.Analysis.SpecialFunctions.Pow.Real
import Mathlib.Analysis.SpecialFunctions.Trigonometric.Basic
import Mathlib.Algebra.BigOperators.Intervals
import Mathlib.Data.Fin.VecNotation

/-!
# Model: the ZCAT problems (pymoo/problems/many/zcat.py)

`_evaluate_row` over the reals. `M` is `n_obj`, `n` is `n_var`; the array `y` is a function on positions from zero, loops that accumulate a sum or a product are sums and products over
ranges. Powers with the exponents 2.0, 3.0, 5.0, 8.0 are natural powers. The reference fronts are files; only the choice of rows is modelled.
-/

namespace Model

/-- zcat.py:18 `_DBL_EPSILON`. -/
noncomputable def zcEps : ℝ := 2.220446049250313e-16

/-- zcat.py:48-54 `_fix_to_01`. -/
noncomputable def zcFix (v : ℝ) : ℝ := if v ≤ 0 ∧ -zcEps ≤ v then 0 else if 1 ≤ v ∧ v ≤ 1 + zcEps then 1 else v

/-- zcat.py:57-59 `_leq`. -/
def zcLeq (v b : ℝ) : Prop := v < b ∨ |b - v| < zcEps

/-- zcat.py:62-64 `_value_in`. -/
def zcIn (v lo hi : ℝ) : Prop := zcLeq lo v ∧ zcLeq v hi

/-- zcat.py:76-78 `_theta_j`. -/
noncomputable def zcTheta (j m n : ℕ) : ℝ := 2 * Real.pi * ((j : ℝ) - 1) / ((n : ℝ) - m)

/-- `mu = np.sum(y[:m]) / m` (zcat.py:133). -/
noncomputable def zcMu (y : ℕ → ℝ) (m : ℕ) : ℝ := (∑ i ∈ Finset.range m, y i) / m

/-- zcat.py:81-249: entry `j` (from 1) of `_g0`, ..., `_g10`; `none` = `ValueError`. -/
noncomputable def zcG (id : ℕ) (y : ℕ → ℝ) (m n j : ℕ) : Option ℝ :=
  let a := zcTheta j m n
  match id with
  | 0 => some 0.2210
  | 1 => some ((∑ i ∈ Finset.range m, Real.sin (1.5 * Real.pi * y i + a)) / (2 * m) + 0.5)
  | 2 => some ((∑ i ∈ Finset.range m, y i ^ 2 * Real.sin (4.5 * Real.pi * y i + a)) / (2 * m) + 0.5)
  | 3 => some ((∑ i ∈ Finset.range m, Real.cos (Real.pi * y i + a) ^ 2) / m)
  | 4 => some (zcMu y m / 2 * Real.cos (4 * Real.pi * zcMu y m + a) + 0.5)
  | 5 => some ((∑ i ∈ Finset.range m, Real.sin (2 * Real.pi * y i - 1 + a) ^ 3) / (2 * m) + 0.5)
  | 6 =>
    let s1 := (∑ i ∈ Finset.range m, y i ^ 2) / m
    let s2 := (∑ i ∈ Finset.range m, Real.cos (11 * Real.pi * y i + a) ^ 3) / m
    some ((-10 * Real.exp (-2 / 5 * Real.sqrt s1) - Real.exp s2 + 10 + Real.exp 1) / (-10 * Real.exp (-2 / 5) - Real.exp (-1) + 10 + Real.exp 1))
  | 7 => some ((zcMu y m + Real.exp (Real.sin (7 * Real.pi * zcMu y m - Real.pi / 2 + a)) - Real.exp (-1)) / (1 + Real.exp 1 - Real.exp (-1)))
  | 8 => some ((∑ i ∈ Finset.range m, |Real.sin (2.5 * Real.pi * (y i - 0.5) + a)|) / m)
  | 9 => some (zcMu y m / 2 - (∑ i ∈ Finset.range m, |Real.sin (2.5 * Real.pi * y i - Real.pi / 2 + a)|) / (2 * m) + 0.5)
  | 10 => some ((∑ i ∈ Finset.range m, Real.sin ((4 * y i - 2) * Real.pi + a)) ^ 3 / (2 * (m : ℝ) ^ 3) + 0.5)
  | _ => none

/-- zcat.py:252-255 `_z1`. -/
noncomputable def zcZ1 (J : List ℝ) : ℝ := 10 / J.length * (J.map fun v => v * v).sum

/-- `np.max(np.abs(j_values))`; the array is never empty. -/
noncomputable def zcMax (J : List ℝ) : ℝ := (J.map fun v => |v|).foldl max 0

/-- zcat.py:258-260 `_z2`. -/
noncomputable def zcZ2 (J : List ℝ) : ℝ := 10 * zcMax J

/-- zcat.py:263-270 `_z3`. -/
noncomputable def zcZ3 (J : List ℝ) : ℝ := 10 / J.length * (J.map fun v : ℝ => (v ^ 2 - Real.cos ((2 * 5 - 1) * Real.pi * v) + 1) / 3).sum

/-- zcat.py:273-282 `_z4`. -/
noncomputable def zcZ4 (J : List ℝ) : ℝ :=
  10 / (2 * Real.exp 1 - 2) *
    (Real.exp (Real.sqrt (zcMax J)) - Real.exp ((J.map fun v : ℝ => 0.5 * (Real.cos ((2 * 5 - 1) * Real.pi * v) + 1)).sum / J.length) - 1 + Real.exp 1)

/-- zcat.py:285-291 `_z5`. -/
noncomputable def zcZ5 (J : List ℝ) : ℝ := -0.7 * zcZ3 J + 10 / J.length * (J.map fun v : ℝ => |v| ^ (0.002 : ℝ)).sum

/-- zcat.py:294-300 `_z6`. -/
noncomputable def zcZ6 (J : List ℝ) : ℝ := -0.7 * zcZ4 J + 10 * ((J.map fun v : ℝ => |v|).sum / J.length) ^ (0.002 : ℝ)

/-- zcat.py:308-316 `_get_j`; `k` is the objective, from 1. -/
def zcJ (k M : ℕ) (w : ℕ → ℝ) (size : ℕ) : List ℝ :=
  let l := ((List.range size).filter fun j : ℕ => (((j + 1 : ℕ) : ℤ) - (k : ℤ)) % (M : ℤ) = 0).map w
  if l = [] then [w 0] else l

/-- zcat.py:319-336 `_evaluate_z`. -/
noncomputable def zcZ (J : List ℝ) (k : ℕ) (imbalance : Bool) (level : ℤ) : ℝ :=
  if imbalance then (if k % 2 = 0 then zcZ4 J else zcZ1 J)
  else if level = 1 then zcZ1 J else if level = 2 then zcZ2 J else if level = 3 then zcZ3 J else if level = 4 then zcZ4 J
  else if level = 5 then zcZ5 J else if level = 6 then zcZ6 J else zcZ1 J

/-! ### Shape functions; objective `j` counts from 1 -/

/-- The loops of `_f1`, `_f2`, `_f8`, `_f12` for the objectives 1, ..., `M - 1` (zcat.py:343-353): a product of `a` over the first variables, for `j ≥ 2` times `b` of the next one. -/
noncomputable def zcProd (a b : ℝ → ℝ) (M : ℕ) (y : ℕ → ℝ) (j : ℕ) : ℝ :=
  if j = 1 then ∏ i ∈ Finset.range (M - 1), a (y i) else (∏ i ∈ Finset.range (M - j), a (y i)) * b (y (M - j))

/-- The loops of `_f3`, `_f9`, `_f11`, `_f13` for the objectives 1, ..., `M - 1` (zcat.py:383-393). -/
noncomputable def zcMean (a b : ℝ → ℝ) (M : ℕ) (y : ℕ → ℝ) (j : ℕ) : ℝ :=
  if j = 1 then (∑ i ∈ Finset.range (M - 1), a (y i)) / ((M : ℝ) - 1)
  else ((∑ i ∈ Finset.range (M - j), a (y i)) + b (y (M - j))) / ((M : ℝ) - j + 1)

noncomputable def zcSin (v : ℝ) : ℝ := Real.sin (v * Real.pi / 2)
noncomputable def zcCos (v : ℝ) : ℝ := Real.cos (v * Real.pi / 2)

/-- The last objective of `_f11`, `_f12`, `_f15`, `_f16` (zcat.py:532). -/
noncomputable def zcWave (k v : ℝ) : ℝ := (Real.cos ((2 * k - 1) * v * Real.pi) + 2 * v + 4 * k * (1 - v) - 1) / (4 * k)

/-- The last objective of `_f5` (zcat.py:421-423), of `total / (n_obj - 1)`. -/
noncomputable def zcExp (t : ℝ) : ℝ := (Real.exp t ^ 8 - 1) / (Real.exp 1 ^ 8 - 1)

/-- The last objective of `_f6` (zcat.py:439-441), of `mu`. -/
noncomputable def zcLogistic (mu : ℝ) : ℝ :=
  ((1 + Real.exp (2 * 40 * mu - 40))⁻¹ - 0.05 * mu - (1 + Real.exp 40)⁻¹ + 0.05) / ((1 + Real.exp (-40))⁻¹ - (1 + Real.exp 40)⁻¹ + 0.05)

/-- The last objective of `_f7` (zcat.py:452-454), also in `_f18` and `_f20`. -/
noncomputable def zcQuintic (M : ℕ) (y : ℕ → ℝ) : ℝ := (∑ i ∈ Finset.range (M - 1), (0.5 - y i) ^ 5) / (2 * ((M : ℝ) - 1) * 0.5 ^ 5) + 0.5

/-- The last objective of `_f18` and `_f20` in the degenerate case (zcat.py:674, 712). -/
noncomputable def zcQuintic1 (v : ℝ) : ℝ := ((0.5 - v) ^ 5 + 0.5 ^ 5) / (2 * 0.5 ^ 5)

/-- The last objective of `_f19` (zcat.py:693-694), of `mu`. -/
noncomputable def zcCosine (mu : ℝ) : ℝ := zcFix (1 - mu - Real.cos (2 * 5 * Real.pi * mu + Real.pi / 2) / (2 * 5 * Real.pi))

/-- The degenerate region of problem 19 (zcat.py:685, 823). -/
def zcDeg19 (v : ℝ) : Prop := zcIn v 0 0.2 ∨ zcIn v 0.4 0.6

/-- The degenerate region of problem 20 (zcat.py:703, 828). -/
def zcDeg20 (v : ℝ) : Prop := zcIn v 0.1 0.4 ∨ zcIn v 0.6 0.9

/-- zcat.py:632-637: the wedge of `_f17`. -/
def zcWedge17 (M : ℕ) (y : ℕ → ℝ) : Prop := ∀ i < M - 1, 0 ≤ y i ∧ y i ≤ 0.5

/-- zcat.py:660-662: the wedges of `_f18`. -/
def zcWedge18 (M : ℕ) (y : ℕ → ℝ) : Prop := (∀ i < M - 1, zcIn (y i) 0 0.4) ∨ ∀ i < M - 1, zcIn (y i) 0.6 1

open Classical in
/-- zcat.py:339-760 `_f1`, ..., `_f20` and `_evaluate_f`: objective `j`; `none` = `ValueError`. -/
noncomputable def zcF (id M : ℕ) (y : ℕ → ℝ) (j : ℕ) : Option ℝ :=
  match id with
  | 1 => some (zcFix (if j = M then 1 - zcSin (y 0) else zcProd zcSin zcCos M y j))
  | 2 => some (if j = M then 1 - zcSin (y 0) else zcProd (fun v => 1 - zcCos v) (fun v => 1 - zcSin v) M y j)
  | 3 => some (if j = M then 1 - y 0 else zcMean (fun v => v) (fun v => 1 - v) M y j)
  | 4 => some (if j = M then 1 - (∑ i ∈ Finset.range (M - 1), y i) / ((M : ℝ) - 1) else y (j - 1))
  | 5 => some (if j = M then zcExp ((∑ i ∈ Finset.range (M - 1), (1 - y i)) / ((M : ℝ) - 1)) else y (j - 1))
  | 6 => some (if j = M then zcLogistic ((∑ i ∈ Finset.range (M - 1), y i) / ((M : ℝ) - 1)) else y (j - 1))
  | 7 => some (if j = M then zcQuintic M y else y (j - 1))
  | 8 => some (if j = M then zcCos (y 0) else 1 - zcProd (fun v => 1 - zcSin v) (fun v => 1 - zcCos v) M y j)
  | 9 => some (if j = M then zcCos (y 0) else zcMean zcSin zcCos M y j)
  | 10 => some (if j = M then (0.02⁻¹ - ((∑ i ∈ Finset.range (M - 1), (1 - y i)) / ((M : ℝ) - 1) + 0.02)⁻¹) / (0.02⁻¹ - (1 + 0.02)⁻¹) else y (j - 1))
  | 11 => some (if j = M then zcWave 4 (y 0) else zcMean (fun v => v) (fun v => 1 - v) M y j)
  | 12 => some (if j = M then zcWave 3 (y 0) else 1 - zcProd (fun v => 1 - v) (fun v => v) M y j)
  | 13 => some (if j = M then 1 - zcWave 3 (y 0) else 1 - zcMean zcSin zcCos M y j)
  | 14 => some (if j = M then zcCos (y 0) else if 2 < M ∧ j = M - 1 then 0.5 * (1 + Real.sin (6 * y 0 * Real.pi / 2 - Real.pi / 2))
      else if j = 1 then zcSin (y 0) ^ (2 : ℝ) else zcSin (y 0) ^ (2 + ((j : ℝ) - 1) / ((M : ℝ) - 2)))
  | 15 => some (if j = M then zcWave 3 (y 0) else y 0 ^ (1 + ((j : ℝ) - 1) / (4 * (M : ℝ))))
  | 16 => some (if j = M then zcWave 5 (y 0) else if 2 < M ∧ j = M - 1 then 0.5 * (1 + Real.sin (10 * y 0 * Real.pi / 2 - Real.pi / 2))
      else if j = 1 then zcSin (y 0) else zcSin (y 0) ^ (1 + ((j : ℝ) - 1) / ((M : ℝ) - 2)))
  | 17 => some (if zcWedge17 M y then (if j = M then zcExp (1 - y 0) else y 0)
      else if j = M then zcExp ((∑ i ∈ Finset.range (M - 1), (1 - y i)) / ((M : ℝ) - 1)) else y (j - 1))
  | 18 => some (if zcWedge18 M y then (if j = M then zcQuintic1 (y 0) else y 0) else if j = M then zcQuintic M y else y (j - 1))
  | 19 => some (if zcDeg19 (y 0) then (if j = M then zcCosine (y 0) else zcFix (y 0))
      else if j = M then zcCosine ((∑ i ∈ Finset.range (M - 1), y i) / ((M : ℝ) - 1)) else zcFix (y (j - 1)))
  | 20 => some (if zcDeg20 (y 0) then (if j = M then zcQuintic1 (y 0) else y 0) else if j = M then zcQuintic M y else y (j - 1))
  | _ => none

/-- The parameters of a `ZCAT` problem (zcat.py:766-776). -/
structure Zcat where
  id : ℕ
  n : ℕ
  M : ℕ
  complicated : Bool
  level : ℤ
  bias : Bool
  imbalance : Bool

/-- zcat.py:792-803: the checks of the constructor. -/
def Zcat.Accepted (c : Zcat) : Prop :=
  (1 ≤ c.id ∧ c.id ≤ 20) ∧ 2 ≤ c.M ∧ 0 < c.n ∧ (if c.id = 14 ∨ c.id = 15 ∨ c.id = 16 then 1 else c.M - 1) ≤ c.n

/-- zcat.py:22-43, 834-838 `_g_function_id`. -/
def Zcat.gId (c : Zcat) : ℕ := if c.complicated then [4, 5, 2, 7, 9, 4, 5, 2, 7, 9, 3, 10, 1, 6, 8, 10, 1, 8, 6, 3].getD (c.id - 1) 0 else 0

open Classical in
/-- zcat.py:817-832 `_pareto_set_dimension`. -/
noncomputable def Zcat.dim (c : Zcat) (y0 : ℝ) : ℕ :=
  if c.id = 14 ∨ c.id = 15 ∨ c.id = 16 then 1
  else if c.id = 19 then (if zcDeg19 y0 then 1 else c.M - 1)
  else if c.id = 20 then (if zcDeg20 y0 then 1 else c.M - 1)
  else c.M - 1

/-- zcat.py:811-813, 842: bounds -0.5 i, 0.5 i (`i` from 1) and `(x_row - self.xl) / (self.xu - self.xl)`. -/
noncomputable def zcY (x : List ℝ) (i : ℕ) : ℝ := (x.getD i 0 - -0.5 * ((i : ℝ) + 1)) / (0.5 * ((i : ℝ) + 1) - -0.5 * ((i : ℝ) + 1))

/-- zcat.py:851-863: the values `w`, from position 0. The lines 854-856 set to zero what is smaller than the least positive float; over the reals this is left out. -/
noncomputable def Zcat.w (c : Zcat) (y : ℕ → ℝ) (i : ℕ) : Option ℝ :=
  (zcG c.gId y (c.dim (y 0)) c.n (i + 1)).map fun g =>
    let z := y (c.dim (y 0) + i) - g
    if c.bias then |z| ^ (0.05 : ℝ) else z

/-- zcat.py:849-869: entry `k` (from 1) of `beta`, without the factor `k ** 2`. -/
noncomputable def Zcat.beta (c : Zcat) (y : ℕ → ℝ) (k : ℕ) : ℝ :=
  if c.dim (y 0) = c.n then 0
  else zcZ (zcJ k c.M (fun i => (c.w y i).getD 0) (c.n - c.dim (y 0))) k c.imbalance c.level

/-- zcat.py:840-871 `_evaluate_row`. -/
noncomputable def Zcat.eval (c : Zcat) (x : List ℝ) (k : Fin c.M) : ℝ :=
  ((k : ℝ) + 1) ^ 2 * (zcF c.id c.M (zcY x) (k + 1)).getD 0 + ((k : ℝ) + 1) ^ 2 * c.beta (zcY x) (k + 1)

/-- zcat.py:919-921: the rows of the reference front that are returned if fewer points are asked for; `L` is the number of rows. `np.linspace(0, L - 1, N).astype(int)`. -/
def zcRows (L N : ℕ) : List ℕ := (List.range N).map fun i => if N = 1 then 0 else i * (L - 1) / (N - 1)

end Model
