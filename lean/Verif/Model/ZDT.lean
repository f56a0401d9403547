import Mathlib.Analysis.SpecialFunctions.Trigonometric.Basic
import Mathlib.Analysis.SpecialFunctions.Pow.Real
import Mathlib.Analysis.Real.Sqrt
import Mathlib.Data.Fin.VecNotation

/-!
# Model: the ZDT problems (pymoo/problems/multi/zdt.py)

`_evaluate` for one row of `X`, over the reals; `self.n_var` is the length of the row. For `n_var = 1` ZDT1-4 and 6 divide by
zero (ZDT1 raises `ZeroDivisionError`); the theorems assume at least two variables.
-/

namespace Model

/-- `np.linspace(a, b, n)`: `n` evenly spaced values from `a` to `b`, only `a` for `n = 1`. -/
noncomputable def linspace (a b : ℝ) (n : ℕ) : List ℝ := (List.range n).map fun i : ℕ => a + i * ((b - a) / ((n : ℝ) - 1))

/-- `ZDT1._evaluate`, the function `g` (zdt.py 28). -/
noncomputable def zdt1g (x : List ℝ) : ℝ := 1 + 9 / ((x.length : ℝ) - 1) * x.tail.sum

/-- `ZDT1._evaluate` (zdt.py 26-31). -/
noncomputable def zdt1 (x : List ℝ) : Fin 2 → ℝ :=
  let f1 := x.headD 0
  ![f1, zdt1g x * (1 - (f1 / zdt1g x) ^ (1 / 2 : ℝ))]

/-- `ZDT1._calc_pareto_front` (zdt.py 22-24). -/
noncomputable def zdt1Front (n : ℕ) : List (Fin 2 → ℝ) := (linspace 0 1 n).map fun x => ![x, 1 - √x]

/-- `ZDT2._evaluate`, the function `g` (zdt.py 43-44); the same expression in ZDT3 (zdt.py 78-79). -/
noncomputable def zdt2g (x : List ℝ) : ℝ := 1 + 9 * x.tail.sum / ((x.length : ℝ) - 1)

/-- `ZDT2._evaluate` (zdt.py 41-47). -/
noncomputable def zdt2 (x : List ℝ) : Fin 2 → ℝ :=
  let f1 := x.headD 0
  ![f1, zdt2g x * (1 - (f1 * 1 / zdt2g x) ^ (2 : ℕ))]

/-- `ZDT2._calc_pareto_front` (zdt.py 37-39). -/
noncomputable def zdt2Front (n : ℕ) : List (Fin 2 → ℝ) := (linspace 0 1 n).map fun x => ![x, 1 - x ^ (2 : ℕ)]

/-- `ZDT3._evaluate` (zdt.py 76-82). -/
noncomputable def zdt3 (x : List ℝ) : Fin 2 → ℝ :=
  let f1 := x.headD 0
  ![f1, zdt2g x * (1 - (f1 * 1 / zdt2g x) ^ (1 / 2 : ℝ) - f1 * 1 / zdt2g x * Real.sin (10 * Real.pi * f1))]

/-- The regions of `ZDT3._calc_pareto_front` (zdt.py 54-60). -/
noncomputable def zdt3Regions : List (ℝ × ℝ) :=
  [(0, 0.0830015349), (0.182228780, 0.2577623634), (0.4093136748, 0.4538821041), (0.6183967944, 0.6525117038), (0.8233317983, 0.8518328654)]

/-- `ZDT3._calc_pareto_front` (zdt.py 53-74) with `flatten=True`: `int(n / 5)` points in each of the five regions. -/
noncomputable def zdt3Front (n : ℕ) : List (Fin 2 → ℝ) :=
  zdt3Regions.flatMap fun r => (linspace r.1 r.2 (n / zdt3Regions.length)).map fun x =>
    ![x, 1 - √x - x * Real.sin (10 * Real.pi * x)]

/-- `ZDT4._evaluate`, the function `g` (zdt.py 102-105). -/
noncomputable def zdt4g (x : List ℝ) : ℝ :=
  x.tail.foldl (fun g v => g + (v * v - 10 * Real.cos (4 * Real.pi * v))) (1 + 10 * ((x.length : ℝ) - 1))

/-- `ZDT4._evaluate` (zdt.py 100-109). -/
noncomputable def zdt4 (x : List ℝ) : Fin 2 → ℝ :=
  let f1 := x.headD 0
  ![f1, zdt4g x * (1 - √(f1 / zdt4g x))]

/-- The bounds of ZDT4 (zdt.py 88-94): the first variable in `[0, 1]`, the others in `[-5, 5]`. -/
def zdt4Box (n : ℕ) (x : List ℝ) : Prop :=
  x.length = n ∧ (∀ v ∈ x.head?, 0 ≤ v ∧ v ≤ 1) ∧ ∀ v ∈ x.tail, -5 ≤ v ∧ v ≤ 5

/-- `ZDT4._calc_pareto_front` (zdt.py 96-98). -/
noncomputable def zdt4Front (n : ℕ) : List (Fin 2 → ℝ) := (linspace 0 1 n).map fun x => ![x, 1 - √x]

/-- `ZDT5._evaluate` (zdt.py 131-135): the sums of the groups of variables after the first 30: `m - 1` groups of `n`. -/
noncomputable def zdt5u (m n : ℕ) (x : List ℝ) : List ℝ :=
  (List.range (m - 1)).map fun i => ((x.drop (30 + i * n)).take n).sum

/-- `ZDT5._evaluate` (zdt.py 136): the value of one group. -/
noncomputable def zdt5v (n : ℕ) (u : ℝ) : ℝ := (2 + u) * (if u < n then 1 else 0) + 1 * (if u = n then 1 else 0)

/-- `ZDT5._evaluate` (zdt.py 128-146). `normalize(f, l, u)` is `(f - l) / (u - l)` for `l < u`. -/
noncomputable def zdt5 (m n : ℕ) (norm : Bool) (x : List ℝ) : Fin 2 → ℝ :=
  let g := ((zdt5u m n x).map (zdt5v n)).sum
  let f1 := 1 + (x.take 30).sum
  let f2 := g * (1 / f1)
  if norm then
    let l := ((m : ℝ) - 1) * 1 / 31
    ![(f1 - 1) / (31 - 1), (f2 - l) / ((m : ℝ) - 1 - l)]
  else ![f1, f2]

/-- The largest of a list (`max(axis=0)`, one column); `0` for the empty list, which does not occur. -/
noncomputable def listMax : List ℝ → ℝ
  | [] => 0
  | a :: l => l.foldl max a

/-- The least of a list (`min(axis=0)`). -/
noncomputable def listMin : List ℝ → ℝ
  | [] => 0
  | a :: l => l.foldl min a

/-- `ZDT5._calc_pareto_front` (zdt.py 121-126): `normalize(pf)` without bounds uses the least and the largest value of each column. -/
noncomputable def zdt5Front (m : ℕ) (norm : Bool) (k : ℕ) : List (Fin 2 → ℝ) :=
  let xs := (linspace 0 1 k).map fun t => 1 + t * 30
  let ys := xs.map fun x => ((m : ℝ) - 1) / x
  if norm then xs.map fun x =>
    ![(x - listMin xs) / (listMax xs - listMin xs), (((m : ℝ) - 1) / x - listMin ys) / (listMax ys - listMin ys)]
  else xs.map fun x => ![x, ((m : ℝ) - 1) / x]

/-- `ZDT6._evaluate`, the first objective (zdt.py 160). -/
noncomputable def zdt6f (v : ℝ) : ℝ := 1 - Real.exp (-4 * v) * Real.sin (6 * Real.pi * v) ^ (6 : ℕ)

/-- `ZDT6._evaluate`, the function `g` (zdt.py 161). -/
noncomputable def zdt6g (x : List ℝ) : ℝ := 1 + 9 * (x.tail.sum / ((x.length : ℝ) - 1)) ^ (1 / 4 : ℝ)

/-- `ZDT6._evaluate` (zdt.py 159-164). -/
noncomputable def zdt6 (x : List ℝ) : Fin 2 → ℝ :=
  let f1 := zdt6f (x.headD 0)
  ![f1, zdt6g x * (1 - (f1 / zdt6g x) ^ (2 : ℕ))]

/-- `ZDT6._calc_pareto_front` (zdt.py 155-157). -/
noncomputable def zdt6Front (n : ℕ) : List (Fin 2 → ℝ) := (linspace 0.2807753191 1 n).map fun x => ![x, 1 - x ^ (2 : ℕ)]

end Model
