import Mathlib.Analysis.SpecialFunctions.Trigonometric.Arctan
import Verif.Model.Problem
import Verif.Model.GProblems
import Verif.Spec.Engineering

/-!
# Model: the engineering design problems of pymoo/problems/multi

`_evaluate` for one row over the reals. A division by zero and a root of a negative number are undefined (numpy: NaN, infinity and a warning). Floating point is not modelled.
-/

namespace Model
open Spec

/-- `a / b`, undefined for `b = 0`. -/
noncomputable def engDiv (a b : ℝ) : Option ℝ := by classical exact if b = 0 then none else some (a / b)

/-- `sqrt(a)`, undefined for `a < 0`. -/
noncomputable def engSqrt (a : ℝ) : Option ℝ := by classical exact if a < 0 then none else some (√a)

/-- osy.py:17-19. -/
noncomputable def osyF1 (x : List ℝ) : ℝ := -(25 * (col x 0 - 2) ^ 2 + (col x 1 - 2) ^ 2 + (col x 2 - 1) ^ 2 + (col x 3 - 4) ^ 2 + (col x 4 - 1) ^ 2)

/-- osy.py:10-32 `OSY`. -/
noncomputable def osyProblem : Design where
  xl := [0, 0, 1, 0, 1, 0]
  xu := [10, 10, 5, 6, 5, 10]
  nObj := 2
  nIeq := 6
  eval x := some ([osyF1 x, (x.map fun v => v ^ 2).sum],
    [(col x 0 + col x 1 - 2) / 2, (6 - col x 0 - col x 1) / 6, (2 - col x 1 + col x 0) / 2, (2 - col x 0 + 3 * col x 1) / 2,
      (4 - (col x 2 - 3) ^ 2 - col x 3) / 4, ((col x 4 - 3) ^ 2 + col x 5 - 4) / 4].map fun v => -v)

/-- tnk.py:12-27 `TNK`. -/
noncomputable def tnkProblem : Design where
  xl := [0, 1e-30]
  xu := [Real.pi, Real.pi]
  nObj := 2
  nIeq := 2
  eval x := do
    let q ← engDiv (col x 0) (col x 1)
    some ([col x 0, col x 1],
      [-(col x 0 ^ 2 + col x 1 ^ 2 - 1 - 0.1 * Real.cos (16 * Real.arctan q)), 2 * ((col x 0 - 0.5) ^ 2 + (col x 1 - 0.5) ^ 2) - 1])

/-- welded_beam.py:12-44 `WeldedBeam`. -/
noncomputable def weldedBeamProblem : Design where
  xl := [0.125, 0.1, 0.1, 0.125]
  xu := [5, 10, 10, 5]
  nObj := 2
  nIeq := 4
  eval x := do
    let f1 := 1.10471 * col x 0 ^ 2 * col x 1 + 0.04811 * col x 2 * col x 3 * (14 + col x 1)
    let f2 ← engDiv 2.1952 (col x 3 * col x 2 ^ 3)
    let P : ℝ := 6000
    let L : ℝ := 14
    let tMax : ℝ := 13600
    let sMax : ℝ := 30000
    let R ← engSqrt (0.25 * (col x 1 ^ 2 + (col x 0 + col x 2) ^ 2))
    let M := P * (L + col x 1 / 2)
    let half ← engSqrt 0.5
    let J := 2 * half * col x 0 * col x 1 * (col x 1 ^ 2 / 12 + 0.25 * (col x 0 + col x 2) ^ 2)
    let t1 ← engDiv P (√2 * col x 0 * col x 1)
    let t2 ← engDiv (M * R) J
    let q ← engDiv (t1 * t2 * col x 1) R
    let t ← engSqrt (t1 ^ 2 + t2 ^ 2 + q)
    let s ← engDiv (6 * P * L) (col x 3 * col x 2 ^ 2)
    let Pc := 64746.022 * (1 - 0.0282346 * col x 2) * col x 2 * col x 3 ^ 3
    some ([f1, f2], [1 / tMax * (t - tMax), 1 / sMax * (s - sMax), 1 / (5 - 0.125) * (col x 0 - col x 3), 1 / P * (P - Pc)])

/-- carside.py:10-87 `Carside`. -/
noncomputable def carsideProblem : Design where
  xl := [0.5, 0.45, 0.5, 0.5, 0.875, 0.4, 0.4]
  xu := [1.5, 1.35, 1.5, 1.5, 2.625, 1.2, 1.2]
  nObj := 3
  nIeq := 10
  eval x :=
    let g1 := 1.16 - 0.3717 * col x 1 * col x 3 - 0.0092928 * col x 2
    let g2 := 0.261 - 0.0159 * col x 0 * col x 1 - 0.188 * col x 0 * 0.345 - 0.019 * col x 1 * col x 6 + 0.0144 * col x 2 * col x 4 + 0.08045 * col x 5 * 0.192
    let g3 := 0.214 + 0.00817 * col x 4 - 0.131 * col x 0 * 0.345 - 0.0704 * col x 0 * 0.192 + 0.03099 * col x 1 * col x 5 - 0.018 * col x 1 * col x 6
      + 0.0208 * col x 2 * 0.345 + 0.121 * col x 2 * 0.192 - 0.00364 * col x 4 * col x 5 - 0.018 * col x 1 ^ 2
    let g4 := 0.74 - 0.61 * col x 1 - 0.031296 * col x 2 - 0.166 * col x 6 * 0.192 + 0.227 * col x 1 ^ 2
    let g5 := 28.98 + 3.818 * col x 2 - 4.2 * col x 0 * col x 1 + 6.63 * col x 5 * 0.192 - 7.77 * col x 6 * 0.345
    let g6 := 33.86 + 2.95 * col x 2 - 5.057 * col x 0 * col x 1 - 11 * col x 1 * 0.345 - 9.98 * col x 6 * 0.345 + 22 * 0.345 * 0.192
    let g7 := 46.36 - 9.9 * col x 1 - 12.9 * col x 0 * 0.345
    let g8 := 4.72 - 0.5 * col x 3 - 0.19 * col x 1 * col x 2
    let g9 := 10.58 - 0.674 * col x 0 * col x 1 - 1.95 * col x 1 * 0.345
    let g10 := 16.45 - 0.489 * col x 2 * col x 6 - 0.843 * col x 4 * col x 5
    let f1 := 1.98 + 4.9 * col x 0 + 6.67 * col x 1 + 6.98 * col x 2 + 4.01 * col x 3 + 1.78 * col x 4 + 0.00001 * col x 5 + 2.73 * col x 6
    some ([f1, g8, (g9 + g10) / 2],
      [-1 + g1 / 1, -1 + g2 / 0.32, -1 + g3 / 0.32, -1 + g4 / 0.32, -1 + g5 / 32, -1 + g6 / 32, -1 + g7 / 32, -1 + g8 / 4, -1 + g9 / 9.9, -1 + g10 / 15.7])

/-- csi.py:9-82 `CSI`. The indices are those after the dummy variable of line 18 has been put in front. -/
noncomputable def csiProblem : Design where
  xl := [0.5, 0.45, 0.5, 0.5, 0.875, 0.4, 0.4]
  xu := [1.5, 1.35, 1.5, 1.5, 2.625, 1.2, 1.2]
  nObj := 3
  nIeq := 10
  eval x' :=
    let x := 0 :: x'
    let F := 4.72 - 0.5 * col x 4 - 0.19 * col x 2 * col x 3
    let Vmbp := 10.58 - 0.674 * col x 1 * col x 2 - 0.67275 * col x 2
    let Vfd := 16.45 - 0.489 * col x 3 * col x 7 - 0.843 * col x 5 * col x 6
    let f1 := 1.98 + 4.9 * col x 1 + 6.67 * col x 2 + 6.98 * col x 3 + 4.01 * col x 4 + 1.78 * col x 5 + 0.00001 * col x 6 + 2.73 * col x 7
    let f3 := 0.5 * (Vmbp + Vfd)
    let g1 := 1.16 - 0.3717 * col x 2 * col x 4 - 0.0092928 * col x 3 - 1
    let g2 := 0.261 - 0.0159 * col x 1 * col x 2 - 0.06486 * col x 1 - 0.019 * col x 2 * col x 7 + 0.0144 * col x 3 * col x 5 + 0.0154464 * col x 6 - 0.32
    let g3 := 0.214 + 0.00817 * col x 5 - 0.045195 * col x 1 - 0.0135168 * col x 1 + 0.03099 * col x 2 * col x 6 - 0.018 * col x 2 * col x 7
      + 0.007176 * col x 3 + 0.023232 * col x 3 - 0.00364 * col x 5 * col x 6 - 0.018 * col x 2 ^ 2 - 0.32
    let g4 := 0.74 - 0.61 * col x 2 - 0.031296 * col x 3 - 0.031872 * col x 7 + 0.227 * col x 2 ^ 2 - 0.32
    let g5 := 28.98 + 3.818 * col x 3 - 4.2 * col x 1 * col x 2 + 1.27296 * col x 6 - 2.68065 * col x 7 - 32
    let g6 := 33.86 + 2.95 * col x 3 - 5.057 * col x 1 * col x 2 - 3.795 * col x 2 - 3.4431 * col x 7 + 1.45728 - 32
    let g7 := 46.36 - 9.9 * col x 2 - 4.4505 * col x 1 - 32
    some ([f1, F, f3], [g1, g2, g3, g4, g5, g6, g7, F - 4, Vmbp - 9.9, Vfd - 15.7])

/-- wrm.py:11-40 `WRM`. -/
noncomputable def wrmProblem : Design where
  xl := [0.01, 0.01, 0.01]
  xu := [0.45, 0.10, 0.10]
  nObj := 5
  nIeq := 7
  eval x' := do
    let x := 0 :: x'
    let f1 := 106780.37 * (col x 2 + col x 3) + 61704.67
    let f2 := 3000 * col x 1
    let f3 ← engDiv (305700 * 2289 * col x 2) ((0.06 * 2289 : ℝ) ^ (0.65 : ℝ))
    let f4 := 250 * 2289 * Real.exp (-39.75 * col x 2 + 9.9 * col x 3 + 2.74)
    let q ← engDiv 1.39 (col x 1 * col x 2)
    let f5 := 25 * (q + 4940 * col x 3 - 80)
    let deno ← engDiv 1 (col x 1 * col x 2)
    some ([f1, f2, f3, f4, f5],
      [-(1 - (0.00139 * deno + 4.94 * col x 3 - 0.08)), -(1 - (0.000306 * deno + 1.082 * col x 3 - 0.0986)), -(50000 - (12.307 * deno + 49408.24 * col x 3 + 4051.02)),
        -(16000 - (2.098 * deno + 8046.33 * col x 3 - 696.71)), -(10000 - (2.138 * deno + 7883.39 * col x 3 - 705.04)), -(2000 - (0.417 * deno + 1721.26 * col x 3 - 136.54)),
        -(550 - (0.164 * deno + 631.13 * col x 3 - 54.58))])

/-- kursawe.py:10-22 `Kursawe`. -/
noncomputable def kursaweProblem : Design where
  xl := List.replicate 3 (-5)
  xu := List.replicate 3 5
  nObj := 2
  nIeq := 0
  eval x := some ([((List.range 2).map fun i => -10 * Real.exp (-0.2 * √(col x i ^ 2 + col x (i + 1) ^ 2))).sum,
    (x.map fun v => |v| ^ (0.8 : ℝ) + 5 * Real.sin (v ^ 3)).sum], [])

/-- clutch.py:10-15: 5 integer variables and the upper bounds of the indices (the lower bounds are 0). -/
def clutchUpper : List ℕ := [20, 20, 4, 400, 7]

/-- clutch.py:11: the declared sizes. -/
def clutchCfg : ProbCfg ℝ := ⟨5, 2, 19, 0, none⟩

/-- clutch.py:17-21: the values of the five variables. -/
noncomputable def clutchTables : List (List ℝ) :=
  [(List.range 21).map fun i : ℕ => (60 + i : ℝ), (List.range 21).map fun i : ℕ => (90 + i : ℝ), (List.range 5).map fun i : ℕ => (1 + 0.5 * i : ℝ),
    (List.range 401).map fun i : ℕ => (600 + i : ℝ), (List.range 9).map fun i : ℕ => (2 + i : ℝ)]

/-- clutch.py:27-31: `self.x1[x1]` etc.; an index out of range raises. -/
noncomputable def clutchValue (i : ℕ) (x : List ℕ) : Option ℝ := do
  let t ← clutchTables[i]?
  let k ← x[i]?
  t[k]?

/-- clutch.py:23-94 `_evaluate` for one row: objectives and the constraints that are put in `out["G"]`. -/
noncomputable def clutchEval (x : List ℕ) : Option (List ℝ × List ℝ) := do
  let x1 ← clutchValue 0 x
  let x2 ← clutchValue 1 x
  let x3 ← clutchValue 2 x
  let x4 ← clutchValue 3 x
  let x5 ← clutchValue 4 x
  let w := Real.pi * 250 / 30
  let c ← engDiv (x2 ^ 3 - x1 ^ 3) (x2 ^ 2 - x1 ^ 2)
  let Rsr := (2 / 3) * c
  let A := Real.pi * (x2 ^ 2 - x1 ^ 2)
  let prz ← engDiv x4 A
  let Mh := (2 / 3) * 0.5 * x4 * x5 * c
  let Vsr := (Real.pi * Rsr * 250) / 30
  let T ← engDiv (55 * w) (Mh / 1000 + 3)
  let f1 := Real.pi * (x2 ^ 2 - x1 ^ 2) * x3 * (x5 + 1) * 0.0000078
  some ([f1, T], [(x2 - x1 - 20) * -1, (30 - (x5 + 1) * (x3 + 0.5)) * -1, (1 - prz) * -1, (1 * 10 * 1000 - prz * Vsr) * -1, (10 * 1000 - Vsr) * -1, (Mh / 1000 - 1.5 * 40) * -1, T * -1, (15 - T) * -1])

/-- clutch.py:93-94: `column_stack` of the rows' values: matrices with one row per solution. -/
noncomputable def clutchOut (xs : List (List ℕ)) : List (OutKey × UVal ℝ) :=
  let r := xs.map fun x => (clutchEval x).getD ([], [])
  [(.F, .arr ⟨[xs.length, 2], r.flatMap Prod.fst⟩), (.G, .arr ⟨[xs.length, 8], r.flatMap Prod.snd⟩)]

end Model
