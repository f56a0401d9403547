import Mathlib.Analysis.SpecialFunctions.Log.Basic
import Mathlib.Analysis.SpecialFunctions.Pow.Real
import Mathlib.Analysis.SpecialFunctions.Trigonometric.Basic
import Verif.Model.GProblems

/-!
# Model: more of the G problems of the CEC 2006 competition (pymoo/problems/single/g.py)

`_evaluate` for one row over the reals, the bounds, and what `pareto_set` returns (`...Set`), for problems whose documented optimum is given in decimals: G4, G5, G8, G9, G10, G13, G14, G15,
G18, G19, G20, G21.
-/

namespace Model
open Spec

/-- g.py:155. -/
noncomputable def g4U (x : List ℝ) : ℝ := 85.334407 + 0.0056858 * col x 1 * col x 4 + 0.0006262 * col x 0 * col x 3 - 0.0022053 * col x 2 * col x 4

/-- g.py:158. -/
noncomputable def g4V (x : List ℝ) : ℝ := 80.51249 + 0.0071317 * col x 1 * col x 4 + 0.0029955 * col x 0 * col x 1 + 0.0021813 * col x 2 ^ 2

/-- g.py:161. -/
noncomputable def g4W (x : List ℝ) : ℝ := 9.300961 + 0.0047026 * col x 2 * col x 4 + 0.0012547 * col x 0 * col x 2 + 0.0019085 * col x 2 * col x 3

/-- g.py:145-166 `G4`. -/
noncomputable def g4Problem : ConProblem where
  xl := [78, 33, 27, 27, 27]
  xu := [102, 45, 45, 45, 45]
  F x := 5.3578547 * col x 2 ^ 2 + 0.8356891 * col x 0 * col x 4 + 37.293239 * col x 0 - 40792.141
  G x := [-g4U x, g4U x - 92, -g4V x + 90, g4V x - 110, -g4W x + 20, g4W x - 25]
  H _ := []

/-- g.py:168-169. -/
noncomputable def g4Set : List ℝ := [78, 33, 29.9952560256815985, 45, 36.7758129057882073]

/-- g.py:276-293 `G8`. -/
noncomputable def g8Problem : ConProblem where
  xl := List.replicate 2 0.00001
  xu := List.replicate 2 10
  F x := -(Real.sin (2 * Real.pi * col x 0) ^ 3 * Real.sin (2 * Real.pi * col x 1)) / (col x 0 ^ 3 * (col x 0 + col x 1))
  G x := [col x 0 ^ 2 - col x 1 + 1, 1 - col x 0 + (col x 1 - 4) ^ 2]
  H _ := []

/-- g.py:295-296. -/
noncomputable def g8Set : List ℝ := [1.22797135260752599, 4.24537336612274885]

/-- g.py:172-192 `G5`. -/
noncomputable def g5Problem : ConProblem where
  xl := [0, 0, -0.55, -0.55]
  xu := [1200, 1200, 0.55, 0.55]
  F x := 3 * col x 0 + 1 / 10 ^ 6 * col x 0 ^ 3 + 2 * col x 1 + (2 / 10 ^ 6) / 3 * col x 1 ^ 3
  G x := [col x 2 - col x 3 - 0.55, col x 3 - col x 2 - 0.55]
  H x := [1000 * Real.sin (-col x 2 - 0.25) + 1000 * Real.sin (-col x 3 - 0.25) + 894.8 - col x 0,
    1000 * Real.sin (col x 2 - 0.25) + 1000 * Real.sin (col x 2 - col x 3 - 0.25) + 894.8 - col x 1,
    1000 * Real.sin (col x 3 - 0.25) + 1000 * Real.sin (col x 3 - col x 2 - 0.25) + 1294.8]

/-- g.py:194-200. -/
noncomputable def g5Set : List ℝ := [679.94531748791177961, 1026.06713513571594376, 0.11887636617838561, -0.39623355240329272]

/-- g.py:299-329 `G9`. -/
noncomputable def g9Problem : ConProblem where
  xl := List.replicate 7 (-10)
  xu := List.replicate 7 10
  F x := (col x 0 - 10) ^ 2 + 5 * (col x 1 - 12) ^ 2 + col x 2 ^ 4 + 3 * (col x 3 - 11) ^ 2 + 10 * col x 4 ^ 6 + 7 * col x 5 ^ 2 + col x 6 ^ 4 - 4 * col x 5 * col x 6 - 10 * col x 5 - 8 * col x 6
  G x := [2 * col x 0 ^ 2 + 3 * (col x 1 ^ 2) ^ 2 + col x 2 + 4 * col x 3 ^ 2 + 5 * col x 4 - 127, 7 * col x 0 + 3 * col x 1 + 10 * col x 2 ^ 2 + col x 3 - col x 4 - 282,
    23 * col x 0 + col x 1 ^ 2 + 6 * col x 5 ^ 2 - 8 * col x 6 - 196, 2 * (2 * col x 0 ^ 2) + col x 1 ^ 2 - 3 * col x 0 * col x 1 + 2 * col x 2 ^ 2 + 5 * col x 5 - 11 * col x 6]
  H _ := []

/-- g.py:331-342. -/
noncomputable def g9Set : List ℝ :=
  [2.33049949323300210, 1.95137239646596039, -0.47754041766198602, 4.36572612852776931, -0.62448707583702823, 1.03813092302119347, 1.59422663221959926]

/-- g.py:345-363 `G10`. -/
noncomputable def g10Problem : ConProblem where
  xl := [100, 1000, 1000, 10, 10, 10, 10, 10]
  xu := [10000, 10000, 10000, 1000, 1000, 1000, 1000, 1000]
  F x := col x 0 + col x 1 + col x 2
  G x := [-1 + 0.0025 * (col x 3 + col x 5), -1 + 0.0025 * (-col x 3 + col x 4 + col x 6), -1 + 0.01 * (-col x 4 + col x 7),
    100 * col x 0 - col x 0 * col x 5 + 833.33252 * col x 3 - 83333.333, col x 1 * col x 3 - col x 1 * col x 6 - 1250 * col x 3 + 1250 * col x 4,
    col x 2 * col x 4 - col x 2 * col x 7 - 2500 * col x 4 + 1250000]
  H _ := []

/-- g.py:365-375. -/
noncomputable def g10Set : List ℝ :=
  [579.29340269759155, 1359.97691009458777, 5109.97770901501008, 182.01659025342749, 295.60089166064103, 217.98340973906758, 286.41569858295981, 395.60089165381908]

/-- g.py:420-434 `G13`. -/
noncomputable def g13Problem : ConProblem where
  xl := [-2.3, -2.3, -3.2, -3.2, -3.2]
  xu := [2.3, 2.3, 3.2, 3.2, 3.2]
  F x := Real.exp (col x 0 * col x 1 * col x 2 * col x 3 * col x 4)
  G _ := []
  H x := [col x 0 ^ 2 + col x 1 ^ 2 + col x 2 ^ 2 + col x 3 ^ 2 + col x 4 ^ 2 - 10, col x 1 * col x 2 - 5 * col x 3 * col x 4, col x 0 ^ 3 + col x 1 ^ 3 + 1]

/-- g.py:437-445: `opt`. -/
noncomputable def g13Opt : List ℝ := [-1.7171435947203, 1.5957097321519, 1.8272456947885, -0.7636422812896, -0.7636439027742]

/-- g.py:436-454: the six documented solutions. -/
noncomputable def g13Sets : List (List ℝ) :=
  [g13Opt,
    [col g13Opt 0, col g13Opt 1, -col g13Opt 2, -col g13Opt 3, col g13Opt 4],
    [col g13Opt 0, col g13Opt 1, -col g13Opt 2, col g13Opt 3, -col g13Opt 4],
    [col g13Opt 0, col g13Opt 1, col g13Opt 2, -col g13Opt 3, -col g13Opt 4],
    [col g13Opt 0, col g13Opt 1, -col g13Opt 2, col g13Opt 3, -col g13Opt 4],
    [col g13Opt 0, col g13Opt 1, -col g13Opt 2, -col g13Opt 3, col g13Opt 4]]

/-- g.py:464-477: `v`. -/
noncomputable def g14V : List ℝ := [-6.089, -17.164, -34.054, -5.914, -24.721, -14.986, -24.1, -10.708, -26.662, -22.179]

/-- The first `n` columns of a row (`x[:, :n]`). -/
def cols (n : ℕ) (x : List ℝ) : List ℝ := (List.range n).map (col x)

/-- `sum(v * w, axis=1)` for one row. -/
noncomputable def rowDot (v w : List ℝ) : ℝ := (List.zipWith (· * ·) v w).sum

/-- g.py:457-486 `G14`; `x` is taken to have its 10 columns. -/
noncomputable def g14Problem : ConProblem where
  xl := List.replicate 10 0.000001
  xu := List.replicate 10 10
  F x := rowDot (cols 10 x) (List.zipWith (· + ·) g14V ((cols 10 x).map fun v => Real.log (v / (cols 10 x).sum)))
  G _ := []
  H x := [col x 0 + 2 * col x 1 + 2 * col x 2 + col x 5 + col x 9 - 2, col x 3 + 2 * col x 4 + col x 5 + col x 6 - 1, col x 2 + col x 6 + col x 7 + 2 * col x 8 + col x 9 - 1]

/-- g.py:488-500. -/
noncomputable def g14Set : List ℝ :=
  [0.0406684113216282, 0.147721240492452, 0.783205732104114, 0.00141433931889084, 0.485293636780388, 0.000693183051556082, 0.0274052040687766, 0.0179509660214818, 0.0373268186859717, 0.0968844604336845]

/-- g.py:503-517 `G15`. -/
noncomputable def g15Problem : ConProblem where
  xl := List.replicate 3 0
  xu := List.replicate 3 10
  F x := 1000 - col x 0 ^ 2 - 2 * col x 1 ^ 2 - col x 2 ^ 2 - col x 0 * col x 1 - col x 0 * col x 2
  G _ := []
  H x := [col x 0 ^ 2 + col x 1 ^ 2 + col x 2 ^ 2 - 25, 8 * col x 0 + 14 * col x 1 + 7 * col x 2 - 56]

/-- g.py:519-520. -/
noncomputable def g15Set : List ℝ := [3.51212812611795133, 0.216987510429556135, 3.55217854929179921]

/-- g.py:722-753 `G18`. -/
noncomputable def g18Problem : ConProblem where
  xl := [-10, -10, -10, -10, -10, -10, -10, -10, 0]
  xu := [10, 10, 10, 10, 10, 10, 10, 10, 20]
  F x := -0.5 * (col x 0 * col x 3 - col x 1 * col x 2 + col x 2 * col x 8 - col x 4 * col x 8 + col x 4 * col x 7 - col x 5 * col x 6)
  G x := [col x 2 ^ 2 + col x 3 ^ 2 - 1, col x 8 ^ 2 - 1, col x 4 ^ 2 + col x 5 ^ 2 - 1, col x 0 ^ 2 + (col x 1 - col x 8) ^ 2 - 1,
    (col x 0 - col x 4) ^ 2 + (col x 1 - col x 5) ^ 2 - 1, (col x 0 - col x 6) ^ 2 + (col x 1 - col x 7) ^ 2 - 1, (col x 2 - col x 4) ^ 2 + (col x 3 - col x 5) ^ 2 - 1,
    (col x 2 - col x 6) ^ 2 + (col x 3 - col x 7) ^ 2 - 1, col x 6 ^ 2 + (col x 7 - col x 8) ^ 2 - 1, col x 1 * col x 2 - col x 0 * col x 3, -col x 2 * col x 8, col x 4 * col x 8,
    col x 5 * col x 6 - col x 4 * col x 7]
  H _ := []

/-- g.py:755-766. -/
noncomputable def g18Set : List ℝ :=
  [-0.9890005492667746, 0.1479118418638228, -0.6242897641574451, -0.7811841737429015, -0.9876159387318453, 0.1504778305249072, -0.6225959783340022, -0.782543417629948, 0]

/-- g.py:781-834: `aMat19`, by rows. -/
noncomputable def g19A : List (List ℝ) :=
  [[-16, 2, 0, 1, 0], [0, -2, 0, 0.4, 2], [-3.5, 0, 2, 0, 0], [0, -2, 0, -4, -1], [0, -9, -2, 1, -2.8], [2, 0, -4, 0, 0], [-1, -1, -1, -1, -1], [-1, -2, -3, -2, -1], [1, 2, 3, 4, 5], [1, 1, 1, 1, 1]]

/-- g.py:836. -/
noncomputable def g19B : List ℝ := [-40, -2, -0.25, -4, -4, -1, -40, -60, 5, 1]

/-- g.py:838-866: `cMat19`. -/
noncomputable def g19C : List (List ℝ) := [[30, -20, -10, 32, -10], [-20, 39, -6, -31, 32], [-10, -6, 10, -6, -10], [32, -31, -6, 39, -20], [-10, 32, -10, -20, 30]]

/-- g.py:868. -/
noncomputable def g19D : List ℝ := [4, 8, 10, 6, 2]

/-- g.py:869. -/
noncomputable def g19E : List ℝ := [-15, -27, -36, -18, -12]

/-- `x[:, 10:]` of the 15 columns. -/
def g19Tail (x : List ℝ) : List ℝ := (List.range 5).map fun i => col x (10 + i)

/-- g.py:769-887 `G19`. -/
noncomputable def g19Problem : ConProblem where
  xl := List.replicate 15 0
  xu := List.replicate 15 10
  F x := -rowDot g19B (cols 10 x) + 2 * rowDot g19D ((g19Tail x).map fun v => v * v * v) + ((List.range 5).map fun i => col x (10 + i) * rowDot (g19C.getD i []) (g19Tail x)).sum
  G x := (List.range 5).map fun j => -2 * rowDot (g19C.getD j []) (g19Tail x) - 3 * g19D.getD j 0 * col x (10 + j) * col x (10 + j) - g19E.getD j 0 + rowDot (g19A.map fun r => r.getD j 0) (cols 10 x)
  H _ := []

/-- g.py:889-906. -/
noncomputable def g19Set : List ℝ :=
  [0, 0, 3.94600628013917, 0, 3.28318162727873, 10, 0, 0, 0, 0, 0.370762125835098, 0.278454209512692, 0.523838440499861, 0.388621589976956, 0.29815843730292]

/-- g.py:925-952: the first half of `a`; its second half repeats it. -/
noncomputable def g20A : List ℝ := [0.0693, 0.0577, 0.05, 0.2, 0.26, 0.55, 0.06, 0.1, 0.12, 0.18, 0.1, 0.09]

/-- g.py:956. -/
noncomputable def g20E : List ℝ := [0.1, 0.3, 0.4, 0.3, 0.6, 0.3]

/-- g.py:958-985: the first half of `b`; its second half repeats it. -/
noncomputable def g20B : List ℝ := [44.094, 58.12, 58.12, 137.4, 120.9, 170.9, 62.501, 84.94, 133.425, 82.507, 46.07, 60.097]

/-- g.py:987. -/
noncomputable def g20C : List ℝ := [123.7, 31.7, 45.7, 14.7, 84.7, 27.7, 49.7, 7.1, 2.1, 17.7, 0.85, 0.64]

/-- g.py:988-1003. -/
noncomputable def g20D : List ℝ := [31.244, 36.12, 34.784, 92.7, 82.7, 91.6, 56.708, 82.7, 80.8, 64.517, 49.4, 49.1]

/-- `sum((x / b)[:, o:o + 12], axis=1)` for one row (g.py:1013, 1014, 1018). -/
noncomputable def g20S (x : List ℝ) (o : ℕ) : ℝ := ((List.range 12).map fun i => col x (i + o) / g20B.getD i 0).sum

/-- g.py:909-1021 `G20`. numpy's division by a zero sum gives nan, which satisfies no constraint; here it gives zero, which can only make more rows feasible. -/
noncomputable def g20Problem : ConProblem where
  xl := List.replicate 24 0
  xu := List.replicate 24 10
  F x := ((List.range 12).map fun i => g20A.getD i 0 * col x i).sum + ((List.range 12).map fun i => g20A.getD i 0 * col x (i + 12)).sum
  G x := ((List.range 3).map fun i => (col x i + col x (i + 12)) / ((cols 24 x).sum + g20E.getD i 0)) ++
    (List.range 3).map fun i => (col x (i + 3 + 3) + col x (i + 3 + 15)) / ((cols 24 x).sum + g20E.getD (i + 3) 0)
  H x := ((List.range 12).map fun i => col x (i + 12) / (g20B.getD i 0 * g20S x 12) - g20C.getD i 0 * col x i / (40 * g20B.getD i 0 * g20S x 0)) ++
    [(cols 24 x).sum - 1, ((List.range 12).map fun i => col x i / g20D.getD i 0).sum + 0.7302 * 530 * (14.7 / 40) * g20S x 12 - 1.671]

/-- g.py:1023-1049. -/
noncomputable def g20Set : List ℝ :=
  [9.53e-7, 0, 4.21e-3, 1.039e-4, 0, 0, 2.072e-1, 5.979e-1, 1.298e-1, 3.35e-2, 1.711e-2, 8.827e-3, 4.657e-10, 0, 0, 0, 0, 0, 2.868e-4, 1.193e-3, 8.332e-5, 1.239e-4, 2.07e-5, 1.829e-5]

/-- g.py:1052-1076 `G21`. The powers are taken of entries that are not negative within the bounds. -/
noncomputable def g21Problem : ConProblem where
  xl := [0, 0, 0, 100, 6.3, 5.9, 4.5]
  xu := [1000, 40, 40, 300, 6.7, 6.4, 6.25]
  F x := col x 0
  G x := [-col x 0 + 35 * col x 1 ^ (0.6 : ℝ) + 35 * col x 2 ^ (0.6 : ℝ)]
  H x := [-300 * col x 2 + 7500 * col x 4 - 7500 * col x 5 - 25 * col x 3 * col x 4 + 25 * col x 3 * col x 5 + col x 2 * col x 3,
    100 * col x 1 + 155.365 * col x 3 + 2500 * col x 6 - col x 1 * col x 3 - 25 * col x 3 * col x 6 - 15536.5,
    -col x 4 + Real.log (-col x 3 + 900), -col x 5 + Real.log (col x 3 + 300), -col x 6 + Real.log (-2 * col x 3 + 700)]

/-- g.py:1078-1087. -/
noncomputable def g21Set : List ℝ :=
  [193.724510070034967, 5.56944131553368433 * (1 / 10 ^ 27), 17.3191887294084914, 100.047897801386839, 6.68445185362377892, 5.99168428444264833, 6.21451648886070451]

end Model
