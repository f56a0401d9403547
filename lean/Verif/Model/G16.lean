import Verif.Model.GMore

/-!
# Model: G2, G16 and G22 (pymoo/problems/single/g.py)

`_evaluate` for one row over the reals, the bounds, and what `pareto_set` returns (`...Set`).
-/

namespace Model
open Spec

/-- g.py:57-79 `G2(n_var)`; a sum that is 0 is impossible within the bounds, but modelled. -/
noncomputable def g2Problem (n : ℕ) : ConProblem where
  xl := List.replicate n (1 / 10 ^ 16)
  xu := List.replicate n 10
  F x :=
    let a := (x.map fun v => Real.cos v ^ 4).sum
    let b := 2 * (x.map fun v => Real.cos v ^ 2).prod
    let s := (x.zipIdx.map fun p => ((p.2 : ℝ) + 1) * p.1 ^ 2).sum
    let c := Real.sqrt s + (if s = 0 then 1 / 10 ^ 64 else 0)
    let f := -|(a - b) / c|
    f
  G x := [-x.prod + 0.75, x.sum - 7.5 * n]
  H _ := []

/-- g.py:81-125 `G2._calc_pareto_set`; `None` unless there are 2, 10 or 20 variables. -/
noncomputable def g2Set (n : ℕ) : Option (List ℝ) :=
  if n = 2 then some [1.600859, 0.4684985]
  else if n = 10 then some [3.1238477, 3.0690696, 3.0139085, 2.9572856, 1.4654789, 0.3684877, 0.3633289, 0.3592627, 0.3547453, 0.3510025]
  else if n = 20 then some [3.16246061572185, 3.12833142812967, 3.09479212988791, 3.06145059523469, 3.02792915885555, 2.99382606701730, 2.95866871765285, 2.92184227312450, 0.49482511456933, 0.48835711005490, 0.48231642711865, 0.47664475092742, 0.47129550835493, 0.46623099264167, 0.46142004984199, 0.45683664767217, 0.45245876903267, 0.44826762241853, 0.44424700958760, 0.44038285956317]
  else none

/-- g.py:530. -/
noncomputable def g16y1 (x : List ℝ) : ℝ := col x 1 + col x 2 + 41.6

/-- g.py:531. -/
noncomputable def g16c1 (x : List ℝ) : ℝ := 0.024 * col x 3 - 4.62

/-- g.py:532. -/
noncomputable def g16y2 (x : List ℝ) : ℝ := (12.5 / g16c1 x) + 12

/-- g.py:533. -/
noncomputable def g16c2 (x : List ℝ) : ℝ := 0.0003535 * (col x 0 ^ 2) + 0.5311 * col x 0 + 0.08705 * g16y2 x * col x 0

/-- g.py:534. -/
noncomputable def g16c3 (x : List ℝ) : ℝ := 0.052 * col x 0 + 78 + 0.002377 * g16y2 x * col x 0

/-- g.py:535. -/
noncomputable def g16y3 (x : List ℝ) : ℝ := g16c2 x / g16c3 x

/-- g.py:536. -/
noncomputable def g16y4 (x : List ℝ) : ℝ := 19 * g16y3 x

/-- g.py:537. -/
noncomputable def g16c4 (x : List ℝ) : ℝ := 0.04782 * (col x 0 - g16y3 x) + (0.1956 * (col x 0 - g16y3 x) ^ 2) / col x 1 + 0.6376 * g16y4 x + 1.594 * g16y3 x

/-- g.py:538. -/
noncomputable def g16c5 (x : List ℝ) : ℝ := 100 * col x 1

/-- g.py:539. -/
noncomputable def g16c6 (x : List ℝ) : ℝ := col x 0 - g16y3 x - g16y4 x

/-- g.py:540. -/
noncomputable def g16c7 (x : List ℝ) : ℝ := 0.950 - (g16c4 x / g16c5 x)

/-- g.py:541. -/
noncomputable def g16y5 (x : List ℝ) : ℝ := g16c6 x * g16c7 x

/-- g.py:542. -/
noncomputable def g16y6 (x : List ℝ) : ℝ := col x 0 - g16y5 x - g16y4 x - g16y3 x

/-- g.py:543. -/
noncomputable def g16c8 (x : List ℝ) : ℝ := (g16y5 x + g16y4 x) * 0.995

/-- g.py:544. -/
noncomputable def g16y7 (x : List ℝ) : ℝ := g16c8 x / g16y1 x

/-- g.py:545. -/
noncomputable def g16y8 (x : List ℝ) : ℝ := g16c8 x / 3798

/-- g.py:546. -/
noncomputable def g16c9 (x : List ℝ) : ℝ := g16y7 x - (0.0663 * (g16y7 x / g16y8 x)) - 0.3153

/-- g.py:547. -/
noncomputable def g16y9 (x : List ℝ) : ℝ := (96.82 / g16c9 x) + 0.321 * g16y1 x

/-- g.py:548. -/
noncomputable def g16y10 (x : List ℝ) : ℝ := 1.29 * g16y5 x + 1.258 * g16y4 x + 2.29 * g16y3 x + 1.71 * g16y6 x

/-- g.py:549. -/
noncomputable def g16y11 (x : List ℝ) : ℝ := 1.71 * col x 0 - 0.452 * g16y4 x + 0.580 * g16y3 x

/-- g.py:550. -/
noncomputable def g16c10 (_x : List ℝ) : ℝ := 12.3 / 752.3

/-- g.py:551. -/
noncomputable def g16c11 (x : List ℝ) : ℝ := (1.75 * g16y2 x) * (0.995 * col x 0)

/-- g.py:552. -/
noncomputable def g16c12 (x : List ℝ) : ℝ := (0.995 * g16y10 x) + 1998

/-- g.py:553. -/
noncomputable def g16y12 (x : List ℝ) : ℝ := g16c10 x * col x 0 + (g16c11 x / g16c12 x)

/-- g.py:554. -/
noncomputable def g16y13 (x : List ℝ) : ℝ := g16c12 x - 1.75 * g16y2 x

/-- g.py:555. -/
noncomputable def g16y14 (x : List ℝ) : ℝ := 3623 + 64.4 * col x 1 + 58.4 * col x 2 + 146312 / (g16y9 x + col x 4)

/-- g.py:556. -/
noncomputable def g16c13 (x : List ℝ) : ℝ := 0.995 * g16y10 x + 60.8 * col x 1 + 48 * col x 3 - 0.1121 * g16y14 x - 5095

/-- g.py:557. -/
noncomputable def g16y15 (x : List ℝ) : ℝ := g16y13 x / g16c13 x

/-- g.py:558. -/
noncomputable def g16y16 (x : List ℝ) : ℝ := 148000 - 331000 * g16y15 x + 40 * g16y13 x - 61 * g16y15 x * g16y13 x

/-- g.py:559. -/
noncomputable def g16c14 (x : List ℝ) : ℝ := 2324 * g16y10 x - 28740000 * g16y2 x

/-- g.py:560. -/
noncomputable def g16y17 (x : List ℝ) : ℝ := 14130000 - (1328 * g16y10 x) - (531 * g16y11 x) + (g16c14 x / g16c12 x)

/-- g.py:561. -/
noncomputable def g16c15 (x : List ℝ) : ℝ := (g16y13 x / g16y15 x) - (g16y13 x / 0.52)

/-- g.py:562. -/
noncomputable def g16c16 (x : List ℝ) : ℝ := 1.104 - 0.72 * g16y15 x

/-- g.py:563. -/
noncomputable def g16c17 (x : List ℝ) : ℝ := g16y9 x + col x 4

/-- g.py:523-658 `G16`. -/
noncomputable def g16Problem : ConProblem where
  xl := [704.4148, 68.6, 0, 193, 25]
  xu := [906.3855, 288.88, 134.75, 287.0966, 84.1988]
  F x := (0.000117 * g16y14 x) + 0.1365 + (0.00002358 * g16y13 x) + (0.000001502 * g16y16 x) + (0.0321 * g16y12 x) + (0.004324 * g16y5 x) + (0.0001 * g16c15 x / g16c16 x) + (37.48 * (g16y2 x / g16c12 x)) - (0.0000005843 * g16y17 x)
  G x := [(0.28 / 0.72) * g16y5 x - g16y4 x,
    col x 2 - 1.5 * col x 1,
    3496 * (g16y2 x / g16c12 x) - 21,
    110.6 + g16y1 x - (62212 / g16c17 x),
    213.1 - g16y1 x,
    g16y1 x - 405.23,
    17.505 - g16y2 x,
    g16y2 x - 1053.6667,
    11.275 - g16y3 x,
    g16y3 x - 35.03,
    214.228 - g16y4 x,
    g16y4 x - 665.585,
    7.458 - g16y5 x,
    g16y5 x - 584.463,
    0.961 - g16y6 x,
    g16y6 x - 265.916,
    1.612 - g16y7 x,
    g16y7 x - 7.046,
    0.146 - g16y8 x,
    g16y8 x - 0.222,
    107.99 - g16y9 x,
    g16y9 x - 273.366,
    922.693 - g16y10 x,
    g16y10 x - 1286.105,
    926.832 - g16y11 x,
    g16y11 x - 1444.046,
    18.766 - g16y12 x,
    g16y12 x - 537.141,
    1072.163 - g16y13 x,
    g16y13 x - 3247.039,
    8961.448 - g16y14 x,
    g16y14 x - 26844.086,
    0.063 - g16y15 x,
    g16y15 x - 0.386,
    71084.33 - g16y16 x,
    -140000 + g16y16 x,
    2802713 - g16y17 x,
    g16y17 x - 12146108]
  H _ := []

/-- g.py:660-661. -/
noncomputable def g16Set : List ℝ := [705.17454, 68.60000, 102.90000, 282.32493, 37.58412]

/-- g.py:1090-1198 `G22`. -/
noncomputable def g22Problem : ConProblem where
  xl := [0, 0, 0, 0, 0, 0, 0, 100, 100, 100.01, 100, 100, 0, 0, 0, 0.01, 0.01, -4.7, -4.7, -4.7, -4.7, -4.7]
  xu := [20000, 10 ^ 6, 10 ^ 6, 10 ^ 6, 4 * (10 ^ 7), 4 * (10 ^ 7), 4 * (10 ^ 7), 299.99, 399.99, 300, 400, 600, 500, 500, 500, 300, 400, 6.25, 6.25, 6.25, 6.25, 6.25]
  F x := col x 0
  G x := [-col x 0 + col x 1 ^ (0.6 : ℝ) + col x 2 ^ (0.6 : ℝ) + col x 3 ^ (0.6 : ℝ)]
  H x := [col x 4 - 100000 * col x 7 + 10^7,
    col x 5 + 100000 * col x 7 - 100000 * col x 8,
    col x 6 + 100000 * col x 8 - 5 * 10^7,
    col x 4 + 100000 * col x 9 - 3.3 * 10^7,
    col x 5 + 100000 * col x 10 - 4.4 * 10^7,
    col x 6 + 100000 * col x 11 - 6.6 * 10^7,
    col x 4 - 120 * col x 1 * col x 12,
    col x 5 - 80 * col x 2 * col x 13,
    col x 6 - 40 * col x 3 * col x 14,
    col x 7 - col x 10 + col x 15,
    col x 8 - col x 11 + col x 16,
    -col x 17 + Real.log (col x 9 - 100),
    -col x 18 + Real.log (-col x 7 + 300),
    -col x 19 + Real.log (col x 15),
    -col x 20 + Real.log (-col x 8 + 400),
    -col x 21 + Real.log (col x 16),
    -col x 7 - col x 9 + col x 12 * col x 17 - col x 12 * col x 18 + 400,
    col x 7 - col x 8 - col x 10 + col x 13 * col x 19 - col x 13 * col x 20 + 400,
    col x 8 - col x 11 - 4.60517 * col x 14 + col x 14 * col x 21 + 100]

/-- g.py:1200-1224. -/
noncomputable def g22Set : List ℝ :=
  [236.430975504001054, 135.82847151732463, 204.818152544824585, 6446.54654059436416, 3007540.83940215595, 4074188.65771341929, 32918270.5028952882, 130.075408394314167, 170.817294970528621, 299.924591605478554, 399.258113423595205, 330.817294971142758, 184.51831230897065, 248.64670239647424, 127.658546694545862, 269.182627528746707, 160.000016724090955, 5.29788288102680571, 5.13529735903945728, 5.59531526444068827, 5.43444479314453499, 5.07517453535834395]

end Model
