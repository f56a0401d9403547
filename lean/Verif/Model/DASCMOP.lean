import Mathlib.Analysis.SpecialFunctions.Trigonometric.Basic
import Mathlib.Analysis.SpecialFunctions.Log.Basic
import Mathlib.Analysis.SpecialFunctions.Pow.Real
import Mathlib.Data.Fin.VecNotation

/-!
# Model of `pymoo/problems/multi/dascmop.py`

One row `x` of 30 variables; real arithmetic. `out["G"]` is the list of the values of all constraints. `_calc_pareto_front` (a file that is downloaded) is not
modelled.
-/

namespace Model

/-- dascmop.py:8-25. -/
def dasDifficulties : List (ℚ × ℚ × ℚ) :=
  [(1/4, 0, 0), (0, 1/4, 0), (0, 0, 1/4), (1/4, 1/4, 1/4), (1/2, 0, 0), (0, 1/2, 0), (0, 0, 1/2), (1/2, 1/2, 1/2),
   (3/4, 0, 0), (0, 3/4, 0), (0, 0, 3/4), (3/4, 3/4, 3/4), (0, 1, 0), (1/2, 1, 0), (0, 1, 1/2), (1/2, 1, 1/2)]

/-- dascmop.py:40-52: an integer difficulty; `none` = the exception. -/
def dasDifficulty (k : ℤ) : Option (ℚ × ℚ × ℚ) :=
  if 1 ≤ k ∧ k ≤ dasDifficulties.length then dasDifficulties[(k - 1).toNat]? else none

/-- dascmop.py:54-56. -/
noncomputable def dasG1 (m : ℕ) (x : List ℝ) : ℝ := ((x.drop (m - 1)).map fun v => (v - Real.sin (0.5 * Real.pi * x.getD 0 0)) ^ 2).sum

/-- dascmop.py:58-61. -/
noncomputable def dasG2 (m : ℕ) (x : List ℝ) : ℝ :=
  ((30 : ℝ) - m + 1) + ((x.drop (m - 1)).map fun v => (v - 0.5) ^ 2 - Real.cos (20 * Real.pi * (v - 0.5))).sum

/-- dascmop.py:63-66. -/
noncomputable def dasG3 (m : ℕ) (x : List ℝ) : ℝ :=
  (((x.drop (m - 1)).zipIdx (m - 1)).map fun p =>
    (p.1 - Real.cos (0.25 * ((p.2 : ℝ) + 1) / 30 * Real.pi * (x.getD 0 0 + x.getD 1 0))) ^ 2).sum

/-- dascmop.py:84, 194. -/
noncomputable def dasD (zeta : ℝ) : ℝ := if zeta ≠ 0 then 0.5 else 0

/-- dascmop.py:85-88, 195-198. -/
noncomputable def dasE (zeta : ℝ) : ℝ := if 0 < zeta then dasD zeta - Real.log zeta else 1e30

/-- dascmop.py:101-104, 208-211: the second kind of constraint, before the change of sign. -/
noncomputable def dasType2 (zeta g : ℝ) : ℝ := if zeta = 1 then 1e-4 - |dasE zeta - g| else (dasE zeta - g) * (g - dasD zeta)

/-- dascmop.py:91-92: the centres of the ellipses. -/
noncomputable def dasCentres : List (ℝ × ℝ) := [(0, 1.5), (1, 0.5), (0, 2.5), (1, 1.5), (2, 0.5), (0, 3.5), (1, 2.5), (2, 1.5), (3, 0.5)]

/-- dascmop.py:81-112 `constraints` of DASCMOP1 to DASCMOP6. -/
noncomputable def dasCon2 (eta zeta gamma : ℝ) (x : List ℝ) (f0 f1 g : ℝ) : List ℝ :=
  let th : ℝ := -0.25 * Real.pi
  ([Real.sin (20 * Real.pi * x.getD 0 0) - (2 * eta - 1), dasType2 zeta g] ++
    dasCentres.map fun p : ℝ × ℝ => ((f0 - p.1) * Real.cos th - (f1 - p.2) * Real.sin th) ^ 2 / (0.3 : ℝ)
      + ((f0 - p.1) * Real.sin th + (f1 - p.2) * Real.cos th) ^ 2 / (1.2 : ℝ) - 0.5 * gamma).map fun c : ℝ => -1 * c

/-- dascmop.py:201-203: the centres of the spheres. -/
noncomputable def dasCentres3 : List (ℝ × ℝ × ℝ) := [(1, 0, 0), (0, 1, 0), (0, 0, 1), (1 / √3, 1 / √3, 1 / √3)]

/-- dascmop.py:183-214 `constraints` of DASCMOP7 to DASCMOP9. -/
noncomputable def dasCon3 (eta zeta gamma : ℝ) (x : List ℝ) (f0 f1 f2 g : ℝ) : List ℝ :=
  ([Real.sin (20 * Real.pi * x.getD 0 0) - (2 * eta - 1), Real.cos (20 * Real.pi * x.getD 1 0) - (2 * eta - 1), dasType2 zeta g] ++
    dasCentres3.map fun p : ℝ × ℝ × ℝ => (f0 - p.1) ^ 2 + (f1 - p.2.1) ^ 2 + (f2 - p.2.2) ^ 2 - (0.5 * gamma) ^ 2).map fun c : ℝ => -1 * c

/-- A row's objectives and constraints. -/
structure DasOut (m : ℕ) where
  F : Fin m → ℝ
  G : List ℝ

/-- The body shared by the six `_evaluate` with two objectives. -/
noncomputable def dasEval2 (eta zeta gamma : ℝ) (x : List ℝ) (f0 f1 g : ℝ) : DasOut 2 := { F := ![f0, f1], G := dasCon2 eta zeta gamma x f0 f1 g }

/-- The body shared by the three `_evaluate` with three objectives. -/
noncomputable def dasEval3 (eta zeta gamma : ℝ) (x : List ℝ) (f0 f1 f2 g : ℝ) : DasOut 3 := { F := ![f0, f1, f2], G := dasCon3 eta zeta gamma x f0 f1 f2 g }

/-- dascmop.py:114-121 `DASCMOP1._evaluate`. -/
noncomputable def dascmop1 (eta zeta gamma : ℝ) (x : List ℝ) : DasOut 2 :=
  let g := dasG1 2 x
  dasEval2 eta zeta gamma x (x.getD 0 0 + g) (1 - x.getD 0 0 ^ 2 + g) g

/-- dascmop.py:125-132 `DASCMOP2._evaluate`. -/
noncomputable def dascmop2 (eta zeta gamma : ℝ) (x : List ℝ) : DasOut 2 :=
  let g := dasG1 2 x
  dasEval2 eta zeta gamma x (x.getD 0 0 + g) (1 - √(x.getD 0 0) + g) g

/-- dascmop.py:136-143 `DASCMOP3._evaluate`. -/
noncomputable def dascmop3 (eta zeta gamma : ℝ) (x : List ℝ) : DasOut 2 :=
  let g := dasG1 2 x
  dasEval2 eta zeta gamma x (x.getD 0 0 + g) (1 - √(x.getD 0 0) + 0.5 * |Real.sin (5 * Real.pi * x.getD 0 0)| + g) g

/-- dascmop.py:147-154 `DASCMOP4._evaluate`. -/
noncomputable def dascmop4 (eta zeta gamma : ℝ) (x : List ℝ) : DasOut 2 :=
  let g := dasG2 2 x
  dasEval2 eta zeta gamma x (x.getD 0 0 + g) (1 - x.getD 0 0 ^ 2 + g) g

/-- dascmop.py:158-165 `DASCMOP5._evaluate`. -/
noncomputable def dascmop5 (eta zeta gamma : ℝ) (x : List ℝ) : DasOut 2 :=
  let g := dasG2 2 x
  dasEval2 eta zeta gamma x (x.getD 0 0 + g) (1 - √(x.getD 0 0) + g) g

/-- dascmop.py:169-176 `DASCMOP6._evaluate`. -/
noncomputable def dascmop6 (eta zeta gamma : ℝ) (x : List ℝ) : DasOut 2 :=
  let g := dasG2 2 x
  dasEval2 eta zeta gamma x (x.getD 0 0 + g) (1 - √(x.getD 0 0) + 0.5 * |Real.sin (5 * Real.pi * x.getD 0 0)| + g) g

/-- dascmop.py:216-224 `DASCMOP7._evaluate`. -/
noncomputable def dascmop7 (eta zeta gamma : ℝ) (x : List ℝ) : DasOut 3 :=
  let g := dasG2 3 x
  dasEval3 eta zeta gamma x (x.getD 0 0 * x.getD 1 0 + g) (x.getD 1 0 * (1 - x.getD 0 0) + g) (1 - x.getD 1 0 + g) g

/-- dascmop.py:228-238 `DASCMOP8.objectives` and `_evaluate`. -/
noncomputable def dascmop8 (eta zeta gamma : ℝ) (x : List ℝ) : DasOut 3 :=
  let g := dasG2 3 x
  dasEval3 eta zeta gamma x (Real.cos (0.5 * Real.pi * x.getD 0 0) * Real.cos (0.5 * Real.pi * x.getD 1 0) + g)
    (Real.cos (0.5 * Real.pi * x.getD 0 0) * Real.sin (0.5 * Real.pi * x.getD 1 0) + g) (Real.sin (0.5 * Real.pi * x.getD 0 0) + g) g

/-- dascmop.py:242-246 `DASCMOP9._evaluate`. -/
noncomputable def dascmop9 (eta zeta gamma : ℝ) (x : List ℝ) : DasOut 3 :=
  let g := dasG3 3 x
  dasEval3 eta zeta gamma x (Real.cos (0.5 * Real.pi * x.getD 0 0) * Real.cos (0.5 * Real.pi * x.getD 1 0) + g)
    (Real.cos (0.5 * Real.pi * x.getD 0 0) * Real.sin (0.5 * Real.pi * x.getD 1 0) + g) (Real.sin (0.5 * Real.pi * x.getD 0 0) + g) g

end Model
