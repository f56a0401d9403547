import Mathlib.Analysis.SpecialFunctions.Trigonometric.Basic
import Mathlib.Analysis.SpecialFunctions.Pow.Real
import Mathlib.Algebra.BigOperators.Group.List.Basic
import Mathlib.Algebra.BigOperators.Fin
import Verif.Model.ZDT

/-!
# Model: the DTLZ problems (pymoo/problems/many/dtlz.py) and their constrained variants (cdtlz.py)

`_evaluate` for one row, over the reals; `m` is `n_obj`, `self.n_var` the length of the row and `self.k` the number of the
remaining variables. Fronts loaded from a server (DTLZ5-7 with three objectives) are not modelled.
-/

namespace Model

/-- `DTLZ.g1` (dtlz.py 43-52). -/
noncomputable def dtlzG1 (XM : List ℝ) : ℝ :=
  100 * (XM.length + (XM.map fun v => (v - 1 / 2) ^ 2 - Real.cos (20 * Real.pi * (v - 1 / 2))).sum)

/-- `DTLZ.g2` (dtlz.py 54-63). -/
noncomputable def dtlzG2 (XM : List ℝ) : ℝ := (XM.map fun v => (v - 1 / 2) ^ 2).sum

/-- `DTLZ.obj_func` (dtlz.py 65-90), objective `i` without the factor `1 + g`: the product of `c` over all but the last `i`
position variables, times `s` of the next one. -/
noncomputable def dtlzShape (c s : ℝ → ℝ) (X : List ℝ) (i : ℕ) : ℝ :=
  ((X.take (X.length - i)).map c).prod * (if 0 < i then s (X.getD (X.length - i) 0) else 1)

/-- `DTLZ1.obj_func` (dtlz.py 119-138). -/
noncomputable def dtlz1Obj (m : ℕ) (X : List ℝ) (g : ℝ) : Fin m → ℝ :=
  fun i => 1 / 2 * (1 + g) * dtlzShape (fun v => v) (fun v => 1 - v) X i

/-- `DTLZ1._evaluate` (dtlz.py 140-151). -/
noncomputable def dtlz1 (m : ℕ) (x : List ℝ) : Fin m → ℝ := dtlz1Obj m (x.take (m - 1)) (dtlzG1 (x.drop (m - 1)))

/-- `DTLZ1._calc_pareto_front` (dtlz.py 106-117), for one reference direction. -/
noncomputable def dtlz1Front {m : ℕ} (r : Fin m → ℝ) : Fin m → ℝ := fun i => 1 / 2 * r i

/-- `DTLZ.obj_func` (dtlz.py 65-90). -/
noncomputable def dtlzObj (m : ℕ) (alpha : ℕ) (X : List ℝ) (g : ℝ) : Fin m → ℝ :=
  fun i => (1 + g) * dtlzShape (fun v => Real.cos (v ^ alpha * Real.pi / 2)) (fun v => Real.sin (v ^ alpha * Real.pi / 2)) X i

/-- `DTLZ2._evaluate` (dtlz.py 180-191). -/
noncomputable def dtlz2 (m : ℕ) (x : List ℝ) : Fin m → ℝ := dtlzObj m 1 (x.take (m - 1)) (dtlzG2 (x.drop (m - 1)))

/-- `DTLZ3._evaluate` (dtlz.py 220-231). -/
noncomputable def dtlz3 (m : ℕ) (x : List ℝ) : Fin m → ℝ := dtlzObj m 1 (x.take (m - 1)) (dtlzG1 (x.drop (m - 1)))

/-- `DTLZ4._evaluate` (dtlz.py 264-275). -/
noncomputable def dtlz4 (m alpha : ℕ) (x : List ℝ) : Fin m → ℝ := dtlzObj m alpha (x.take (m - 1)) (dtlzG2 (x.drop (m - 1)))

/-- `generic_sphere` (dtlz.py 634-643), for one reference direction: the fronts of DTLZ2-4 (dtlz.py 167-178, 207-218, 251-262). -/
noncomputable def genericSphere {m : ℕ} (r : Fin m → ℝ) : Fin m → ℝ := fun i => r i / √(∑ j, r j ^ 2)

/-- `DTLZ5._evaluate`, `DTLZ6._evaluate`, the angles `theta` (dtlz.py 326-327, 380-381): the first variable is kept, the others are
moved towards one half. -/
noncomputable def dtlzTheta (g : ℝ) : List ℝ → List ℝ
  | [] => []
  | a :: X => a :: X.map fun v => 1 / (2 * (1 + g)) * (1 + 2 * g * v)

/-- `DTLZ5._evaluate` (dtlz.py 314-329). -/
noncomputable def dtlz5 (m : ℕ) (x : List ℝ) : Fin m → ℝ :=
  let g := dtlzG2 (x.drop (m - 1))
  dtlzObj m 1 (dtlzTheta g (x.take (m - 1))) g

/-- `DTLZ6._evaluate` (dtlz.py 368-383). -/
noncomputable def dtlz6 (m : ℕ) (x : List ℝ) : Fin m → ℝ :=
  let g := ((x.drop (m - 1)).map fun v => v ^ (1 / 10 : ℝ)).sum
  dtlzObj m 1 (dtlzTheta g (x.take (m - 1))) g

/-- `DTLZ5._calc_pareto_front` and `DTLZ6._calc_pareto_front` for `n_obj != 3` (dtlz.py 300-312, 354-366). -/
noncomputable def dtlz5Front (m k : ℕ) : List (Fin m → ℝ) :=
  (linspace 0 (Real.pi / 2) k).map fun theta1 =>
    let thetas := theta1 :: List.replicate (m - 2) (Real.pi / 4)
    fun i => ((thetas.take (m - 1 - i)).map Real.cos).prod * (if 0 < (i : ℕ) then Real.sin (thetas.getD (m - 1 - i) 0) else 1)

/-- `DTLZ7._evaluate` (dtlz.py 421-438), for at least one distance variable. -/
noncomputable def dtlz7 (m : ℕ) (x : List ℝ) : Fin m → ℝ :=
  let f := x.take (m - 1)
  let XM := x.drop (m - 1)
  let g := 1 + 9 / XM.length * XM.sum
  let h := m - (f.map fun v => v / (1 + g) * (1 + Real.sin (3 * Real.pi * v))).sum
  fun i => if (i : ℕ) < m - 1 then f.getD i 0 else (1 + g) * h

/-- `DTLZ7._calc_pareto_front` for `n_obj != 3` (dtlz.py 411-419): `rows` are the random numbers in `[0, 1)`. -/
noncomputable def dtlz7Front (m : ℕ) (rows : List (List ℝ)) : List (Fin m → ℝ) :=
  ((rows.map fun f => (f, 2 * (m : ℝ) - (f.map fun v => v * (1 + Real.sin (3 * Real.pi * v))).sum)).filter
    fun e => 0 ≤ e.2).map fun e => fun i => if (i : ℕ) < m - 1 then e.1.getD i 0 else e.2

/-- `InvertedDTLZ1._evaluate` (dtlz.py 444-457). -/
noncomputable def invDtlz1 (m : ℕ) (x : List ℝ) : Fin m → ℝ := fun i => 1 / 2 * (1 + dtlzG1 (x.drop (m - 1))) - dtlz1 m x i

/-- `InvertedDTLZ1._calc_pareto_front` (dtlz.py 459-469): `self.problem` does not exist, `AttributeError` (`none`). -/
def invDtlz1Front {m : ℕ} (_refDirs : List (Fin m → ℝ)) : Option (List (Fin m → ℝ)) := none

/-- `ScaledProblem.get_scale`, `_evaluate`, `_calc_pareto_front` (dtlz.py 495-529): applied to one objective vector. -/
noncomputable def scaleObj {m : ℕ} (factor : ℝ) (f : Fin m → ℝ) : Fin m → ℝ := fun i => f i * factor ^ (i : ℕ)

/-- `ConvexProblem.get_power`, `_evaluate`, `_calc_pareto_front` (dtlz.py 551-588): applied to one objective vector. -/
noncomputable def convexObj {m : ℕ} (f : Fin m → ℝ) : Fin m → ℝ := fun i => f i ^ (if (i : ℕ) = m - 1 then 2 else 4)

/-- `constraint_c1_linear` (cdtlz.py 230-240), for `m + 1` objectives. -/
noncomputable def conC1Linear {m : ℕ} (f : Fin (m + 1) → ℝ) : ℝ :=
  -(1 - f (Fin.last m) / 0.6 - ∑ i : Fin m, f i.castSucc / 0.5)

/-- `constraint_c1_spherical` (cdtlz.py 243-256). -/
noncomputable def conC1Spherical {m : ℕ} (r : ℝ) (f : Fin m → ℝ) : ℝ :=
  -((∑ i, f i ^ 2) - 16) * ((∑ i, f i ^ 2) - r ^ 2)

/-- `C1DTLZ3.__init__`, the default radius (cdtlz.py 64-71). -/
noncomputable def c1dtlz3r (m : ℕ) : ℝ := if m < 5 then 9 else if 5 ≤ m ∧ m ≤ 12 then 12.5 else 15

/-- `constraint_c2` (cdtlz.py 259-281): the least of the values for the `m` corners and for the centre. -/
noncomputable def conC2 {m : ℕ} (r : ℝ) (f : Fin m → ℝ) : ℝ :=
  (List.finRange m).foldl (fun v i => min ((f i - 1) ^ 2 + ((∑ j, f j ^ 2) - f i ^ 2) - r ^ 2) v)
    ((∑ i, (f i - 1 / √m) ^ 2) - r ^ 2)

/-- `constraint_c3_linear` (cdtlz.py 284-300). -/
noncomputable def conC3Linear {m : ℕ} (f : Fin m → ℝ) : Fin m → ℝ := fun i => 1 - f i / 0.5 - ((∑ j, f j) - f i)

/-- `constraint_c3_spherical` (cdtlz.py 303-318). -/
noncomputable def conC3Spherical {m : ℕ} (f : Fin m → ℝ) : Fin m → ℝ := fun i => 1 - f i ^ 2 / 4 - ((∑ j, f j ^ 2) - f i ^ 2)

/-- `C2DTLZ2._calc_pareto_front` (cdtlz.py 138-154): the points of the front of DTLZ2 that satisfy the constraint. -/
noncomputable def c2dtlz2Front {m : ℕ} (r : ℝ) (refDirs : List (Fin m → ℝ)) : List (Fin m → ℝ) :=
  (refDirs.map genericSphere).filter fun f => conC2 r f ≤ 0

/-- `C3DTLZ4._calc_pareto_front` (cdtlz.py 208-227), for one reference direction (with `m + 1` objectives). -/
noncomputable def c3dtlz4Front {m : ℕ} (r : Fin (m + 1) → ℝ) : Fin (m + 1) → ℝ :=
  let F := genericSphere r
  let a := √((∑ i, F i ^ 2) - 3 / 4 * listMax (List.ofFn fun i => F i ^ 2))
  fun i => F i / a

end Model
