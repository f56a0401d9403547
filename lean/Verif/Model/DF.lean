import Verif.Model.ZDT
import Verif.Spec.Pareto
import Mathlib.Algebra.Order.Floor.Ring
import Mathlib.Algebra.Order.Floor.Semiring

/-!
# Model: the dynamic DF problems (pymoo/problems/dynamic/df.py)

`_evaluate` for one row (except DF12, whose rows depend on each other), over the reals, at time `t` (`self.time`; what the time is and when fronts
are recomputed is the subject of C93). `_calc_pareto_front` as the list of the returned points.
-/

namespace Model

/-- The bounds (`df.py:12` and the constructors of DF3-10, 12-14): the first `k` variables in `[a, b]`, the others in `[c, d]`. -/
def dfBox (k n : ℕ) (a b c d : ℝ) (x : List ℝ) : Prop :=
  x.length = n ∧ (∀ v ∈ x.take k, a ≤ v ∧ v ≤ b) ∧ ∀ v ∈ x.drop k, c ≤ v ∧ v ≤ d

/-- `np.sin(0.5 * np.pi * self.time)`, called `v`, `G` or `a` in the problems. -/
noncomputable def dfSin (t : ℝ) : ℝ := Real.sin (0.5 * Real.pi * t)

/-- `1 + np.sum((x - c) ** 2, axis=1)`. -/
noncomputable def dfDist (c : ℝ) (x : List ℝ) : ℝ := 1 + (x.map fun v => (v - c) ^ (2 : ℕ)).sum

/-- `DF1._evaluate` (`df.py:19-29`). -/
noncomputable def df1 (t : ℝ) (x : List ℝ) : Fin 2 → ℝ :=
  let H := 0.75 * dfSin t + 1.25
  let g := dfDist |dfSin t| x.tail
  let f1 := x.headD 0
  ![f1, g * (1 - (f1 / g) ^ H)]

/-- `DF1._calc_pareto_front` (`df.py:31-36`). -/
noncomputable def df1Front (t : ℝ) (n : ℕ) : List (Fin 2 → ℝ) := (linspace 0 1 n).map fun f1 => ![f1, 1 - f1 ^ (0.75 * dfSin t + 1.25)]

/-- `DF2._evaluate` (`df.py:40-53`): the position variable is number `int((n - 1) * G)`. -/
noncomputable def df2 (t : ℝ) (x : List ℝ) : Fin 2 → ℝ :=
  let G := |dfSin t|
  let r := ⌊((x.length : ℝ) - 1) * G⌋₊
  let g := dfDist G (x.eraseIdx r)
  let f1 := x.getD r 0
  ![f1, g * (1 - (f1 / g) ^ (0.5 : ℝ))]

/-- `DF2._calc_pareto_front` (`df.py:55-57`). -/
noncomputable def df2Front (n : ℕ) : List (Fin 2 → ℝ) := (linspace 0 1 n).map fun f1 => ![f1, 1 - √f1]

/-- `DF3._evaluate` (`df.py:66-74`). -/
noncomputable def df3 (t : ℝ) (x : List ℝ) : Fin 2 → ℝ :=
  let H := dfSin t + 1.5
  let x0 := x.headD 0
  let g := dfDist (dfSin t + x0 ^ H) x.tail
  ![x0, g * (1 - (x0 / g) ^ H)]

/-- `DF3._calc_pareto_front` (`df.py:76-85`). -/
noncomputable def df3Front (t : ℝ) (n : ℕ) : List (Fin 2 → ℝ) := (linspace 0 1 n).map fun x => ![x, 1 * (1 - (x / 1) ^ (dfSin t + 1.5))]

/-- `DF4`, the constant `b` (`df.py:97, 112`). -/
noncomputable def df4b (t : ℝ) : ℝ := 1 + |Real.cos (0.5 * Real.pi * t)|

/-- `DF4._evaluate`, the function `g` (`df.py:99-103`). -/
noncomputable def df4g (t : ℝ) (x : List ℝ) : ℝ :=
  let a := dfSin t
  let c := max |a| (a + df4b t)
  1 + (x.tail.zipIdx.map fun e => (e.1 - a * (x.headD 0 / c) ^ (2 : ℕ) / ((e.2 : ℝ) + 2)) ^ (2 : ℕ)).sum

/-- `DF4._evaluate` (`df.py:94-108`). -/
noncomputable def df4 (t : ℝ) (x : List ℝ) : Fin 2 → ℝ :=
  let a := dfSin t
  let H := 1.5 + a
  ![df4g t x * |x.headD 0 - a| ^ H, df4g t x * |x.headD 0 - a - df4b t| ^ H]

/-- `DF4._calc_pareto_front` (`df.py:110-119`). -/
noncomputable def df4Front (t : ℝ) (n : ℕ) : List (Fin 2 → ℝ) :=
  let a := dfSin t
  let H := 1.5 + a
  (linspace a (a + df4b t) n).map fun x => ![|x - a| ^ H, |x - a - df4b t| ^ H]

/-- `DF5`, the curve (`df.py:139-142`). -/
noncomputable def df5Curve (t x : ℝ) : Fin 2 → ℝ :=
  let w : ℝ := ⌊10 * dfSin t⌋
  ![x + 0.02 * Real.sin (w * Real.pi * x), 1 - x + 0.02 * Real.sin (w * Real.pi * x)]

/-- `DF5._evaluate` (`df.py:128-135`). -/
noncomputable def df5 (t : ℝ) (x : List ℝ) : Fin 2 → ℝ :=
  let w : ℝ := ⌊10 * dfSin t⌋
  let g := dfDist (dfSin t) x.tail
  let x0 := x.headD 0
  ![g * (x0 + 0.02 * Real.sin (w * Real.pi * x0)), g * (1 - x0 + 0.02 * Real.sin (w * Real.pi * x0))]

/-- `DF5._calc_pareto_front` (`df.py:137-143`). -/
noncomputable def df5Front (t : ℝ) (n : ℕ) : List (Fin 2 → ℝ) := (linspace 0 1 n).map (df5Curve t)

/-- `DF6._evaluate`, the function `g` (`df.py:155-156`). -/
noncomputable def df6g (t : ℝ) (x : List ℝ) : ℝ :=
  1 + (x.tail.map fun v => |dfSin t| * (v - dfSin t) ^ (2 : ℕ) - 10 * Real.cos (2 * Real.pi * (v - dfSin t)) + 10).sum

/-- `DF6._evaluate` (`df.py:152-161`). -/
noncomputable def df6 (t : ℝ) (x : List ℝ) : Fin 2 → ℝ :=
  let a := 0.2 + 2.8 * |dfSin t|
  let x0 := x.headD 0
  ![df6g t x * (x0 + 0.1 * Real.sin (3 * Real.pi * x0)) ^ a, df6g t x * (1 - x0 + 0.1 * Real.sin (3 * Real.pi * x0)) ^ a]

/-- `DF6._calc_pareto_front` (`df.py:163-170`), one point. -/
noncomputable def df6Curve (t x : ℝ) : Fin 2 → ℝ :=
  let a := 0.2 + 2.8 * |dfSin t|
  ![(x + 0.1 * Real.sin (3 * Real.pi * x)) ^ a, (1 - x + 0.1 * Real.sin (3 * Real.pi * x)) ^ a]

/-- `DF6._calc_pareto_front` (`df.py:163-170`). -/
noncomputable def df6Front (t : ℝ) (n : ℕ) : List (Fin 2 → ℝ) := (linspace 0 1 n).map (df6Curve t)

/-- `DF7._evaluate` (`df.py:179-186`). -/
noncomputable def df7 (t : ℝ) (x : List ℝ) : Fin 2 → ℝ :=
  let a := 5 * Real.cos (0.5 * Real.pi * t)
  let x0 := x.headD 0
  let g := dfDist (1 / (1 + Real.exp (a * (x0 - 2.5)))) x.tail
  ![g * (1 + t) / x0, g * x0 / (1 + t)]

/-- `DF7._calc_pareto_front` (`df.py:188-194`); the points are sorted by the first objective afterwards, which does not change which points are
returned: `order` is `argsort`. -/
noncomputable def df7Front (t : ℝ) (n : ℕ) (order : List ℕ) : List (Fin 2 → ℝ) :=
  let pf := (linspace 1 4 n).map fun x => (![(1 + t) / x, x / (1 + t)] : Fin 2 → ℝ)
  order.filterMap fun i => pf[i]?

/-- `DF8._evaluate` (`df.py:203-212`). -/
noncomputable def df8 (t : ℝ) (x : List ℝ) : Fin 2 → ℝ :=
  let a := 2.25 + 2 * Real.cos (2 * Real.pi * t)
  let x0 := x.headD 0
  let g := dfDist (dfSin t * Real.sin (4 * Real.pi * x0 ^ (1 : ℕ)) / (1 + |dfSin t|)) x.tail
  ![g * (x0 + 0.1 * Real.sin (3 * Real.pi * x0)), g * (1 - x0 + 0.1 * Real.sin (3 * Real.pi * x0)) ^ a]

/-- `DF8._calc_pareto_front` (`df.py:214-221`), one point. -/
noncomputable def df8Curve (t x : ℝ) : Fin 2 → ℝ :=
  ![x + 0.1 * Real.sin (3 * Real.pi * x), (1 - x + 0.1 * Real.sin (3 * Real.pi * x)) ^ (2.25 + 2 * Real.cos (2 * Real.pi * t))]

/-- `DF8._calc_pareto_front` (`df.py:214-221`). -/
noncomputable def df8Front (t : ℝ) (n : ℕ) : List (Fin 2 → ℝ) := (linspace 0 1 n).map (df8Curve t)

/-- `DF9._evaluate`, the loop for `g` (`df.py:233-236`): each variable is compared with the one before it. -/
noncomputable def df9g (t x0 : ℝ) (prev : ℝ) : List ℝ → ℝ
  | [] => 0
  | v :: l => (v - Real.cos (4 * t + x0 + prev)) ^ (2 : ℕ) + df9g t x0 v l

/-- `DF9`, the number of humps `N` (`df.py:232, 244`). -/
noncomputable def df9N (t : ℝ) : ℝ := 1 + ⌊10 * |Real.sin (0.5 * Real.pi * t)|⌋

/-- `DF9`, the humps (`df.py:237-238, 246-247`). -/
noncomputable def df9Hump (t x : ℝ) : ℝ := max 0 ((0.1 + 0.5 / df9N t) * Real.sin (2 * df9N t * Real.pi * x))

/-- `DF9._evaluate` (`df.py:230-240`). -/
noncomputable def df9 (t : ℝ) (x : List ℝ) : Fin 2 → ℝ :=
  let x0 := x.headD 0
  let g := 1 + df9g t x0 x0 x.tail
  ![g * (x0 + df9Hump t x0), g * (1 - x0 + df9Hump t x0)]

open Classical in
/-- `get_PF` (`df.py:436-450`) with `nondominate=True`: the rows that no other row dominates (`only_non_dominated_front`, C10). -/
noncomputable def dfNds {m : ℕ} (h : List (Fin m → ℝ)) : List (Fin m → ℝ) := h.filter fun p => decide (∀ q ∈ h, ¬ Spec.Dominates q p)

/-- `DF9._calc_pareto_front`, one point of the curve (`df.py:246-247`). -/
noncomputable def df9Curve (t x : ℝ) : Fin 2 → ℝ := ![x + df9Hump t x, 1 - x + df9Hump t x]

/-- `DF9._calc_pareto_front` (`df.py:242-250`). -/
noncomputable def df9Front (t : ℝ) (n : ℕ) : List (Fin 2 → ℝ) := dfNds ((linspace 0 1 n).map (df9Curve t))

/-- The grid of DF10-14 (`df.py:281-282` and so on), flattened by `get_PF` (`df.py:441-445`): `n_pareto_points` is not used. -/
noncomputable def dfGrid {m : ℕ} (c : ℝ → ℝ → Fin m → ℝ) : List (Fin m → ℝ) :=
  (linspace 0 1 20).flatMap fun x1 => (linspace 0 1 20).map fun x2 => c x1 x2

/-- `DF10._evaluate` (`df.py:260-278`). -/
noncomputable def df10 (t : ℝ) (x : List ℝ) : Fin 3 → ℝ :=
  let H := 2.25 + 2 * Real.cos (0.5 * Real.pi * t)
  let x0 := x.getD 0 0
  let x1 := x.getD 1 0
  let g := dfDist (Real.sin (4 * Real.pi * (x0 + x1)) / (1 + |dfSin t|)) (x.drop 2)
  ![g * Real.sin (0.5 * Real.pi * x0) ^ H, g * (Real.sin (0.5 * Real.pi * x1) * Real.cos (0.5 * Real.pi * x0)) ^ H,
    g * (Real.cos (0.5 * Real.pi * x1) * Real.cos (0.5 * Real.pi * x0)) ^ H]

/-- `DF10._calc_pareto_front` (`df.py:280-289`), one point. -/
noncomputable def df10Curve (t x1 x2 : ℝ) : Fin 3 → ℝ :=
  let H := 2.25 + 2 * Real.cos (0.5 * Real.pi * t)
  ![1 * Real.sin (0.5 * Real.pi * x1) ^ H, 1 * Real.sin (0.5 * Real.pi * x2) ^ H * Real.cos (0.5 * Real.pi * x1) ^ H,
    1 * Real.cos (0.5 * Real.pi * x2) ^ H * Real.cos (0.5 * Real.pi * x1) ^ H]

/-- `DF11`, the angle (`df.py:300, 312-313`). -/
noncomputable def df11Angle (t x : ℝ) : ℝ :=
  Real.pi * |dfSin t| / 6 + (Real.pi / 2 - Real.pi * |dfSin t| / 3) * x

/-- `DF11._evaluate` (`df.py:297-306`). -/
noncomputable def df11 (t : ℝ) (x : List ℝ) : Fin 3 → ℝ :=
  let G := |dfSin t|
  let g := 1 + G + ((x.drop 2).map fun v => (v - 0.5 * G * x.getD 0 0) ^ (2 : ℕ)).sum
  let y0 := df11Angle t (x.getD 0 0)
  let y1 := df11Angle t (x.getD 1 0)
  ![g * Real.sin y0, g * Real.sin y1 * Real.cos y0, g * Real.cos y1 * Real.cos y0]

/-- `DF11._calc_pareto_front` (`df.py:308-319`), one point. -/
noncomputable def df11Curve (t x1 x2 : ℝ) : Fin 3 → ℝ :=
  let G := |dfSin t|
  ![(1 + G) * Real.sin (df11Angle t x1), (1 + G) * Real.sin (df11Angle t x2) * Real.cos (df11Angle t x1),
    (1 + G) * Real.cos (df11Angle t x2) * Real.cos (df11Angle t x1)]

/-- `DF12._evaluate`, the values `tmp2` of one row (`df.py:336`). -/
noncomputable def df12Tmp (t : ℝ) (x : List ℝ) : List ℝ :=
  (x.take 2).map fun v => |Real.sin (⌊10 * Real.sin (Real.pi * t) * (2 * v - 1)⌋ * Real.pi / 2)|

/-- `DF12._evaluate` (`df.py:329-342`) for the rows `X`: `np.prod(tmp2)` has no axis, it is the product over all rows. -/
noncomputable def df12Batch (t : ℝ) (X : List (List ℝ)) : List (Fin 3 → ℝ) :=
  let prod := (X.flatMap (df12Tmp t)).prod
  X.map fun x =>
    let x0 := x.getD 0 0
    let x1 := x.getD 1 0
    let g := dfDist (Real.sin (t * x0)) (x.drop 2) + prod
    ![g * Real.cos (0.5 * Real.pi * x1) * Real.cos (0.5 * Real.pi * x0), g * Real.sin (0.5 * Real.pi * x1) * Real.cos (0.5 * Real.pi * x0),
      g * Real.sin (0.5 * Real.pi * x0)]

/-- `DF13`, the contribution of one position variable to the third objective (`df.py:374-379, 391-396`). -/
noncomputable def df13h (t x : ℝ) : ℝ :=
  Real.sin (0.5 * Real.pi * x) ^ (2 : ℕ) +
    Real.sin (0.5 * Real.pi * x) * Real.cos ((⌊6 * dfSin t⌋ : ℝ) * Real.pi * x) ^ (2 : ℕ)

/-- `DF13._evaluate` (`df.py:366-382`). -/
noncomputable def df13 (t : ℝ) (x : List ℝ) : Fin 3 → ℝ :=
  let x0 := x.getD 0 0
  let x1 := x.getD 1 0
  let g := dfDist (dfSin t) (x.drop 2)
  ![g * Real.cos (0.5 * Real.pi * x0) ^ (2 : ℕ), g * Real.cos (0.5 * Real.pi * x1) ^ (2 : ℕ), g * (df13h t x0 + df13h t x1)]

/-- `DF13._calc_pareto_front`, one point before the filter (`df.py:389-396`). -/
noncomputable def df13Curve (t x1 x2 : ℝ) : Fin 3 → ℝ :=
  ![Real.cos (0.5 * Real.pi * x1) ^ (2 : ℕ), Real.cos (0.5 * Real.pi * x2) ^ (2 : ℕ), df13h t x1 + df13h t x2]

/-- `DF13._calc_pareto_front` (`df.py:384-398`). -/
noncomputable def df13Front (t : ℝ) : List (Fin 3 → ℝ) := dfNds (dfGrid (df13Curve t))

/-- `DF14._evaluate` (`df.py:409-422`). -/
noncomputable def df14 (t : ℝ) (x : List ℝ) : Fin 3 → ℝ :=
  let x0 := x.getD 0 0
  let x1 := x.getD 1 0
  let g := dfDist (dfSin t) (x.drop 2)
  let y := 0.5 + dfSin t * (x0 - 0.5)
  ![g * (1 - y + 0.05 * Real.sin (6 * Real.pi * y)),
    g * (1 - x1 + 0.05 * Real.sin (6 * Real.pi * x1)) * (y + 0.05 * Real.sin (6 * Real.pi * y)),
    g * (x1 + 0.05 * Real.sin (6 * Real.pi * x1)) * (y + 0.05 * Real.sin (6 * Real.pi * y))]

/-- `DF14._calc_pareto_front` (`df.py:424-433`), one point. -/
noncomputable def df14Curve (t x1 x2 : ℝ) : Fin 3 → ℝ :=
  let y := 0.5 + dfSin t * (x1 - 0.5)
  ![1 - y + 0.05 * Real.sin (6 * Real.pi * y),
    (1 - x2 + 0.05 * Real.sin (6 * Real.pi * x2)) * (y + 0.05 * Real.sin (6 * Real.pi * y)),
    (x2 + 0.05 * Real.sin (6 * Real.pi * x2)) * (y + 0.05 * Real.sin (6 * Real.pi * y))]

end Model
