import Verif.Model.MW
import Mathlib.Analysis.SpecialFunctions.Pow.Real

/-!
# Model: MW5, MW7, MW9, MW10, MW11 (`pymoo/problems/multi/mw.py`)

The problems of the suite whose front is loaded from a server. `_evaluate` for one row, over the reals; `n` is `n_var`. The downloaded fronts are not modelled.
-/

namespace Model

/-- mw.py:172-175 `MW5._evaluate`, the objectives. -/
noncomputable def mw5 (n : ℕ) (x : List ℝ) : Fin 2 → ℝ :=
  let g := mwG1 n 2 (x.drop 1)
  let f0 := g * x.getD 0 0
  ![f0, g * √(1 - (f0 / g) ^ 2)]

/-- mw.py:26-28, 177-183 `MW5._evaluate`, the constraints. -/
noncomputable def mw5Con (f : Fin 2 → ℝ) : Fin 3 → ℝ :=
  let t := 0.5 * Real.pi - 2 * |mwAtan f - 0.25 * Real.pi|
  ![f 0 ^ 2 + f 1 ^ 2 - (1.7 - 0.2 * Real.sin (2 * mwAtan f)) ^ 2,
    (1 + 0.5 * Real.sin (6 * t ^ 3)) ^ 2 - f 0 ^ 2 - f 1 ^ 2,
    (1 - 0.45 * Real.sin (6 * t ^ 3)) ^ 2 - f 0 ^ 2 - f 1 ^ 2]

/-- mw.py:228-231 `MW7._evaluate`, the objectives. -/
noncomputable def mw7 (x : List ℝ) : Fin 2 → ℝ :=
  let g := mwG3 x
  let f0 := g * x.getD 0 0
  ![f0, g * √(1 - (f0 / g) ^ 2)]

/-- mw.py:233-237 `MW7._evaluate`, the constraints. -/
noncomputable def mw7Con (f : Fin 2 → ℝ) : Fin 2 → ℝ :=
  ![f 0 ^ 2 + f 1 ^ 2 - (1.2 + |0.4 * Real.sin (4 * mwAtan f) ^ 16|) ^ 2, (1.15 - 0.2 * Real.sin (4 * mwAtan f) ^ 8) ^ 2 - f 0 ^ 2 - f 1 ^ 2]

/-- mw.py:280-282 `MW9._evaluate`, the objectives. -/
noncomputable def mw9 (n : ℕ) (x : List ℝ) : Fin 2 → ℝ :=
  let g := mwG1 n 2 (x.drop 1)
  let f0 := g * x.getD 0 0
  ![f0, g * (1 - (f0 / g) ^ (0.6 : ℝ))]

/-- mw.py:284-286 `MW9._evaluate`, the constraint. -/
noncomputable def mw9Con (f : Fin 2 → ℝ) : ℝ :=
  min ((1 - 0.64 * f 0 * f 0 - f 1) * (1 - 0.36 * f 0 * f 0 - f 1))
    ((1.35 * 1.35 - (f 0 + 0.35) * (f 0 + 0.35) - f 1) * (1.15 * 1.15 - (f 0 + 0.15) * (f 0 + 0.15) - f 1))

/-- mw.py:299-301 `MW10._evaluate`, the objectives. -/
noncomputable def mw10 (n : ℕ) (x : List ℝ) : Fin 2 → ℝ :=
  let g := mwG2 n 2 (x.drop 1)
  let f0 := g * x.getD 0 0 ^ n
  ![f0, g * (1 - (f0 / g) ^ 2)]

/-- mw.py:303-305 `MW10._evaluate`, the constraints. -/
noncomputable def mw10Con (f : Fin 2 → ℝ) : Fin 3 → ℝ :=
  ![-1 * (2 - 4 * f 0 * f 0 - f 1) * (2 - 8 * f 0 * f 0 - f 1), (2 - 2 * f 0 * f 0 - f 1) * (2 - 16 * f 0 * f 0 - f 1),
    (1 - f 0 * f 0 - f 1) * (1.2 - 1.2 * f 0 * f 0 - f 1)]

/-- mw.py:318-320 `MW11._evaluate`, the objectives. -/
noncomputable def mw11 (x : List ℝ) : Fin 2 → ℝ :=
  let g := mwG3 x
  let f0 := g * x.getD 0 0
  ![f0, g * √(2 - (f0 / g) ^ 2)]

/-- mw.py:322-325 `MW11._evaluate`, the constraints. -/
noncomputable def mw11Con (f : Fin 2 → ℝ) : Fin 4 → ℝ :=
  ![-1 * (3 - f 0 * f 0 - f 1) * (3 - 2 * f 0 * f 0 - f 1), (3 - 0.625 * f 0 * f 0 - f 1) * (3 - 7 * f 0 * f 0 - f 1),
    -1 * (1.62 - 0.18 * f 0 * f 0 - f 1) * (1.125 - 0.125 * f 0 * f 0 - f 1), (2.07 - 0.23 * f 0 * f 0 - f 1) * (0.63 - 0.07 * f 0 * f 0 - f 1)]

end Model
