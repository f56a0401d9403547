import Verif.Model.MW

/-!
# Model: MW12 (`pymoo/problems/multi/mw.py`)

`_evaluate` for one row and `_calc_pareto_front`, over the reals; `n` is `n_var`.
-/

namespace Model

/-- mw.py:338-340 `MW12._evaluate`, the objectives. -/
noncomputable def mw12 (n : ℕ) (x : List ℝ) : Fin 2 → ℝ :=
  let g := mwG1 n 2 (x.drop 1)
  let f0 := g * x.getD 0 0
  ![f0, g * (0.85 - 0.8 * (f0 / g) - 0.08 * |Real.sin (3.2 * Real.pi * (f0 / g))|)]

/-- mw.py:342-351 `MW12._evaluate`, the two constraints. -/
noncomputable def mw12Con (f : Fin 2 → ℝ) : Fin 2 → ℝ :=
  ![-1 * (1 - 0.625 * f 0 - f 1 + 0.08 * Real.sin (2 * Real.pi * (f 1 - f 0 / 1.6))) *
      (1.4 - 0.875 * f 0 - f 1 + 0.08 * Real.sin (2 * Real.pi * (f 1 / 1.4 - f 0 / 1.6))),
    (1 - 0.8 * f 0 - f 1 + 0.08 * Real.sin (2 * Real.pi * (f 1 - f 0 / 1.5))) *
      (1.8 - 1.125 * f 0 - f 1 + 0.08 * Real.sin (2 * Real.pi * (f 1 / 1.8 - f 0 / 1.6)))]

/-- mw.py:361-363, 366-368: the test of the loop. -/
noncomputable def mw12Invalid (F : Fin 2 → ℝ) : Prop :=
  (1 - 0.8 * F 0 - F 1 + 0.08 * Real.sin (2 * Real.pi * (F 1 - F 0 / 1.5))) *
    (1.8 - 1.125 * F 0 - F 1 + 0.08 * Real.sin (2 * Real.pi * (F 1 / 1.8 - F 0 / 1.6))) > 0

open Classical in
/-- mw.py:364-368: the loop for one row (the rows do not depend on each other); `none`: not finished after `fuel` rounds. -/
noncomputable def mw12Loop : ℕ → (Fin 2 → ℝ) → Option (Fin 2 → ℝ)
  | 0, F => if mw12Invalid F then none else some F
  | fuel + 1, F => if mw12Invalid F then mw12Loop fuel fun i => F i * 1.001 else some F

/-- mw.py:353-369 `MW12._calc_pareto_front`, with at most `fuel` rounds of the loop; it also writes into the caller's array. -/
noncomputable def mw12Front (fuel : ℕ) (refDirs : Option (List (Fin 2 → ℝ))) : Option (WithCaller (Fin 2 → ℝ)) :=
  let r := mwRows (fun t => 0.85 - 0.8 * t - 0.08 * |Real.sin (3.2 * Real.pi * t)|) refDirs
  (r.1.mapM (mw12Loop fuel)).map fun F => (F, if refDirs.isSome then F else r.2)

end Model
