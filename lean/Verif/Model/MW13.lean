import Verif.Model.MW

/-!
# Model: MW13 (`pymoo/problems/multi/mw.py`)

`_evaluate` for one row, over the reals; `n` is `n_var`, the bounds are 0 and 1.5. The front is loaded from a server and not modelled.
-/

namespace Model

/-- mw.py:377-379 `MW13._evaluate`, the objectives. -/
noncomputable def mw13 (n : ℕ) (x : List ℝ) : Fin 2 → ℝ :=
  let g := mwG2 n 2 (x.drop 1)
  let f0 := g * x.getD 0 0
  ![f0, g * (5 - Real.exp (f0 / g) - |0.5 * Real.sin (3 * Real.pi * f0 / g)|)]

/-- mw.py:381-388 `MW13._evaluate`, the constraints. -/
noncomputable def mw13Con (f : Fin 2 → ℝ) : Fin 2 → ℝ :=
  ![-1 * (5 - (1 + f 0 + 0.5 * f 0 * f 0) - 0.5 * Real.sin (3 * Real.pi * f 0) - f 1) * (5 - (1 + 0.7 * f 0) - 0.5 * Real.sin (3 * Real.pi * f 0) - f 1),
    (5 - Real.exp (f 0) - 0.5 * Real.sin (3 * Real.pi * f 0) - f 1) * (5 - (1 + 0.4 * f 0) - 0.5 * Real.sin (3 * Real.pi * f 0) - f 1)]

end Model
