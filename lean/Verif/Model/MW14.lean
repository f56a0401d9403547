import Verif.Model.MW

/-!
# Model: MW14 (`pymoo/problems/multi/mw.py`)

`_evaluate` for one row and `_calc_pareto_front`, over the reals. `k = n_obj - 1` is the number of position variables; the bounds are 0 and 1.5.
-/

namespace Model

/-- mw.py:22-24, 406 `LA1(1.5, 1.1, 2.0, 1.0, theta)`. -/
noncomputable def mw14LA (v : ℝ) : ℝ := 1.5 * Real.sin (1.1 * Real.pi * v ^ 2)

/-- mw.py:402-408 `MW14._evaluate`, the objectives; `g3` (mw.py:55-61) reads the variables from number `n_obj - 2` on. -/
noncomputable def mw14 (k : ℕ) (x : List ℝ) : Fin (k + 1) → ℝ :=
  let g := mwG3 (x.drop (k - 1))
  fun i => if (i : ℕ) < k then x.getD i 0 else g / k * ∑ j : Fin k, (6 - Real.exp (x.getD j 0) - mw14LA (x.getD j 0))

/-- mw.py:410-411 `MW14._evaluate`, the constraint. -/
noncomputable def mw14Con {k : ℕ} (f : Fin (k + 1) → ℝ) : ℝ :=
  f (Fin.last k) - 1 / k * ∑ j : Fin k, (6.1 - 1 - f j.castSucc - 0.5 * f j.castSucc * f j.castSucc - mw14LA (f j.castSucc))

/-- mw.py:415-418 `MW14._calc_pareto_front`; `remote` is the file on the server. -/
def mw14Front (k : ℕ) (remote : List (Fin (k + 1) → ℝ)) : List (Fin (k + 1) → ℝ) := if k + 1 = 3 then remote else []

end Model
