import Verif.Model.DTLZ

/-!
# Model: the degenerate constrained DTLZ problems (pymoo/problems/many/dcdtlz.py)

The constraints for one row; the objectives are those of DTLZ1 and DTLZ3 (`Model.dtlz1`, `Model.dtlz3`), and `_calc_pareto_front` is inherited from them
(`dtlz1Front`, `genericSphere`). `x` is the row, its first `m - 1` entries are `X_`.
-/

namespace Model

/-- dcdtlz.py:8-20 `constraint_dc1`. -/
noncomputable def conDC1 (x : List ℝ) (a b : ℝ) : ℝ := b - Real.cos (a * Real.pi * x.getD 0 0)

/-- dcdtlz.py:23-35 `constraints_dc2`. -/
noncomputable def conDC2 (gx a b : ℝ) : List ℝ := [b - Real.cos (gx / 100 * Real.pi * a), b - Real.exp (-gx / 100)]

/-- dcdtlz.py:38-52 `constraints_dc3`. -/
noncomputable def conDC3 (X : List ℝ) (gx a b : ℝ) : List ℝ :=
  (b - Real.cos (a * Real.pi * gx)) :: X.map fun v => b - Real.cos (a * Real.pi * v)

/-- dcdtlz.py:69-79, 96-106 `out["G"]` of DC1DTLZ1 and DC1DTLZ3. -/
noncomputable def dc1G (x : List ℝ) : List ℝ := [conDC1 x 5 0.95]

/-- dcdtlz.py:123-135, 152-164 `out["G"]` of DC2DTLZ1 and DC2DTLZ3. -/
noncomputable def dc2G (m : ℕ) (x : List ℝ) : List ℝ := conDC2 (dtlzG1 (x.drop (m - 1))) 3 0.9

/-- dcdtlz.py:180-192, 208-220 `out["G"]` of DC3DTLZ1 and DC3DTLZ3. -/
noncomputable def dc3G (m : ℕ) (x : List ℝ) : List ℝ := conDC3 (x.take (m - 1)) (dtlzG1 (x.drop (m - 1))) 5 0.5

end Model
