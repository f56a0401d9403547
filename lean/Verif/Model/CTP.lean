import Mathlib.Analysis.SpecialFunctions.Trigonometric.Basic
import Mathlib.Analysis.SpecialFunctions.Log.Basic
import Mathlib.Analysis.SpecialFunctions.Pow.Real
import Mathlib.Data.Fin.VecNotation

/-!
# Model of `pymoo/problems/multi/ctp.py`

One row `x`; real arithmetic, except that the division in `calc_constraint` keeps numpy's results for a zero denominator. An unknown `option` is not modelled (it
prints a message and evaluation fails). `_calc_pareto_front` (a file that is downloaded) is not modelled.
-/

namespace Model

/-- ctp.py:23-32: the admissible values of `option`. -/
inductive CtpOption | linear | multimodal

/-- ctp.py:10-11. -/
noncomputable def ctpLinear (y : List ℝ) : ℝ := 1 + y.sum

/-- ctp.py:14-16. -/
noncomputable def ctpMultimodal (y : List ℝ) : ℝ := 1 + 10 * (y.length : ℝ) + (y.map fun v => v ^ 2 - 10 * Real.cos (2 * Real.pi * v)).sum

/-- ctp.py:23-29 `calc_g`. -/
noncomputable def ctpG : CtpOption → List ℝ → ℝ
  | .linear => ctpLinear
  | .multimodal => ctpMultimodal

/-- ctp.py:21-29 and (`wide`) 156-157, 183-184: the bounds of the variables after the first, whose bounds are 0 and 1. -/
noncomputable def ctpBounds (o : CtpOption) (wide : Bool) : ℝ × ℝ :=
  match o with
  | .linear => (0, if wide then 20 else 1)
  | .multimodal => (-5.12, if wide then 20 else 5.12)

/-- ctp.py:34-38 `calc_objectives`. -/
noncomputable def ctpObjectives (o : CtpOption) (x : List ℝ) : Fin 2 → ℝ :=
  let f1 := x.getD 0 0
  let gg := ctpG o (x.drop 1)
  ![f1, gg * (1 - √(f1 / gg))]

/-- The value of a constraint. -/
inductive CtpVal
  | fin (r : ℝ)
  | negInf
  | posInf
  | nan

/-- The comparison `value <= 0` (false for NaN). -/
def CtpVal.ok : CtpVal → Prop
  | .fin r => r ≤ 0
  | .negInf => True
  | .posInf => False
  | .nan => False

/-- ctp.py:64 `1 - exp1 / exp2` for `exp2 ≥ 0`: numpy's division by zero gives an infinity or NaN. -/
noncomputable def ctpQuot (exp1 exp2 : ℝ) : CtpVal :=
  if exp2 = 0 then (if exp1 = 0 then .nan else if 0 < exp1 then .negInf else .posInf) else .fin (1 - exp1 / exp2)

/-- ctp.py:53: `exp1`. -/
noncomputable def ctpExp1 (theta e f1 f2 : ℝ) : ℝ := (f2 - e) * Real.cos theta - f1 * Real.sin theta

/-- ctp.py:55-58: `exp2`. -/
noncomputable def ctpExp2 (theta a b : ℝ) (c : ℕ) (d e f1 f2 : ℝ) : ℝ :=
  a * |Real.sin (b * Real.pi * ((f2 - e) * Real.sin theta + f1 * Real.cos theta) ^ c)| ^ d

/-- ctp.py:40-70 `calc_constraint`. -/
noncomputable def ctpConstraint (theta a b : ℝ) (c : ℕ) (d e f1 f2 : ℝ) : CtpVal := ctpQuot (ctpExp1 theta e f1 f2) (ctpExp2 theta a b c d e f1 f2)

/-- The parameters theta, a, b, c, d, e of one call of `calc_constraint`. -/
structure CtpParam where
  theta : ℝ
  a : ℝ
  b : ℝ
  c : ℕ
  d : ℝ
  e : ℝ

/-- ctp.py:115-117. -/
noncomputable def ctp2 : List CtpParam := [⟨-0.2 * Real.pi, 0.2, 10, 1, 6, 1⟩]
/-- ctp.py:125-128. -/
noncomputable def ctp3 : List CtpParam := [⟨-0.2 * Real.pi, 0.1, 10, 1, 0.5, 1⟩]
/-- ctp.py:136-139. -/
noncomputable def ctp4 : List CtpParam := [⟨-0.2 * Real.pi, 0.75, 10, 1, 0.5, 1⟩]
/-- ctp.py:147-150. -/
noncomputable def ctp5 : List CtpParam := [⟨-0.2 * Real.pi, 0.1, 10, 2, 0.5, 1⟩]
/-- ctp.py:163-166. -/
noncomputable def ctp6 : List CtpParam := [⟨0.1 * Real.pi, 40, 0.5, 1, 2, -2⟩]
/-- ctp.py:174-177. -/
noncomputable def ctp7 : List CtpParam := [⟨-0.05 * Real.pi, 40, 5, 1, 6, 0⟩]
/-- ctp.py:190-198. -/
noncomputable def ctp8 : List CtpParam := [⟨0.1 * Real.pi, 40, 0.5, 1, 2, -2⟩, ⟨-0.05 * Real.pi, 40, 2, 1, 6, 0⟩]

/-- The `_evaluate` of CTP2 to CTP8 (ctp.py:111-117 and the following ones): all constraints of a row. -/
noncomputable def ctpCons (ps : List CtpParam) (o : CtpOption) (x : List ℝ) : List CtpVal :=
  ps.map fun p => ctpConstraint p.theta p.a p.b p.c p.d p.e (ctpObjectives o x 0) (ctpObjectives o x 1)

/-- ctp.py:86-91, the loop of `CTP1.__init__`: the coefficients `a[j + 1]`, `b[j + 1]`. -/
noncomputable def ctp1Loop (delta : ℝ) : ℕ → ℝ → ℝ → ℝ → List (ℝ × ℝ)
  | 0, _, _, _ => []
  | n + 1, alpha, a, b =>
    let beta := a * Real.exp (-b * alpha)
    let a' := (a + beta) / 2
    let b' := -1 / alpha * Real.log (beta / a')
    (a', b') :: ctp1Loop delta n (alpha + delta) a' b'

/-- ctp.py:80-94. -/
noncomputable def ctp1Coef (J : ℕ) : List (ℝ × ℝ) := ctp1Loop (1 / ((J : ℝ) + 1)) J (1 / ((J : ℝ) + 1)) 1 1

/-- ctp.py:96-100: the objectives of CTP1. -/
noncomputable def ctp1F (o : CtpOption) (x : List ℝ) : Fin 2 → ℝ :=
  let f1 := x.getD 0 0
  let gg := ctpG o (x.drop 1)
  ![f1, gg * Real.exp (-f1 / gg)]

/-- ctp.py:102-107: the constraints of CTP1. -/
noncomputable def ctp1G (J : ℕ) (o : CtpOption) (x : List ℝ) : List ℝ :=
  (ctp1Coef J).map fun p => -(ctp1F o x 1 - p.1 * Real.exp (-p.2 * ctp1F o x 0))

end Model
