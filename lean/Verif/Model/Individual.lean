import Mathlib.Algebra.Order.Field.Basic
import Mathlib.Algebra.Order.BigOperators.Group.List
import Mathlib.Algebra.Order.Group.Abs

/-! # Model of constraint violations in `pymoo/core/individual.py` -/

namespace Model

section CV
variable {K : Type*} [Field K] [LinearOrder K]

/-- One of the entries `cv_ieq`, `cv_eq` of `default_config` (`individual.py:20-31`). `func` aggregates; powers are
natural numbers here. -/
structure CvConfig (K : Type*) where
  eps : K
  scale : Option K
  pow : Option ℕ
  func : List K → K

/-- `individual.py:623`: `np.maximum(0.0, c - eps)`, then scaling (626-627) and power (630-631), for one entry. -/
def constrEntry (cfg : CvConfig K) (c : K) : K :=
  let c := max 0 (c - cfg.eps)
  let c := match cfg.scale with | some s => c / s | none => c
  match cfg.pow with | some p => c ^ p | none => c

/-- `individual.py:600-633` `constr_to_cv`. -/
def constrToCv (cfg : CvConfig K) (c : List K) : K :=
  if c.length = 0 then 0 else cfg.func (c.map (constrEntry cfg))

/-- The configuration of an individual (`individual.py:26-31`). -/
structure IndConfig (K : Type*) where
  cache : Bool
  cvEps : K
  ieq : CvConfig K
  eq : CvConfig K

/-- `individual.py:559-597` `calc_cv` for one individual (one-dimensional `G`, `H`). -/
def calcCv [AddLeftMono K] (cfg : IndConfig K) (G H : List K) : K :=
  constrToCv cfg.ieq G + constrToCv cfg.eq (H.map fun h => |h|)

/-- `individual.py:20-31` `default_config`. `1e-4` is the real number 1/10000. -/
def defaultConfig : IndConfig K :=
  { cache := true, cvEps := 0
    ieq := { eps := 0, scale := none, pow := none, func := List.sum }
    eq := { eps := 1 / 10000, scale := none, pow := none, func := List.sum } }

/-- The fields `_G`, `_H`, `_CV` of an individual. -/
structure CvState (K : Type*) where
  G : List K
  H : List K
  CV : Option K

/-- The accesses a user (or the evaluator) makes: setters `individual.py:201-226, 244-251`, the property
`CV` (229-242), `reset` (96-136). -/
inductive CvOp (K : Type*)
  | setG (G : List K) | setH (H : List K) | setCV (CV : Option K) | readCV | reset

/-- One access: the new fields and the value returned by a read. -/
def cvStep [AddLeftMono K] (cfg : IndConfig K) (s : CvState K) : CvOp K → CvState K × Option K
  | .setG G => ({ s with G := G }, none)
  | .setH H => ({ s with H := H }, none)
  | .setCV v => ({ s with CV := v }, none)
  | .readCV =>
    match cfg.cache, s.CV with
    | true, some v => (s, some v)
    | _, _ => ({ s with CV := some (calcCv cfg s.G s.H) }, some (calcCv cfg s.G s.H))
  | .reset => (⟨[], [], none⟩, none)

/-- A sequence of accesses. -/
def cvRun [AddLeftMono K] (cfg : IndConfig K) : CvState K → List (CvOp K) → CvState K
  | s, [] => s
  | s, op :: ops => cvRun cfg (cvStep cfg s op).1 ops

/-- `individual.py:253-261` `FEAS`: reads `CV` and compares with `cv_eps`. -/
def feasOf (cfg : IndConfig K) (cv : K) : Bool := decide (cv ≤ cfg.cvEps)

end CV

end Model
