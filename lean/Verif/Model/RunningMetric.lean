import Verif.Model.Tolerance
import Verif.Model.Hypervolume

/-!
# Model: the running metric (`pymoo/util/running_metric.py`)

Floats are real numbers (so that adding `1e-16` changes a number; for floats this is so for numbers of absolute value below `1/2`). `m + 1` objectives. Drawing is not modelled.
-/

namespace Model

variable {m : ℕ}

/-- The attributes of `RunningMetric` (running_metric.py:30-34). An entry `none` of the first two lists: not a number (a division by zero). -/
structure RunMetric (m : ℕ) where
  history : List (MoSnap m)
  deltaIdeal : List (Option ℝ)
  deltaNadir : List (Option ℝ)
  deltaF : List (WithTop ℝ)

/-- running_metric.py:27, 75-80: the argument `indicator`. -/
inductive RunInd | igd | hv | other
  deriving DecidableEq

/-- running_metric.py:47-54: ideal point, nadir point (with the correction for equal values) and the divisor. -/
noncomputable def runSnap (F : List (Fin (m + 1) → ℝ)) : Option (MoSnap m × (Fin (m + 1) → ℝ)) :=
  (ptMin F).bind fun ideal => (ptMax F).map fun nadir0 =>
    let norm0 : Fin (m + 1) → ℝ := fun k => nadir0 k - ideal k
    let nadir : Fin (m + 1) → ℝ := fun k => if ideal k = nadir0 k then nadir0 k + 1 / 10 ^ 16 else nadir0 k
    let norm : Fin (m + 1) → ℝ := fun k => if ideal k = nadir k then 1 else norm0 k
    (⟨ideal, nadir, F⟩, norm)

open Classical in
/-- `calc_delta_norm` (ftol.py:15-16) with a divisor that may be zero. -/
noncomputable def runDelta (a b norm : Fin (m + 1) → ℝ) : Option ℝ := if ∀ k, norm k ≠ 0 then some (calcDeltaNorm a b norm) else none

/-- running_metric.py:66-71: the changes from each entry of the history to the next, and a zero at the end. -/
noncomputable def runDeltas (get : MoSnap m → Fin (m + 1) → ℝ) (norm : Fin (m + 1) → ℝ) : List (MoSnap m) → List (Option ℝ)
  | [] => [some 0]
  | [_] => [some 0]
  | a :: b :: l => runDelta (get b) (get a) norm :: runDeltas get norm (b :: l)

/-- running_metric.py:60-80: the indicator of each entry of the history with respect to the current set; `none` = an exception. -/
noncomputable def runF (moo : Moocore (m + 1)) (ind : RunInd) (c : MoSnap m) (h : List (MoSnap m)) : Option (List (WithTop ℝ)) :=
  let N : List (List (Fin (m + 1) → ℝ)) := h.map fun e => e.F.map (indForward (some (c.ideal, c.nadir)))
  match ind with
  | .igd => some (N.map fun X => igdOf moo (c.F.map (indForward (some (c.ideal, c.nadir)))) X)
  | .hv => (hvInit { refPoint := some fun _ => (1 : ℝ) }).map fun I => N.map fun X => ((hvDo moo I X : ℝ) : WithTop ℝ)
  | .other => none

/-- running_metric.py:36-86 `RunningMetric.update(algorithm)`; `F = none`: there is no optimum yet. -/
noncomputable def runUpdate (moo : Moocore (m + 1)) (ind : RunInd) (period : Option ℕ) (s : RunMetric m) (F : Option (List (Fin (m + 1) → ℝ))) :
    Option (RunMetric m) :=
  match F with
  | none => some s
  | some F =>
    (runSnap F).bind fun c =>
      let h := swAppend period s.history c.1
      (runF moo ind c.1 h).map fun f => ⟨h, runDeltas (·.ideal) c.2 h, runDeltas (·.nadir) c.2 h, f⟩

/-- A run: the optimum of every generation. -/
noncomputable def runAll (moo : Moocore (m + 1)) (ind : RunInd) (period : Option ℕ) (Fs : List (Option (List (Fin (m + 1) → ℝ)))) : Option (RunMetric m) :=
  Fs.foldlM (runUpdate moo ind period) ⟨[], [], [], []⟩

end Model
