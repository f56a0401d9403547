import Verif.Model.Indicators
import Verif.Model.Observers

/-!
# Model of `pymoo/indicators/migd.py` (`MIGD`), on the dynamic problems of `Model/Observers` and the indicator of `Model/Indicators`

A point of the decision space has any type `X`; `evalAt t x` are the objectives of `x` at time `t` and `pfAt t` is the front the problem calculates at time `t`. `none` = the code raises.
-/

namespace Model

variable {X : Type*} {m : ℕ}

/-- The problem (`dyn.py:26-31`), the population of the algorithm (variables and the objectives stored), and `MIGD.records` (`migd.py:23-24`). -/
structure MigdState (X : Type*) (m : ℕ) where
  dyn : DynState (List (Fin m → ℝ))
  pop : List (X × (Fin m → ℝ))
  records : List (ℚ × ℝ)

/-- `migd.py:48-49`: `IGD(pf).do(F)`. -/
noncomputable def migdIgd (moo : Moocore m) (pf F : List (Fin m → ℝ)) : Option ℝ := (distInit { pf := pf }).bind fun I => distDo moo .igd I F

/-- `migd.py:41-46`: the objectives, evaluated anew by `problem.evaluate` at the current time or as stored. -/
def migdF (reevaluate : Bool) (evalAt : ℚ → X → Fin m → ℝ) (t : ℚ) (pop : List (X × (Fin m → ℝ))) : List (Fin m → ℝ) :=
  if reevaluate then pop.map fun p => evalAt t p.1 else pop.map Prod.snd

/-- `migd.py:26-51` `update`; line 30 is the assertion about constraints. -/
noncomputable def migdUpdate (moo : Moocore m) (reevaluate : Bool) (nConstr nt taut : ℕ) (pfAt : ℚ → List (Fin m → ℝ)) (evalAt : ℚ → X → Fin m → ℝ) (s : MigdState X m) : Option (MigdState X m) :=
  if nConstr = 0 then
    let t := dynTime nt taut s.dyn
    let r := dynStep nt taut pfAt s.dyn .front
    r.2.bind fun pf => (migdIgd moo pf (migdF reevaluate evalAt t s.pop)).map fun v => ⟨r.1, s.pop, s.records ++ [(t, v)]⟩
  else none

/-- What happens in a run: calls at the problem (`DynOp`, among them the ticks of `TimeSimulation`), the algorithm has a new population, the callback is called. -/
inductive MigdOp (X : Type*) (m : ℕ)
  | prob (o : DynOp)
  | advance (pop : List (X × (Fin m → ℝ)))
  | update

/-- One of them. -/
noncomputable def migdStep (moo : Moocore m) (reevaluate : Bool) (nConstr nt taut : ℕ) (pfAt : ℚ → List (Fin m → ℝ)) (evalAt : ℚ → X → Fin m → ℝ) (s : MigdState X m) : MigdOp X m → Option (MigdState X m)
  | .prob o => some { s with dyn := (dynStep nt taut pfAt s.dyn o).1 }
  | .advance pop => some { s with pop := pop }
  | .update => migdUpdate moo reevaluate nConstr nt taut pfAt evalAt s

/-- A run. -/
noncomputable def migdRun (moo : Moocore m) (reevaluate : Bool) (nConstr nt taut : ℕ) (pfAt : ℚ → List (Fin m → ℝ)) (evalAt : ℚ → X → Fin m → ℝ) (s : MigdState X m) (ops : List (MigdOp X m)) : Option (MigdState X m) :=
  ops.foldlM (migdStep moo reevaluate nConstr nt taut pfAt evalAt) s

/-- `migd.py:53-54` `value`; `none` is the `nan` of an empty mean. -/
noncomputable def migdValue (s : MigdState X m) : Option ℝ := npMean (s.records.map Prod.snd)

end Model
