import Verif.Model.Algorithm
import Verif.Model.Repair

/-!
# Model of `LoopwiseAlgorithm` (`pymoo/core/algorithm.py:371-395`), `pymoo/algorithms/soo/univariate/exp.py` and `pymoo/algorithms/base/line.py`

The generator `_next` is arbitrary. Python refuses a value sent to a generator that has just been started; here it is ignored (the main loop never does it).
-/

namespace Model

variable {σ P G : Type*}

/-- A generator `_next`: `resume none` starts it, `resume (some g)` continues it where it waits (`g`) with the value sent. It yields a population and waits, or returns (`none`). -/
abbrev LoopBody (σ P G : Type*) := Option G → Option P → σ → Option (P × G) × σ

/-- The attributes of the algorithm, `generator` and `state` (algorithm.py:374-375). -/
structure LoopState (σ P G : Type*) where
  st : σ
  generator : Option G
  state : Option P

/-- algorithm.py:385-395 `_advance`. -/
def loopAdvance (body : LoopBody σ P G) (infills : Option P) (s : LoopState σ P G) : Option Bool × LoopState σ P G :=
  match body s.generator infills s.st with
  | (some (p, g), st) => (some false, ⟨st, some g, some p⟩)
  | (none, st) => (some true, ⟨st, none, none⟩)

/-- algorithm.py:380-383 `_infill`. -/
def loopInfill (body : LoopBody σ P G) (s : LoopState σ P G) : Option P × LoopState σ P G :=
  match s.state with
  | none => ((loopAdvance body none s).2.state, (loopAdvance body none s).2)
  | some p => (some p, s)

/-- A loop-wise algorithm as an algorithm: the other hooks act on the inner state. -/
def loopHooks (body : LoopBody σ P G) (initInfill : σ → Option P × σ) (eval : P → σ → σ × ℕ) (initAdvance : Option P → σ → σ) (setOptimum : σ → σ) :
    AlgHooks (LoopState σ P G) P where
  initInfill s := ((initInfill s.st).1, { s with st := (initInfill s.st).2 })
  infill := loopInfill body
  eval p s := ({ s with st := (eval p s.st).1 }, (eval p s.st).2)
  initAdvance i s := { s with st := initAdvance i s.st }
  advance := loopAdvance body
  setOptimum s := { s with st := setOptimum s.st }

/-! ### Exponential search -/

variable {K : Type*} [Field K] [LinearOrder K]

/-- The attributes of `ExponentialSearch` (exp.py:13-17): the points evaluated so far (in place of the population), `point`, `alpha`. -/
structure ExpState (K : Type*) where
  evaluated : List K
  point : Option K
  alpha : K

/-- exp.py:24-30 `_initialize_infill`; the method does not exist that would turn the initial solution into `point`. -/
def expInitInfill (xl : K) (s : ExpState K) : Option K × ExpState K := (some (s.point.getD xl), s)

/-- `ExponentialSearch` overwrites neither `_infill` nor `_advance` (algorithm.py:349-353 `pass`): both return `None`. Evaluation appends to `evaluated` (a ghost). -/
def expHooks (xl : K) : AlgHooks (ExpState K) K where
  initInfill := expInitInfill xl
  infill s := (none, s)
  eval p s := ({ s with evaluated := s.evaluated ++ [p] }, 1)
  initAdvance _ s := s
  advance _ s := (none, s)
  setOptimum s := s

/-- exp.py:32-47 `step`, with `is_better(point, infill, eps=0)` (replacement.py:11-22) of a problem without constraints. `none` is the exception for `point = None`; the second component
is `force_termination`. -/
def expStep (f : K → K) (xu : K) (s : ExpState K) : Option (ExpState K × Bool) :=
  let a := if s.alpha > xu then xu else s.alpha
  match s.point with
  | none => none
  | some p =>
    if f p < f a ∨ a = xu then some ({ s with evaluated := s.evaluated ++ [a] }, true)
    else some (⟨s.evaluated ++ [a], some a, s.alpha * 2⟩, false)

/-- `step` until it forces the termination; `none` = an exception or more than `fuel` steps. -/
def expSteps (f : K → K) (xu : K) : ℕ → ExpState K → Option (ExpState K)
  | 0, _ => none
  | fuel + 1, s => match expStep f xu s with
    | none => none
    | some (s', true) => some s'
    | some (s', false) => expSteps f xu fuel s'

/-! ### Line search problem -/

/-- line.py:54-62 `LineSearchProblem._evaluate`: the solution at which the original problem is evaluated for `alpha`. `xl`, `xu` are the attributes of the line search problem (line.py:48:
arrays of length one, by default 0 and infinity = `none`), not the bounds of the original problem. -/
def lineX {n : ℕ} (point direction : Fin n → K) (strict : Bool) (xl : K) (xu : Option K) (alpha : K) : Fin n → K :=
  let x := fun i => point i + alpha * direction i
  if strict then setToBounds (fun _ : Fin 1 => x) (some fun _ => xl) (xu.map fun u _ => u) 0 else x

end Model
