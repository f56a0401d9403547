import Mathlib.Data.List.Basic
import Mathlib.Logic.Function.Basic

/-!
# Model of `pymoo/core/evaluator.py`

Individuals are objects: a population is a list of object identifiers into a heap (the same individual may occur
in several populations, or twice in one). Attribute names are values of an arbitrary type `κ`.
-/

namespace Model

/-- The part of `pymoo/core/individual.py:35-96` the evaluator touches: design variables, attribute values, and
the set `evaluated` (`individual.py:75,135-136`; only membership matters, so a list is used). -/
structure EvInd (X κ V : Type*) where
  x : X
  vals : κ → Option V
  evaluated : List κ

/-- Evaluator and heap. `log` is a ghost field, not in the code: for every call of `problem.evaluate` that
returned, whether the call counts, and the identifiers of the evaluated rows. -/
structure EvState (X κ V : Type*) where
  heap : ℕ → EvInd X κ V
  nEval : ℕ
  log : List (Bool × List ℕ)

/-- How a call of `Evaluator.eval` ends. -/
inductive EvOutcome | ok | problemRaised | setRaised
  deriving DecidableEq

variable {X κ V : Type*} [DecidableEq κ]

/-- `core/evaluator.py:61-69`: the individuals to be evaluated. -/
def evSelect (heap : ℕ → EvInd X κ V) (skip : Bool) (req : List κ) (pop : List ℕ) : List ℕ :=
  if skip then pop.filter fun i => !(req.all fun e => decide (e ∈ (heap i).evaluated)) else pop

/-- `core/population.py:47-54`: `self[i].set(key, values[i])` for all positions, for iterable `values` of the right
length. -/
def setColumn (heap : ℕ → EvInd X κ V) (key : κ) : List ℕ → List V → (ℕ → EvInd X κ V)
  | i :: ids, v :: vs =>
    setColumn (Function.update heap i { heap i with vals := Function.update (heap i).vals key (some v) }) key ids vs
  | _, _ => heap

/-- `core/evaluator.py:98-100` with `core/population.py:41-45`: the loop over `out.items()`; a column of the
wrong length raises. The flag is `true` when no exception was raised. -/
def setColumns (ids : List ℕ) : (ℕ → EvInd X κ V) → List (κ × List V) → (ℕ → EvInd X κ V) × Bool
  | heap, [] => (heap, true)
  | heap, (key, vs) :: rest =>
    if vs.length ≠ ids.length then (heap, false) else setColumns ids (setColumn heap key ids vs) rest

/-- `core/evaluator.py:103`: `pop.apply(lambda ind: ind.evaluated.update(out.keys()))`. -/
def markEvaluated (keys : List κ) : List ℕ → (ℕ → EvInd X κ V) → (ℕ → EvInd X κ V)
  | [], heap => heap
  | i :: ids, heap =>
    markEvaluated keys ids (Function.update heap i { heap i with evaluated := (heap i).evaluated ++ keys })

/-- `core/evaluator.py:38-87` `Evaluator.eval` (with `_eval`, 91-104). `problem rows req` is the dictionary of
`problem.evaluate` as key/column pairs, `none` if it raises. Not modelled: the callback and the keyword
arguments. -/
def evEval (problem : List X → List κ → Option (List (κ × List V))) (skip : Bool) (req : List κ) (count : Bool)
    (pop : List ℕ) (s : EvState X κ V) : EvState X κ V × EvOutcome :=
  let I := evSelect s.heap skip req pop
  if I.length > 0 then
    match problem (I.map fun i => (s.heap i).x) req with
    | none => (s, .problemRaised)
    | some out =>
      let r := setColumns I s.heap out
      if r.2 then
        ({ heap := markEvaluated (out.map Prod.fst) I r.1,
           nEval := if count then s.nEval + I.length else s.nEval,
           log := s.log ++ [(count, I)] }, .ok)
      else ({ s with heap := r.1, log := s.log ++ [(count, I)] }, .setRaised)
  else (s, .ok)

/-- One call with its arguments. -/
structure EvCall (X κ V : Type*) where
  problem : List X → List κ → Option (List (κ × List V))
  skip : Bool
  req : List κ
  count : Bool
  pop : List ℕ

/-- A sequence of calls on the same evaluator; a caller may go on after an exception. -/
def evRun : List (EvCall X κ V) → EvState X κ V → EvState X κ V
  | [], s => s
  | c :: cs, s => evRun cs (evEval c.problem c.skip c.req c.count c.pop s).1

end Model
