import Verif.Model.Termination

/-!
# Model of the optimisation loop in `pymoo/core/algorithm.py`

The algorithm's own hooks (`_initialize_infill`, `_infill`, `_initialize_advance`, `_advance`), the evaluator and the
optimum filter act on an arbitrary state `σ`. What `Algorithm` itself keeps (`is_initialized`, `n_iter`, the termination
object, how often it calls the callback / stores history / finalises) is explicit.
-/

namespace Model

/-- The overwritten hooks (`algorithm.py:340-356`) and the evaluation of the infills (`algorithm.py:164`). `P` is a
population. `eval` returns the new state and how much `evaluator.n_eval` grew. -/
structure AlgHooks (σ P : Type*) where
  initInfill : σ → Option P × σ
  infill : σ → Option P × σ
  eval : P → σ → σ × ℕ
  initAdvance : Option P → σ → σ
  advance : Option P → σ → Option Bool × σ
  setOptimum : σ → σ

/-- Fields of `Algorithm` (`algorithm.py:60-108`). `callbacks` and `history` are the values of `n_iter` at the calls
of the callback and at the stored snapshots (`algorithm.py:322-332`), `finalized` counts the calls of `finalize`,
`archived` the infills handed to the archive. -/
structure AlgState (σ P S K : Type*) where
  st : σ
  initialized : Bool
  nIter : ℕ
  nEval : ℕ
  term : Crit S K
  callbacks : List ℕ
  history : List ℕ
  finalized : ℕ
  archived : List P

variable {σ P S K : Type*} [Field K] [LinearOrder K]

/-- What a termination criterion sees of the algorithm: `n_gen`, `evaluator.n_eval` and the inner state. -/
structure AlgView (σ : Type*) where
  nGen : ℕ
  nEval : ℕ
  st : σ

/-- `algorithm.py:146-148` `has_next`. -/
def algHasNext (s : AlgState σ P S K) : Bool := !s.term.hasTerminated

/-- `algorithm.py:181-202` `infill` (`ask`), with `_initialize` (171-179). -/
def algInfill (h : AlgHooks σ P) (s : AlgState σ P S K) : Option P × AlgState σ P S K :=
  if s.initialized = false then
    let r := h.initInfill s.st
    (r.1, { s with st := r.2, nIter := 1 })
  else
    let r := h.infill s.st
    (r.1, { s with st := r.2 })

/-- `algorithm.py:311-334` `_post_advance`; `none` if the termination raises. -/
def algPostAdvance (raw : S → K → AlgView σ → Option (K × S)) (h : AlgHooks σ P) (saveHistory : Bool)
    (s : AlgState σ P S K) : Option (AlgState σ P S K) :=
  let st := h.setOptimum s.st
  match Crit.update raw ⟨s.nIter, s.nEval, st⟩ s.term with
  | none => none
  | some t => some { s with
      st := st, term := t
      history := if saveHistory then s.history ++ [s.nIter] else s.history
      callbacks := s.callbacks ++ [s.nIter]
      nIter := s.nIter + 1 }

/-- `algorithm.py:234-245`: finalisation and archive. -/
def algFinish (hasArchive : Bool) (infills : Option P) (s : AlgState σ P S K) : AlgState σ P S K :=
  let s := if s.term.hasTerminated then { s with finalized := s.finalized + 1 } else s
  match hasArchive, infills with
  | true, some p => { s with archived := s.archived ++ [p] }
  | _, _ => s

/-- `algorithm.py:204-247` `advance` (`tell`). -/
def algAdvance (raw : S → K → AlgView σ → Option (K × S)) (h : AlgHooks σ P) (saveHistory hasArchive : Bool)
    (infills : Option P) (s : AlgState σ P S K) : Option (AlgState σ P S K) :=
  if s.initialized = false then
    let s := { s with nIter := 1, st := h.initAdvance infills s.st, initialized := true }
    (algPostAdvance raw h saveHistory s).map (algFinish hasArchive infills)
  else
    let r := h.advance infills s.st
    let s := { s with st := r.2 }
    if r.1 = some false then some (algFinish hasArchive infills s)
    else (algPostAdvance raw h saveHistory s).map (algFinish hasArchive infills)

/-- `algorithm.py:157-169` `next`. -/
def algNext (raw : S → K → AlgView σ → Option (K × S)) (h : AlgHooks σ P) (saveHistory hasArchive : Bool)
    (s : AlgState σ P S K) : Option (AlgState σ P S K) :=
  let r := algInfill h s
  match r.1 with
  | some p =>
    let e := h.eval p r.2.st
    algAdvance raw h saveHistory hasArchive (some p) { r.2 with st := e.1, nEval := r.2.nEval + e.2 }
  | none => algAdvance raw h saveHistory hasArchive none r.2

/-- `algorithm.py:141-144` `run`, the loop. `none`: an exception, or more than `fuel` iterations. -/
def algRun (raw : S → K → AlgView σ → Option (K × S)) (h : AlgHooks σ P) (saveHistory hasArchive : Bool) :
    ℕ → AlgState σ P S K → Option (AlgState σ P S K)
  | 0, s => if algHasNext s then none else some s
  | fuel + 1, s =>
    if algHasNext s then
      match algNext raw h saveHistory hasArchive s with
      | none => none
      | some s' => algRun raw h saveHistory hasArchive fuel s'
    else some s

/-- `k` calls of `next`. -/
def algNextN (raw : S → K → AlgView σ → Option (K × S)) (h : AlgHooks σ P) (saveHistory hasArchive : Bool) :
    ℕ → AlgState σ P S K → Option (AlgState σ P S K)
  | 0, s => some s
  | k + 1, s =>
    match algNext raw h saveHistory hasArchive s with
    | none => none
    | some s' => algNextN raw h saveHistory hasArchive k s'

/-- A freshly set up algorithm (`algorithm.py:60-139`): nothing evaluated, `perc = 0`. -/
def algFresh (st : σ) (t : Crit S K) : AlgState σ P S K :=
  { st := st, initialized := false, nIter := 0, nEval := 0, term := t, callbacks := [], history := [],
    finalized := 0, archived := [] }

end Model
