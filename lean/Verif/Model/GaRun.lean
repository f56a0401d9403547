import Verif.Model.Initialization

/-!
# Model: a whole run of a genetic algorithm on objects (`pymoo/algorithms/base/genetic.py`, `core/{algorithm,infill,mating,crossover,mutation,repair,evaluator}.py`)

Individuals are objects in a heap (`Model/Evaluator`), populations are lists of references; variables, stored values and the record of what has been evaluated are attributes that are overwritten in place, as in the code. Design vectors themselves are values (the arrays are not aliased). The random draws are inside the functions of `MateRound` and `GaGen`. Attributes a survival writes (rank, crowding) are not modelled here.
-/

namespace Model

variable {X κ V : Type*} [DecidableEq κ]

/-- The operators of one round of mating, with their random numbers: `select` (`mating.py:32-39`, the parents of every mating), `cross` (the rows of `crossover.py:29-65`; `none` is `NoCrossover`), `mutate` and `accept` (`mutation.py:32-36`), `repair` (`repair.py:14`). -/
structure MateRound (X κ V : Type*) where
  select : (ℕ → EvInd X κ V) → List ℕ → ℕ → List (List ℕ)
  cross : Option (List (List X) → List X)
  mutate : List X → List X
  accept : List Bool
  repair : List X → List X

/-- `population.py:47-54` for the key `"X"`: `self[i].set("X", values[i])`. -/
def setXs (heap : ℕ → EvInd X κ V) (l : List (ℕ × X)) : ℕ → EvInd X κ V :=
  l.foldl (fun (h : ℕ → EvInd X κ V) e => Function.update h e.1 { h e.1 with x := e.2 }) heap

/-- `crossover.py:68` (new individuals for the rows) or `nox.py:13-27` with as many offspring as parents (the parents themselves). Result: the heap, the next free reference, the offspring. -/
def gaCross (r : MateRound X κ V) (heap : ℕ → EvInd X κ V) (next : ℕ) (matings : List (List ℕ)) : (ℕ → EvInd X κ V) × ℕ × List ℕ :=
  match r.cross with
  | some c =>
    let n := newInds heap next (c (matings.map fun M => M.map fun i => (heap i).x))
    (n.1, next + n.2.length, n.2)
  | none => (heap, next, matings.flatten)

/-- `mutation.py:18-40` with `inplace=True` (the default). `none`: arrays of the wrong length raise. -/
def gaMutate (r : MateRound X κ V) (heap : ℕ → EvInd X κ V) (ids : List ℕ) : Option (ℕ → EvInd X κ V) :=
  let Xp := r.mutate (ids.map fun i => (heap i).x)
  if Xp.length = ids.length ∧ r.accept.length = ids.length then some (setXs heap ((((ids.zip Xp).zip r.accept).filter (·.2)).map (·.1))) else none

/-- `infill.py:45-48`: mating (`mating.py:24-47`), then repair. -/
def gaMate (r : MateRound X κ V) (heap : ℕ → EvInd X κ V) (next : ℕ) (pop : List ℕ) (nRemaining : ℕ) : Option ((ℕ → EvInd X κ V) × ℕ × List ℕ) :=
  let c := gaCross r heap next (r.select heap pop nRemaining)
  (gaMutate r c.1 c.2.2).bind fun h => (repairInds r.repair h c.2.2).map fun h' => (h', c.2.1, c.2.2)

/-- `infill.py:39-67`: the `while` loop from round `k` on; the first argument is the number of rounds left (`n_max_iterations - k`). -/
def gaInfill (masks : (ℕ → EvInd X κ V) → DupMasks ℕ) (rounds : ℕ → MateRound X κ V) (pop : List ℕ) (nOff : ℕ) :
    ℕ → (ℕ → EvInd X κ V) → ℕ → List ℕ → ℕ → Option ((ℕ → EvInd X κ V) × ℕ × List ℕ)
  | 0, heap, next, off, _ => some (heap, next, off)
  | fuel + 1, heap, next, off, k =>
    if off.length < nOff then
      (gaMate (rounds k) heap next pop (nOff - off.length)).bind fun m =>
        let new := dedup (masks m.1) true m.2.2 [pop, off]
        let new := if off.length + new.length > nOff then new.take (nOff - off.length) else new
        gaInfill masks rounds pop nOff fuel m.1 m.2.1 (off ++ new) (k + 1)
    else some (heap, next, off)

/-- The algorithm: objects and evaluator, the next free reference, the population, and `termination.force_termination`. -/
structure GaState (X κ V : Type*) where
  ev : EvState X κ V
  next : ℕ
  pop : List ℕ
  stopped : Bool

/-- What is fixed during a run: the problem, `evaluate_values_of`, the number of offspring and of mating rounds, the duplicate elimination. -/
structure GaCfg (X κ V : Type*) where
  problem : List X → List κ → Option (List (κ × List V))
  req : List κ
  nOff : ℕ
  nMax : ℕ
  masks : (ℕ → EvInd X κ V) → DupMasks ℕ

/-- A generation: the rounds of mating and the survival. -/
structure GaGen (X κ V : Type*) where
  rounds : ℕ → MateRound X κ V
  survive : (ℕ → EvInd X κ V) → List ℕ → List ℕ

/-- `algorithm.py:164`: `evaluator.eval(problem, infills)`, which skips what has been evaluated; `none`: an exception. -/
def gaEval (c : GaCfg X κ V) (ids : List ℕ) (s : EvState X κ V) : Option (EvState X κ V) :=
  match evEval c.problem true c.req true ids s with
  | (s', .ok) => some s'
  | _ => none

/-- `algorithm.py:157-169` `next` of an initialised algorithm, with `genetic.py:93-114` `_infill` and `116-134` `_advance`. -/
def gaGeneration (c : GaCfg X κ V) (s : GaState X κ V) (g : GaGen X κ V) : Option (GaState X κ V) :=
  (gaInfill c.masks g.rounds s.pop c.nOff (max 1 c.nMax) s.ev.heap s.next [] 0).bind fun m =>
    if m.2.2.length = 0 then some ⟨{ s.ev with heap := m.1 }, m.2.1, g.survive m.1 s.pop, true⟩
    else (gaEval c m.2.2 { s.ev with heap := m.1 }).map fun ev => ⟨ev, m.2.1, g.survive ev.heap (s.pop ++ m.2.2), s.stopped⟩

/-- How many objects the sampling creates (`initialization.py:31-37`). -/
def initNew (popSize : ℕ) : InitSampling X → ℕ
  | .pop _ => 0
  | .array rows => rows.length
  | .op draw => (draw popSize).length

/-- `algorithm.py:157-169` the first `next`, with `genetic.py:78-91`; `survive = none` is `advance_after_initial_infill=False`. The user's objects are below `next`. -/
def gaStart (c : GaCfg X κ V) (repair : List X → List X) (popSize : ℕ) (sampling : InitSampling X) (survive : Option ((ℕ → EvInd X κ V) → List ℕ → List ℕ))
    (heap : ℕ → EvInd X κ V) (next : ℕ) : Option (GaState X κ V) :=
  (initDo repair c.masks heap next popSize sampling).bind fun r =>
    (gaEval c r.2 ⟨r.1, 0, []⟩).map fun ev =>
      ⟨ev, next + initNew popSize sampling,
        survive.elim r.2 fun f => f ev.heap r.2, false⟩

/-- The further generations (`algorithm.py:141-144`): the loop ends when the termination was forced. -/
def gaGens (c : GaCfg X κ V) : List (GaGen X κ V) → GaState X κ V → Option (GaState X κ V)
  | [], s => some s
  | g :: gens, s => if s.stopped then some s else (gaGeneration c s g).bind (gaGens c gens)

end Model
