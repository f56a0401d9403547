import Mathlib.Data.List.Basic
import Verif.Model.Problem

/-!
# Model: parallel evaluation (pymoo/parallelization/{starmap,dask,joblib,ray}.py) and copies of the runners

The evaluation of one point is a function `f : X → Except Er B` (a result or an exception), executed by some worker at some time. What
happens is a list of events, chosen by an arbitrary scheduler. The libraries themselves (dask, ray, joblib, multiprocessing) enter through
their interface: a submitted job is executed by some worker, and asking for its result waits for it.
-/

namespace Model

variable {X B Er : Type*}

/-- What can happen while a runner waits: a worker finishes job `k`; the result of job `k` is lost with its worker (the library submits
the job again); the main thread receives the next result it is waiting for. -/
inductive PoolEvent
  | finish (k : ℕ)
  | lost (k : ℕ)
  | collect
  deriving DecidableEq, Repr

/-- The jobs submitted so far with what has become of them, the results received, and the exception raised, if any. `log` is the list of
points in the order in which their evaluations were finished. -/
structure PoolState (X B Er : Type*) where
  jobs : List (X × Option (Except Er B))
  out : List B
  failed : Option Er
  log : List X

/-- dask.py:15 `[self.client.submit(f, x) for x in X]`, ray.py:25 `[runnable.remote(f, x) for x in X]`: nothing is finished. -/
def pSubmit (xs : List X) : PoolState X B Er := ⟨xs.map fun x => (x, none), [], none, []⟩

/-- One event; `none`: it cannot happen. `collect` is `job.result()` of dask.py:16 (ray.py:26: `ray.get` asks for the futures in the
order of the list): the main thread waits for the jobs in the order of submission, and an exception of a job is raised there. -/
def pStep (f : X → Except Er B) (s : PoolState X B Er) : PoolEvent → Option (PoolState X B Er)
  | .finish k =>
    match s.jobs[k]? with
    | some (x, none) => some { s with jobs := s.jobs.set k (x, some (f x)), log := s.log ++ [x] }
    | _ => none
  | .lost k =>
    match s.jobs[k]? with
    | some (x, some _) => if s.out.length ≤ k then some { s with jobs := s.jobs.set k (x, none) } else none
    | _ => none
  | .collect =>
    if s.failed.isSome then none
    else
      match s.jobs[s.out.length]? with
      | some (_, some (.ok b)) => some { s with out := s.out ++ [b] }
      | some (_, some (.error e)) => some { s with failed := some e }
      | _ => none

/-- A schedule: the events in their order. -/
def pRun (f : X → Except Er B) (s : PoolState X B Er) : List PoolEvent → Option (PoolState X B Er)
  | [] => some s
  | e :: es => (pStep f s e).bind fun s' => pRun f s' es

/-- The runner has returned: all results are there. -/
def pReturned (s : PoolState X B Er) : Bool := s.failed.isNone && s.out.length == s.jobs.length

/-- `multiprocessing.Pool.starmap` works on chunks of `c` consecutive points (a chunk fails if one of its points does); starmap.py:15
collects the chunks in their order. -/
def chunksOf (c : ℕ) (xs : List X) : List (List X) :=
  if c = 0 then [] else (List.range ((xs.length + c - 1) / c)).map fun i => (xs.drop (i * c)).take c

/-- One chunk, evaluated by one worker. -/
def chunkEval (f : X → Except Er B) (c : List X) : Except Er (List B) := c.mapM f

/-- problem.py:14-18 `LoopedElementwiseEvaluation`: the loop ends at the first exception. -/
def loopedEval (f : X → Except Er B) (xs : List X) : Except Er (List B) := xs.mapM f

/-- joblib.py:21-23 with `return_as="generator_unordered"` among the keyword arguments handed to `joblib.Parallel`: results in the order
in which the evaluations were finished. -/
def unorderedEval (f : X → Except Er B) (s : PoolState X B Er) : Except Er (List B) := s.log.mapM f

/-! ## copies -/

/-- The kinds of runners. -/
inductive RunnerKind
  | looped
  | starmap
  | dask
  | joblib
  | ray
  deriving DecidableEq, Repr

/-- A runner object: `handle` = the attribute `starmap` / `client` is present. -/
structure RunnerObj where
  kind : RunnerKind
  handle : Bool
  deriving DecidableEq, Repr

/-- The constructors (starmap.py:11-12, dask.py:11-12, joblib.py:12-20, ray.py:11-20). -/
def mkRunner (k : RunnerKind) : RunnerObj := ⟨k, true⟩

/-- `copy.deepcopy(runner)` (also pickling): starmap.py:17-20 and dask.py:18-21 leave the attribute out; joblib.py:26-27 and ray.py:28-29
keep the module `joblib` / `ray` in the state, and modules cannot be copied: `TypeError`. -/
def copyRunner (r : RunnerObj) : Option RunnerObj :=
  match r.kind with
  | .looped => some r
  | .starmap => some ⟨.starmap, false⟩
  | .dask => some ⟨.dask, false⟩
  | .joblib => none
  | .ray => none

/-- `runner(f, X)`: without the attribute `AttributeError` (dask.py:15 looks it up once per point, starmap.py:15 always). -/
def callRunner (r : RunnerObj) (f : X → B) (xs : List X) : Option (List B) :=
  match r.kind with
  | .starmap => if r.handle then some (runner f xs) else none
  | .dask => if r.handle || xs.isEmpty then some (runner f xs) else none
  | _ => some (runner f xs)

/-- problem.py:374-385 `Problem.__getstate__` for the attribute `elementwise_runner`: `excluded` = it is named in
`exclude_from_serialization`, then the copy has `None` instead of a runner. -/
def copyProblemRunner (excluded : Bool) (r : Option RunnerObj) : Option (Option RunnerObj) :=
  if excluded then some none
  else match r with
    | none => some none
    | some r => (copyRunner r).map some

/-- problem.py:250 with the runner of a problem; calling `None` raises. -/
def callProblemRunner (r : Option RunnerObj) (f : X → B) (xs : List X) : Option (List B) := r.bind fun r => callRunner r f xs

/-- algorithm.py:322-329 with `save_history=True`: after each of `n` generations the algorithm, and with it the problem and its runner,
is copied; the entries of the history, as far as the runner is concerned. `none`: an exception ends the run. -/
def historyRunners (excluded : Bool) (r : Option RunnerObj) : ℕ → Option (List (Option RunnerObj))
  | 0 => some []
  | n + 1 => (historyRunners excluded r n).bind fun h => (copyProblemRunner excluded r).map fun c => h ++ [c]

end Model
