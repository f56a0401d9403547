import Mathlib.Algebra.Order.Field.Rat
import Mathlib.Order.WithBot

/-!
# Model of `pymoo/core/recorder.py`, `pymoo/core/callback.py` and `pymoo/problems/dyn.py`

What is stored by a `Recorder`, which methods a `Callback` calls, and the clock of a `DynamicTestProblem`.
-/

namespace Model

/-! ### Recorder -/

/-- `recorder.py:13-17`: the fields `data` and `rec_n_evals`. -/
structure RecState (E : Type*) where
  data : List E
  nextAt : ℕ
  deriving DecidableEq, Repr

/-- `recorder.py:15-17`. -/
def recInit {E : Type*} : RecState E := ⟨[], 0⟩

/-- `recorder.py:19-29` `notify`: `nth` is `nth_evals`, `n` is `algorithm.evaluator.n_eval`, `e` is `self.save(algorithm)`. With
`nth_evals = 0` the integer division raises. -/
def recNotify {E : Type*} (nth : Option ℕ) (s : RecState E) (n : ℕ) (e : E) : Option (RecState E) :=
  match nth with
  | none => some ⟨s.data ++ [e], s.nextAt⟩
  | some k =>
    if s.nextAt ≤ n then
      if k = 0 then none else some ⟨s.data ++ [e], (1 + n / k) * k⟩
    else some s

/-- The notifications of a run: number of evaluations and entry to be saved, in the order of the iterations. -/
def recRun {E : Type*} (nth : Option ℕ) : RecState E → List (ℕ × E) → Option (RecState E)
  | s, [] => some s
  | s, (n, e) :: h => (recNotify nth s n e).bind fun s' => recRun nth s' h

/-- One individual of `algorithm.opt` as seen by the recorder: `feas`, `cv`, `f`. -/
structure OptRow (K : Type*) where
  feas : Bool
  cv : K
  f : K

/-- `np.min` of a list; `none` (the code raises) if it is empty. -/
def npMin {K : Type*} [LinearOrder K] : List K → Option K
  | [] => none
  | a :: l => some (l.foldl min a)

/-- `recorder.py:54-59`: `np.inf` if there is no value. -/
def orInf {K : Type*} : Option K → WithTop K
  | none => ⊤
  | some v => (v : WithTop K)

/-- `recorder.py:46-68` `DefaultSingleObjectiveRecorder.save`: `(cv, f, fgap)`, where `⊤` is `np.inf`; `pf` is the Pareto front of
the problem if it is available, raveled. An empty `opt` or an empty front raises. -/
def singleSave {K : Type*} [Field K] [LinearOrder K] (opt : List (OptRow K)) (pf : Option (List K)) :
    Option (K × WithTop K × WithTop K) :=
  (npMin (opt.map OptRow.cv)).bind fun cv =>
    let f : WithTop K := orInf (npMin ((opt.filter OptRow.feas).map OptRow.f))
    match pf with
    | none => some (cv, f, ⊤)
    | some p => (npMin p).map fun m => (cv, f, f.map fun v => v - m)

/-! ### Callbacks -/

/-- The calls a callback object receives. -/
inductive CbEvent | initialize | notify | update
  deriving DecidableEq, Repr

/-- A callback: the flag `is_initialized` and the calls its methods have received so far. -/
structure CbState where
  initialized : Bool
  log : List CbEvent
  deriving DecidableEq, Repr

/-- `callback.py:11-14`. -/
def cbInit : CbState := ⟨false, []⟩

/-- `callback.py:28-35` `__call__`: `initialize` at the first call, then `notify` and `update`. -/
def cbCall (s : CbState) : CbState :=
  let s := if s.initialized then s else ⟨true, s.log ++ [.initialize]⟩
  ⟨s.initialized, s.log ++ [.notify, .update]⟩

/-- `callback.py:43-44` `CallbackCollection.update`: the calls received by a member. -/
def memberUpdate (s : CbState) : CbState := ⟨s.initialized, s.log ++ [.update]⟩

/-- `callback.py:28-44`: a collection is called; `initialize` and `notify` are those of the base class and do nothing. -/
def collectionCall (members : List CbState) : List CbState := members.map memberUpdate

/-! ### Dynamic problems -/

/-- `dyn.py:26-31`: the clock `tau`, a time set explicitly, and the cached Pareto front (`Cache`, `util/cache.py`). -/
structure DynState (Fr : Type*) where
  tau : ℕ
  time : Option ℚ
  cache : Option Fr

/-- `dyn.py:45-55` `time`; `nt` and `taut` are positive integers. -/
def dynTime {Fr : Type*} (nt taut : ℕ) (s : DynState Fr) : ℚ := s.time.getD (1 / (nt : ℚ) * ((s.tau / taut : ℕ) : ℚ))

/-- What a user (or `TimeSimulation`, `dyn.py:70-83`, which calls `tic`) does with the problem. -/
inductive DynOp | tic (elapsed : ℕ) | setTime (t : ℚ) | front

/-- `dyn.py:33-43` `tic`, `dyn.py:57-64` the setter of `time`, and `problem.py:326-332` `pareto_front` with `Cache`
(`cache.py:14-29`); `pfAt t` is the front computed by the problem at time `t`. The second component is the value returned. -/
def dynStep {Fr : Type*} (nt taut : ℕ) (pfAt : ℚ → Fr) (s : DynState Fr) : DynOp → DynState Fr × Option Fr
  | .tic e => (⟨s.tau + e, s.time, none⟩, none)
  | .setTime t => (⟨s.tau, some t, s.cache⟩, none)
  | .front =>
    match s.cache with
    | some f => (s, some f)
    | none => (⟨s.tau, s.time, some (pfAt (dynTime nt taut s))⟩, some (pfAt (dynTime nt taut s)))

/-- A sequence of calls. -/
def dynRun {Fr : Type*} (nt taut : ℕ) (pfAt : ℚ → Fr) : DynState Fr → List DynOp → DynState Fr
  | s, [] => s
  | s, o :: ops => dynRun nt taut pfAt (dynStep nt taut pfAt s o).1 ops

end Model
