import Verif.Spec.AskTell
import Verif.Model.Optimum
import Verif.Model.Normalization
import Mathlib.Analysis.SpecialFunctions.Pow.Real

/-!
# Model of `pymoo/algorithms/soo/nonconvex/cmaes.py` (`CMAES`, `BIPOPCMAES`) and of `pymoo/vendor/vendor_cmaes.py`

The strategy itself (sampling, covariance matrix, stopping rules) is the external package `cma`: an arbitrary `Strategy`. Modelled are the generator that
connects it to pymoo, the restarts, and pymoo's side of the protocol. Not modelled: noise handling, the evaluation of the initial point (`eval_initial_x`),
selective mirrors, loggers.
-/

namespace Model
open Spec

variable {S X V : Type*}

/-- The outcome of a call: a value, an exception (`StopIteration` included), or no answer within the given number of steps. -/
inductive CmaRes (A : Type*)
  | ok (a : A)
  | raised
  | running

/-- `cma` as it is used by `ask_and_eval`: also single points, and the option `is_feasible`. -/
structure CmaStrategy (S X V : Type*) extends Strategy S X V where
  askOne : S → X × S
  accepts : X → V → Bool

/-- vendor_cmaes.py:360-411: the `while` loop for one point; `f = none` is `None`. The assignment of `f` stands behind `if 11 < 3` (line 381) and is never reached. `first` is
`rejected = -1`. -/
def cmaReject (o : CmaStrategy S X V) : ℕ → Bool → X → Option V → S → CmaRes ((X × V) × S)
  | 0, _, _, _, _ => .running
  | fuel + 1, first, x, f, s =>
    let again := if first then cmaReject o fuel false x f s else cmaReject o fuel false (o.askOne s).1 f (o.askOne s).2
    match f with
    | none => again
    | some v => if o.accepts x v then .ok ((x, v), s) else again

/-- vendor_cmaes.py:358-413: the loop over the points. -/
def cmaCollect (o : CmaStrategy S X V) (fuel : ℕ) : List X → List (Option V) → S → CmaRes (List (X × V) × S)
  | [], _, s => .ok ([], s)
  | _ :: _, [], _ => .raised
  | x :: xs, f :: fs, s =>
    match cmaReject o fuel true x f s with
    | .ok (e, s') => match cmaCollect o fuel xs fs s' with
      | .ok (l, s'') => .ok (e :: l, s'')
      | .raised => .raised
      | .running => .running
    | .raised => .raised
    | .running => .running

/-- What the generator has yielded and where it waits: a generation (vendor_cmaes.py:344) or the mean (line 255). -/
inductive CmaYield (S X : Type*)
  | batch (X : List X) (s : S)
  | mean (x : X) (s : S)

/-- The points that are yielded. -/
def CmaYield.points : CmaYield S X → List X
  | .batch l _ => l
  | .mean x _ => [x]

/-- vendor_cmaes.py:199-226, 251-255: from the head of the iteration loop to the next `yield`. Without `parallel_objective` nothing is yielded in `ask_and_eval` (line 357). -/
def cmaTop (o : CmaStrategy S X V) (parallel : Bool) : ℕ → S → CmaRes (CmaYield S X)
  | 0, _ => .running
  | fuel + 1, s =>
    if o.stop s then .ok (.mean (o.mean s) s)
    else if parallel then .ok (.batch (o.ask s).1 (o.ask s).2)
    else match cmaCollect o fuel (o.ask s).1 ((o.ask s).1.map fun _ => none) (o.ask s).2 with
      | .ok (l, s') => match o.tell s' (l.map Prod.fst) (l.map Prod.snd) with
        | some s'' => cmaTop o parallel fuel s''
        | none => .raised
      | .raised => .raised
      | .running => .running

/-- `es.send(fit)`: the generator continues until the next `yield`. -/
def cmaSend (o : CmaStrategy S X V) (parallel : Bool) (fuel : ℕ) (y : CmaYield S X) (fit : List V) : CmaRes (CmaYield S X) :=
  match y with
  | .batch X s => match cmaCollect o fuel X (fit.map some) s with
    | .ok (l, s') => match o.tell s' (l.map Prod.fst) (l.map Prod.snd) with
      | some s'' => cmaTop o parallel fuel s''
      | none => .raised
    | .raised => .raised
    | .running => .running
  | .mean x s => match fit with
    | [] => .raised
    | v :: _ => match o.finish s x v with
      | some s' => cmaTop o parallel fuel s'
      | none => .raised

/-- An individual. -/
structure CmaInd (X α β : Type*) where
  x : X
  f : α
  cv : β
  feas : Bool

/-- The attributes that `filter_optimum` reads. -/
def cmaAttrs (X α β : Type*) : Attrs (CmaInd X α β) α β 1 := ⟨fun i _ => i.f, fun i => i.feas, fun i => i.cv⟩

/-- cmaes.py:216-218 `ind.F[:] = np.inf`; `infty` is that value. -/
def cmaPenal {α β : Type*} (infty : α) (i : CmaInd X α β) : CmaInd X α β := if i.feas then i else { i with f := infty }

/-- The attributes of the algorithm: does `es` exist, what has been yielded, the optimum, `force_termination`. -/
structure CmaAlg (S X α β : Type*) where
  es : Bool
  pending : CmaYield S X
  opt : Option (List (CmaInd X α β))
  done : Bool

variable {α β : Type*} [Sub α] [LT α] [DecidableLT α] [LT β] [DecidableLT β]

/-- cmaes.py:232-234 `_set_optimum`. -/
def cmaOpt (pr : ∀ n, (Fin n → Fin 1 → α) → Fin n → ℕ) (opt : Option (List (CmaInd X α β))) (pop : List (CmaInd X α β)) : Option (Option (List (CmaInd X α β))) :=
  filterOptimum pr (cmaAttrs X α β) true (some (match opt with | none => pop | some o => o ++ pop))

/-- cmaes.py:198-234: one generation (`_infill`, evaluation with `eval`, `_advance`, `_set_optimum`); the second component are the individuals evaluated. `bwd` is
`norm.backward`. -/
def cmaStep (pr : ∀ n, (Fin n → Fin 1 → α) → Fin n → ℕ) (o : CmaStrategy S X α) (parallel : Bool) (fuel : ℕ) (bwd : X → X) (eval : X → CmaInd X α β) (infty : α)
    (a : CmaAlg S X α β) : CmaRes (CmaAlg S X α β × List (CmaInd X α β)) :=
  let infills := (a.pending.points.map fun x => eval (bwd x)).map (cmaPenal infty)
  match cmaOpt pr a.opt infills with
  | none => .raised
  | some opt =>
    match (if a.es then cmaSend o parallel fuel a.pending (infills.map (·.f)) else .raised) with
    | .ok y => .ok ({ a with pending := y, opt := opt }, infills)
    | .raised => .ok ({ a with opt := opt, done := true }, infills)
    | .running => .running

/-- The main loop (algorithm.py:141-144) for at most `n` generations. -/
def cmaRun (pr : ∀ n, (Fin n → Fin 1 → α) → Fin n → ℕ) (o : CmaStrategy S X α) (parallel : Bool) (fuel : ℕ) (bwd : X → X) (eval : X → CmaInd X α β) (infty : α) :
    ℕ → CmaAlg S X α β → CmaRes (CmaAlg S X α β × List (CmaInd X α β))
  | 0, a => .ok (a, [])
  | n + 1, a =>
    if a.done then .ok (a, [])
    else match cmaStep pr o parallel fuel bwd eval infty a with
      | .ok (a', l) => match cmaRun pr o parallel fuel bwd eval infty n a' with
        | .ok (a'', l') => .ok (a'', l ++ l')
        | .raised => .raised
        | .running => .running
      | .raised => .raised
      | .running => .running

/-- cmaes.py:174-196 `_initialize_advance`, and `_set_optimum`: `start` makes the strategy from the best initial solution `x0` (local.py:44-45), `infills` are the evaluated initial
solutions. -/
def cmaInit (pr : ∀ n, (Fin n → Fin 1 → α) → Fin n → ℕ) (o : CmaStrategy S X α) (parallel : Bool) (fuel : ℕ) (s : S) (infills : List (CmaInd X α β)) : CmaRes (CmaAlg S X α β) :=
  match cmaOpt pr none infills with
  | none => .raised
  | some opt => match cmaTop o parallel fuel s with
    | .ok y => .ok ⟨true, y, opt, false⟩
    | .raised => .raised
    | .running => .running

/-- cmaes.py:236-243 `__getstate__` and `__setstate__`: a copy of the algorithm (by `copy.deepcopy` or pickle) has no attribute `es`. -/
def cmaCopy (a : CmaAlg S X α β) : CmaAlg S X α β := { a with es := false }

/-! ### Restarts -/

/-- vendor_cmaes.py:59-71, the variables of the restart loop; the two lists only occur as sums. -/
structure CmaSched where
  irun : ℕ
  withSmall : ℕ
  smallSum : ℕ
  largeSum : ℕ

/-- One run of the strategy: `small` is `poptype == 'small'`, `first` is `irun == 0`. -/
structure CmaRunSpec where
  first : Bool
  small : Bool
  popsize : ℝ
  maxiter : ℝ

/-- vendor_cmaes.py:71-110: the options of the next run, and `runs_with_small` updated. `u` is the uniform random number of line 98. -/
noncomputable def cmaSetup (bipop : Bool) (inc : ℝ) (p0 : ℕ) (maxiter0 u : ℝ) (st : CmaSched) : CmaRunSpec × CmaSched :=
  if bipop then
    if st.irun = 0 then (⟨true, true, p0, maxiter0⟩, st)
    else if st.smallSum < st.largeSum then
      let k := st.irun - (st.withSmall + 1)
      let size : ℝ := ⌊(p0 : ℝ) * (inc ^ k) ^ (u ^ (2 : ℝ))⌋
      (⟨false, true, size, min maxiter0 (0.5 * st.largeSum / size)⟩, { st with withSmall := st.withSmall + 1 })
    else (⟨false, false, p0 * inc ^ (st.irun - st.withSmall), maxiter0⟩, st)
  else (⟨st.irun = 0, false, if 0 < st.irun then p0 * inc ^ (st.irun - st.withSmall) else p0, maxiter0⟩, st)

/-- vendor_cmaes.py:260-291: after a run with `evals` evaluations; `none` = `break` (`other`: target reached, budget used up or stopped by a callback). -/
def cmaAfter (bipop : Bool) (restarts : ℕ) (other : Bool) (evals : ℕ) (r : CmaRunSpec) (st : CmaSched) : Option CmaSched :=
  let st' : CmaSched :=
    { st with irun := st.irun + 1, smallSum := if bipop ∧ r.small then st.smallSum + evals else st.smallSum,
              largeSum := if bipop ∧ ¬ r.small then st.largeSum + evals else st.largeSum }
  if restarts < st'.irun - st'.withSmall ∨ other then none else some st'

/-- The runs of `my_fmin`, at most `fuel` of them; `false`: the restart loop has not ended by then. `evals`, `other` and `u` are given for each run. -/
noncomputable def cmaRuns (bipop : Bool) (inc : ℝ) (p0 : ℕ) (maxiter0 : ℝ) (restarts : ℕ) (evals : ℕ → ℕ) (other : ℕ → Bool) (u : ℕ → ℝ) :
    ℕ → CmaSched → List (CmaRunSpec × ℕ) × Bool
  | 0, _ => ([], false)
  | fuel + 1, st =>
    let r := cmaSetup bipop inc p0 maxiter0 (u st.irun) st
    match cmaAfter bipop restarts (other st.irun) (evals st.irun) r.1 r.2 with
    | none => ([(r.1, evals st.irun)], true)
    | some st' => let t := cmaRuns bipop inc p0 maxiter0 restarts evals other u fuel st'
      ((r.1, evals st.irun) :: t.1, t.2)

/-- cmaes.py:303-313 `bounds_if_normalize`: the bounds handed to `cma`, `none` = NaN (no bound). -/
def cmaBounds (xl xu : List (Option ℚ)) : List (Option ℚ × Option ℚ) := List.zipWith (fun l u => (l.map fun _ => 0, u.map fun _ => 1)) xl xu

end Model
