import Verif.Model.Algorithm
import Verif.Model.Loopwise
import Verif.Model.Evaluator
import Verif.Model.ConstraintProblems

/-!
# Model of `pymoo/constraints/adaptive.py`, `pymoo/constraints/eps.py` and `pymoo/core/meta.py` (the wrapped algorithm)

`AdaptiveConstraintHandling(algorithm)` becomes an object of a new class whose bases are the wrapper's class followed by the
classes of the wrapped algorithm (meta.py:17-23): a method the wrapper does not define is the one of the wrapped algorithm,
one it defines replaces it, and `super()` in it calls the one of the wrapped algorithm. The hooks of the wrapped algorithm
depend on the configuration `C` that its individuals share: it decides how constraint violations are judged.
Exceptions in the wrapped hooks are not modelled here (see C56).
-/

namespace Model

variable {σ P S K C M : Type*}

/-- The attributes of the wrapped algorithm `st`, the dictionaries `config` and `adapted_config` (adaptive.py:59-63), the
counter `wrapped.n_eval` of the evaluator that is wrapped by the new one (adaptive.py:16), and what a subclass remembers
(`max_cv`, eps.py:12). -/
structure AcState (σ C M : Type*) where
  st : σ
  config : C
  adapted : C
  wrappedNEval : ℕ
  mem : M

/-- What a subclass of `AdaptiveConstraintHandling` defines: `remember` at the beginning of `_initialize_advance`
(eps.py:21-33) and `_adapt_constraint_handling` (adaptive.py:68-69, eps.py:14-19), which sees `self.termination.perc`. -/
structure AcPolicy (σ P K C M : Type*) where
  remember : Option P → σ → M → M
  adapt : K → M → C → C

/-- adaptive.py:71-87: the hooks of the wrapper around the hooks `h c` under the configuration `c`, at progress `perc` of the
termination. `_initialize_infill` and `_set_optimum` are not overwritten. The evaluator of the new object is an
`AttachConfigEvaluator`; its own `n_eval` was copied once (adaptive.py:20-27) and is never changed by `eval`
(adaptive.py:38-47), so it grows by 0. `_advance` has no `return`. -/
def acHooks (h : C → AlgHooks σ P) (dflt : C) (pol : AcPolicy σ P K C M) (perc : K) : AlgHooks (AcState σ C M) P where
  initInfill s :=
    let r := (h s.config).initInfill s.st
    (r.1, { s with st := r.2 })
  infill s :=
    let s := { s with config := s.adapted }
    let r := (h s.config).infill s.st
    (r.1, { s with st := r.2, config := dflt })
  eval p s :=
    let r := (h s.config).eval p s.st
    ({ s with st := r.1, wrappedNEval := s.wrappedNEval + r.2 }, 0)
  initAdvance i s :=
    let s := { s with mem := pol.remember i s.st s.mem }
    let s := { s with config := s.adapted }
    { s with st := (h s.config).initAdvance i s.st, config := dflt }
  advance i s :=
    let s := { s with config := s.adapted }
    let r := (h s.config).advance i s.st
    let s := { s with st := r.2, config := dflt }
    (none, { s with adapted := pol.adapt perc s.mem s.adapted })
  setOptimum s := { s with st := (h s.config).setOptimum s.st }

variable [Field K] [LinearOrder K]

/-- What the termination reads of the wrapped algorithm, as it would of the algorithm itself. -/
def acRaw (raw : S → K → AlgView σ → Option (K × S)) : S → K → AlgView (AcState σ C M) → Option (K × S) :=
  fun s p v => raw s p ⟨v.nGen, v.nEval, v.st.st⟩

/-- `next()` of the wrapped algorithm (algorithm.py:157-169): the hooks read the attribute `termination`, which changes only
at the end. -/
def acNext (raw : S → K → AlgView σ → Option (K × S)) (h : C → AlgHooks σ P) (dflt : C) (pol : AcPolicy σ P K C M)
    (saveHistory hasArchive : Bool) (s : AlgState (AcState σ C M) P S K) : Option (AlgState (AcState σ C M) P S K) :=
  algNext (acRaw raw) (acHooks h dflt pol s.term.perc) saveHistory hasArchive s

/-- `k` calls of `next()`. -/
def acNextN (raw : S → K → AlgView σ → Option (K × S)) (h : C → AlgHooks σ P) (dflt : C) (pol : AcPolicy σ P K C M)
    (saveHistory hasArchive : Bool) :
    ℕ → AlgState (AcState σ C M) P S K → Option (AlgState (AcState σ C M) P S K)
  | 0, s => some s
  | k + 1, s =>
    match acNext raw h dflt pol saveHistory hasArchive s with
    | none => none
    | some s' => acNextN raw h dflt pol saveHistory hasArchive k s'

/-- `run()` of the wrapped algorithm (algorithm.py:141-144). `none`: an exception, or more than `fuel` iterations. -/
def acRun (raw : S → K → AlgView σ → Option (K × S)) (h : C → AlgHooks σ P) (dflt : C) (pol : AcPolicy σ P K C M)
    (saveHistory hasArchive : Bool) :
    ℕ → AlgState (AcState σ C M) P S K → Option (AlgState (AcState σ C M) P S K)
  | 0, s => if algHasNext s then none else some s
  | fuel + 1, s =>
    if algHasNext s then
      match acNext raw h dflt pol saveHistory hasArchive s with
      | none => none
      | some s' => acRun raw h dflt pol saveHistory hasArchive fuel s'
    else some s

/-- algorithm.py:109-139 `setup` of an algorithm whose `_setup` (called in 137) is `setup`: it may change the attributes, among
them the termination (rvea.py:80-83). -/
def plainSetup (setup : σ → Crit S K → σ × Crit S K) (st : σ) (t : Crit S K) : AlgState σ P S K :=
  algFresh (setup st t).1 (setup st t).2

/-- `setup` of the wrapped algorithm: `_setup` of the wrapper (adaptive.py:65-66) only replaces the evaluator, there is no
`super()._setup(...)`. -/
def acSetup (_setup : σ → Crit S K → σ × Crit S K) (dflt : C) (mem : M) (st : σ) (t : Crit S K) :
    AlgState (AcState σ C M) P S K :=
  algFresh ⟨st, dflt, dflt, 0, mem⟩ t

/-! ### The subclass with a tolerance -/

/-- The configuration of the individuals (individual.py:18-31): the tolerance and the rest. -/
structure EpsConfig (K R : Type*) where
  cvEps : K
  rest : R

/-- `AdaptiveEpsilonConstraintHandling(algorithm, perc_eps_until)` (eps.py:8-35); `meanCv` is the mean violation of the first
infills (or of the population, if there are none). -/
def epsPolicy {R : Type*} (percUntil : K) (meanCv : Option P → σ → K) : AcPolicy σ P K (EpsConfig K R) K where
  remember i st _ := meanCv i st
  adapt t maxCv c := { c with cvEps := epsAdapt percUntil t maxCv }

/-! ### The evaluator -/

/-- The argument of `eval`: an individual or a population (evaluator.py:55-59). -/
inductive EvTarget
  | one (i : ℕ)
  | many (ids : List ℕ)

/-- The individuals. -/
def EvTarget.ids : EvTarget → List ℕ
  | .one i => [i]
  | .many ids => ids

/-- An `AttachConfigEvaluator`: the wrapped evaluator with the individuals, the attribute `config` of every individual, and
its own counter. -/
structure AcEvState (X κ V C : Type*) where
  inner : EvState X κ V
  attached : ℕ → Option C
  nEval : ℕ

/-- How `AttachConfigEvaluator.eval` ends: as the wrapped evaluator does, or with the `AttributeError` for `apply` of an
individual. -/
inductive AcOutcome
  | inner (o : EvOutcome)
  | noApply
  deriving DecidableEq

/-- adaptive.py:14-27 `__init__`. -/
def acEvInit {X κ V C : Type*} (e : EvState X κ V) (attached : ℕ → Option C) : AcEvState X κ V C := ⟨e, attached, e.nEval⟩

/-- adaptive.py:29-47 `eval`: the wrapped evaluator returns an individual if it was given one (evaluator.py:84-85), which has
no method `apply`. -/
def acEvEval {X κ V C : Type*} [DecidableEq κ] (cfg : C) (problem : List X → List κ → Option (List (κ × List V)))
    (skip : Bool) (req : List κ) (count : Bool) (pop : EvTarget) (s : AcEvState X κ V C) : AcEvState X κ V C × AcOutcome :=
  let r := evEval problem skip req count pop.ids s.inner
  if r.2 = .ok then
    match pop with
    | .one _ => ({ s with inner := r.1 }, .noApply)
    | .many ids => ({ s with inner := r.1, attached := fun i => if i ∈ ids then some cfg else s.attached i }, .inner .ok)
  else ({ s with inner := r.1 }, .inner r.2)

end Model
