import Verif.Model.Algorithm

/-!
# Model: `minimize` (pymoo/optimize.py) with `Algorithm.setup`, `run` and `result` (pymoo/core/algorithm.py), on objects with references

Objects live in a store and are referred to by their position; new objects are appended. Deep copies create new objects.
-/

namespace Model

variable {C Pr σ P S K : Type*} [Field K] [LinearOrder K]

/-- A termination handed over by the user: an object, or a tuple (`("n_gen", 10)`), from which `termination_from_tuple` makes a new object. -/
inductive TermArg (S K : Type*)
  | ref (t : ℕ)
  | tuple (c : Crit S K)

/-- An algorithm object: its configuration, problem, seed, termination, and the state of the loop (whose field `term` is not used: the
termination is an object of its own). -/
structure AlgoObj (C Pr σ P S K : Type*) where
  cfg : C
  problem : Option Pr
  seed : Option ℕ
  term : Option (TermArg S K)
  core : Option (AlgState σ P S K)

/-- The store. -/
structure World (C Pr σ P S K : Type*) where
  algs : List (AlgoObj C Pr σ P S K)
  terms : List (Crit S K)

/-- The code of the algorithms: the state after `_setup` (a function of the seed), the hooks, the default termination
(algorithm.py:398-404 `default_termination`), the criteria. -/
structure AlgCode (C Pr σ P S K : Type*) where
  start : C → Pr → ℕ → σ
  hooks : C → Pr → AlgHooks σ P
  default : Pr → Crit S K
  raw : C → Pr → S → K → AlgView σ → Option (K × S)

/-- `copy.deepcopy` of a termination. -/
def copyTerm (W : World C Pr σ P S K) : TermArg S K → Option (World C Pr σ P S K × TermArg S K)
  | .tuple c => some (W, .tuple c)
  | .ref t => W.terms[t]?.map fun c => ({ W with terms := W.terms ++ [c] }, .ref W.terms.length)

/-- `copy.deepcopy(algorithm)` (optimize.py:34-35): the termination of the algorithm is copied with it. -/
def copyAlg (W : World C Pr σ P S K) (a : ℕ) : Option (World C Pr σ P S K × ℕ) :=
  W.algs[a]?.bind fun o =>
    match o.term with
    | none => some ({ W with algs := W.algs ++ [o] }, W.algs.length)
    | some t => (copyTerm W t).map fun r => ({ r.1 with algs := r.1.algs ++ [{ o with term := some r.2 }] }, r.1.algs.length)

/-- `self.termination = termination_from_tuple(...)` or the default (algorithm.py:126-130): the reference of the termination used. -/
def resolveTerm (code : AlgCode C Pr σ P S K) (problem : Pr) (W : World C Pr σ P S K) : Option (TermArg S K) → World C Pr σ P S K × ℕ
  | none => ({ W with terms := W.terms ++ [code.default problem] }, W.terms.length)
  | some (.tuple c) => ({ W with terms := W.terms ++ [c] }, W.terms.length)
  | some (.ref t) => (W, t)

/-- algorithm.py:110-139 `setup(problem, **kwargs)`: `termination` and `seed` are given if they are among the keyword arguments (`seed=None`
is the same as none given in the constructor). `entropy` is what the operating system provides if there is no seed. -/
def setupAlg (code : AlgCode C Pr σ P S K) (W : World C Pr σ P S K) (a : ℕ) (problem : Pr) (t : Option (TermArg S K)) (seed : Option (Option ℕ))
    (entropy : ℕ) : Option (World C Pr σ P S K) :=
  W.algs[a]?.map fun o =>
    let s := seed.getD o.seed
    let r := resolveTerm code problem W (if t.isSome then t else o.term)
    let o' : AlgoObj C Pr σ P S K := ⟨o.cfg, some problem, s, some (.ref r.2),
      some (algFresh (code.start o.cfg problem (s.getD entropy)) (code.default problem))⟩
    ⟨r.1.algs.set a o', r.1.terms⟩

/-- The state of the loop of an algorithm that is set up, with the present state of its termination object. -/
def loadAlg (W : World C Pr σ P S K) (a : ℕ) : Option (C × Pr × ℕ × AlgState σ P S K) :=
  W.algs[a]?.bind fun o =>
    match o.problem, o.term, o.core with
    | some p, some (.ref t), some s => W.terms[t]?.map fun c => (o.cfg, p, t, { s with term := c })
    | _, _, _ => none

/-- Writing back. -/
def storeAlg (W : World C Pr σ P S K) (a t : ℕ) (s : AlgState σ P S K) : World C Pr σ P S K :=
  ⟨(match W.algs[a]? with
    | none => W.algs
    | some o => W.algs.set a { o with core := some s }), W.terms.set t s.term⟩

/-- algorithm.py:157-169 `algorithm.next()`. -/
def nextAlg (code : AlgCode C Pr σ P S K) (W : World C Pr σ P S K) (a : ℕ) : Option (World C Pr σ P S K) :=
  (loadAlg W a).bind fun l => (algNext (code.raw l.1 l.2.1) (code.hooks l.1 l.2.1) false false l.2.2.2).map fun s => storeAlg W a l.2.2.1 s

/-- algorithm.py:141-144 `run()` with `result()` (249-255): if the algorithm has never been started, `start_time` is `None` and the
subtraction raises. The result is the final state. (No history, no archive.) -/
def runAlg (code : AlgCode C Pr σ P S K) (fuel : ℕ) (W : World C Pr σ P S K) (a : ℕ) : Option (World C Pr σ P S K × AlgState σ P S K) :=
  (loadAlg W a).bind fun l => (algRun (code.raw l.1 l.2.1) (code.hooks l.1 l.2.1) false false fuel l.2.2.2).bind fun s =>
    if s.initialized then some (storeAlg W a l.2.2.1 s, s) else none

/-- The arguments of `minimize`. -/
structure MinCall (Pr S K : Type*) where
  problem : Pr
  alg : ℕ
  term : Option (TermArg S K)
  copyAlg : Bool
  copyTerm : Bool
  seed : Option (Option ℕ)
  entropy : ℕ

/-- optimize.py:38-45: the termination put into the keyword arguments. -/
def termOf (W : World C Pr σ P S K) (c : MinCall Pr S K) : Option (World C Pr σ P S K × Option (TermArg S K)) :=
  match c.term with
  | none => some (W, none)
  | some t => if c.copyTerm then (copyTerm W t).map fun r => (r.1, some r.2) else some (W, some t)

/-- optimize.py:34-53 `minimize(problem, algorithm, termination, copy_algorithm, copy_termination, seed=...)`: the store afterwards and
the result. `none`: an exception, or more than `fuel` iterations. -/
def minimize (code : AlgCode C Pr σ P S K) (fuel : ℕ) (W : World C Pr σ P S K) (c : MinCall Pr S K) :
    Option (World C Pr σ P S K × AlgState σ P S K) :=
  (if c.copyAlg then copyAlg W c.alg else some (W, c.alg)).bind fun (wa : World C Pr σ P S K × ℕ) =>
    wa.1.algs[wa.2]?.bind fun o =>
      if o.problem.isNone then
        (termOf wa.1 c).bind fun (wt : World C Pr σ P S K × Option (TermArg S K)) =>
          (setupAlg code wt.1 wa.2 c.problem wt.2 c.seed c.entropy).bind fun w => runAlg code fuel w wa.2
      else runAlg code fuel wa.1 wa.2

end Model
