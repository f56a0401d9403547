import Verif.Model.Optimum
import Mathlib.Data.Rat.Defs
import Mathlib.Algebra.Order.Ring.Rat

/-!
# Model of the Optuna wrapper, `pymoo/algorithms/soo/nonconvex/optuna.py`

Optuna itself is an argument: `oracle t name s` is what trial number `t` suggests for the variable `name` when asked with the suggestion `s`. Floats are rationals.
-/

namespace Model

/-- The classes of `core/variable.py` 137-260 the wrapper distinguishes (optuna.py 47-59); `other` is any other class. -/
inductive OVar
  | real (lo hi : ℚ)
  | int (lo hi : ℤ)
  | choice (options : List String)
  | binary
  | other
  deriving DecidableEq

/-- A value of a variable. -/
inductive OVal
  | real (v : ℚ)
  | int (v : ℤ)
  | str (v : String)
  | bool (v : Bool)
  deriving DecidableEq

/-- The calls `suggest_float`, `suggest_int` and `suggest_categorical` of a trial. -/
inductive OSugg
  | float (lo hi : ℚ)
  | int (lo hi : ℤ)
  | cat (options : List OVal)
  deriving DecidableEq

/-- optuna.py 47-59: what is asked of the trial for a variable; `none`: the exception of line 59. -/
def optunaSugg : OVar → Option OSugg
  | .real lo hi => some (.float lo hi)
  | .int lo hi => some (.int lo hi)
  | .choice o => some (.cat (o.map OVal.str))
  | .binary => some (.cat [.bool false, .bool true])
  | .other => none

/-- optuna.py 42-62: the variables of the new individual, in the order of the dictionary; `none`: no explicit variables (line 43) or a class that is not supported. -/
def optunaVars (oracle : ℕ → String → OSugg → OVal) (vars : Option (List (String × OVar))) (t : ℕ) : Option (List (String × OVal)) :=
  match vars with
  | none => none
  | some vs => vs.mapM fun v => (optunaSugg v.2).map fun s => (v.1, oracle t v.1 s)

/-- The study and the algorithm: number of trials asked for so far, the current trial (line 37), what the study was told (trial, value), `pop` and `opt`. -/
structure OptunaSt (ι K : Type*) where
  nTrials : ℕ
  trial : Option ℕ
  told : List (ℕ × K)
  pop : List ι
  opt : Option (List ι)
  deriving DecidableEq

/-- optuna.py 33-37 and `Algorithm._initialize` (algorithm.py 171-179). -/
def optunaFresh (ι K : Type*) : OptunaSt ι K := ⟨0, none, [], [], none⟩

variable {ι K β : Type*}

/-- optuna.py 39-62 `_infill`: a new trial (line 40) and the individual's variables. -/
def optunaAsk (oracle : ℕ → String → OSugg → OVal) (vars : Option (List (String × OVar))) (s : OptunaSt ι K) : Option (List (String × OVal) × OptunaSt ι K) :=
  (optunaVars oracle vars s.nTrials).map fun x => (x, { s with trial := some s.nTrials, nTrials := s.nTrials + 1 })

/-- optuna.py 75-77: the population (one individual), behind the last optimum if there is one. -/
def optunaMerge (opt : Option (List ι)) (ind : ι) : List ι :=
  match opt with
  | none => [ind]
  | some o => o ++ [ind]

/-- optuna.py 64-66 `_advance` and 74-78 `_set_optimum`. `study.tell` raises for a trial that has been told before; without a trial it raises as well. `infills.f` is the first objective (individual.py 393-399). -/
def optunaTell [LinearOrder K] [Sub K] [LinearOrder β] (pr : ∀ n, (Fin n → Fin 1 → K) → Fin n → ℕ) (at' : Attrs ι K β 1) (s : OptunaSt ι K) (ind : ι) : Option (OptunaSt ι K) :=
  match s.trial with
  | none => none
  | some t =>
    if s.told.any fun p => decide (p.1 = t) then none
    else
      (filterOptimum pr at' true (some (optunaMerge s.opt ind))).map fun opt =>
        { s with told := s.told ++ [(t, at'.F ind 0)], pop := [ind], opt := opt }

/-- `n` calls of `next()` (algorithm.py 157-169): ask, evaluate, tell. `eval x` is the evaluated individual. Returned: the individuals evaluated and the state. -/
def optunaRun [LinearOrder K] [Sub K] [LinearOrder β] (oracle : ℕ → String → OSugg → OVal) (vars : Option (List (String × OVar))) (eval : List (String × OVal) → ι)
    (pr : ∀ n, (Fin n → Fin 1 → K) → Fin n → ℕ) (at' : Attrs ι K β 1) : ℕ → Option (List ι × OptunaSt ι K)
  | 0 => some ([], optunaFresh ι K)
  | n + 1 =>
    (optunaRun oracle vars eval pr at' n).bind fun r =>
      (optunaAsk oracle vars r.2).bind fun a =>
        (optunaTell pr at' a.2 (eval a.1)).map fun s => (r.1 ++ [eval a.1], s)

/-- The ask-and-tell interface (algorithm.py 291-295): `tell j` hands back the `j`-th individual that was asked for (evaluated). -/
inductive OOp
  | ask
  | tell (j : ℕ)
  deriving DecidableEq

/-- One operation; the first component are the individuals asked for so far. Telling an individual that was not asked for is not considered (`none`). -/
def optunaOp [LinearOrder K] [Sub K] [LinearOrder β] (oracle : ℕ → String → OSugg → OVal) (vars : Option (List (String × OVar))) (eval : List (String × OVal) → ι)
    (pr : ∀ n, (Fin n → Fin 1 → K) → Fin n → ℕ) (at' : Attrs ι K β 1) (r : List ι × OptunaSt ι K) : OOp → Option (List ι × OptunaSt ι K)
  | .ask => (optunaAsk oracle vars r.2).map fun a => (r.1 ++ [eval a.1], a.2)
  | .tell j => r.1[j]?.bind fun ind => (optunaTell pr at' r.2 ind).map fun s => (r.1, s)

/-- A session. -/
def optunaSession [LinearOrder K] [Sub K] [LinearOrder β] (oracle : ℕ → String → OSugg → OVal) (vars : Option (List (String × OVar))) (eval : List (String × OVal) → ι)
    (pr : ∀ n, (Fin n → Fin 1 → K) → Fin n → ℕ) (at' : Attrs ι K β 1) (ops : List OOp) : Option (List ι × OptunaSt ι K) :=
  ops.foldlM (optunaOp oracle vars eval pr at') ([], optunaFresh ι K)

end Model
