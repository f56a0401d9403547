import Verif.Model.Minimize
import Mathlib.Algebra.BigOperators.Group.List.Basic

/-!
# Model: hyperparameter optimisation (pymoo/algorithms/hyperparameters.py)

On the store of objects of `Model/Minimize.lean`. `set cfg x` is `set_params(algorithm, hierarchical(x))` (its properties are C36);
`none`: it raises.
-/

namespace Model

variable {C Pr σ P S K X : Type*} [Field K] [LinearOrder K]

/-- hyperparameters.py:13-16 `create(algorithm, params)`. -/
def hyperCreate (set : C → X → Option C) (W : World C Pr σ P S K) (a : ℕ) (x : X) : Option (World C Pr σ P S K × ℕ) :=
  (copyAlg W a).bind fun wa => wa.1.algs[wa.2]?.bind fun o => (set o.cfg x).map fun cfg =>
    (⟨wa.1.algs.set wa.2 ⟨cfg, o.problem, o.seed, o.term, o.core⟩, wa.1.terms⟩, wa.2)

/-- hyperparameters.py:94-95, the runs of `MultiRun.__call__`: one `minimize` per seed, with the same other arguments. -/
def multiRun (code : AlgCode C Pr σ P S K) (fuel : ℕ) (c : MinCall Pr S K) :
    World C Pr σ P S K → List ℕ → Option (World C Pr σ P S K × List (AlgState σ P S K))
  | W, [] => some (W, [])
  | W, s :: ss => (minimize code fuel W { c with seed := some (some s) }).bind fun r =>
      (multiRun code fuel c r.1 ss).map fun rs => (rs.1, r.2 :: rs.2)

/-- `np.array(F).mean(axis=0)`; the mean of no rows is not a number: `none`. -/
def colMean {d : ℕ} (rows : List (Fin d → K)) : Option (Fin d → K) :=
  if rows.length = 0 then none else some fun j => (rows.map fun r => r j).sum / (rows.length : K)

/-- hyperparameters.py:53-63 `stats_single_objective_mean`: `values` are the `F`, `G` and `H` of the result of a run; they are `None` if the
run found no feasible solution, and then the mean raises. -/
def statsMean {d : ℕ} (values : AlgState σ P S K → Option (Fin d → K)) (rets : List (AlgState σ P S K)) : Option (Fin d → K) :=
  (rets.mapM values).bind colMean

/-- hyperparameters.py:37-40 `HyperparameterProblem._evaluate(x)` with `performance = MultiRun(problem, seeds=…)` (`c` holds the problem and
the keyword arguments; its algorithm is replaced by the copy). -/
def hyperEvaluate {d : ℕ} (code : AlgCode C Pr σ P S K) (fuel : ℕ) (set : C → X → Option C) (values : AlgState σ P S K → Option (Fin d → K)) (c : MinCall Pr S K)
    (seeds : List ℕ) (W : World C Pr σ P S K) (x : X) : Option (World C Pr σ P S K × (Fin d → K)) :=
  (hyperCreate set W c.alg x).bind fun wa => (multiRun code fuel { c with alg := wa.2 } wa.1 seeds).bind fun r =>
    (statsMean values r.2).map fun v => (r.1, v)

/-- Evaluations one after the other (the problem evaluates its rows in a loop, generation after generation). -/
def hyperEvals {d : ℕ} (code : AlgCode C Pr σ P S K) (fuel : ℕ) (set : C → X → Option C) (values : AlgState σ P S K → Option (Fin d → K)) (c : MinCall Pr S K)
    (seeds : List ℕ) : World C Pr σ P S K → List X → Option (World C Pr σ P S K × List (Fin d → K))
  | W, [] => some (W, [])
  | W, x :: xs => (hyperEvaluate code fuel set values c seeds W x).bind fun r =>
      (hyperEvals code fuel set values c seeds r.1 xs).map fun rs => (rs.1, r.2 :: rs.2)

end Model
