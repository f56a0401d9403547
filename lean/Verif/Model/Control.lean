import Verif.Model.Sampling
import Verif.Model.Selection

/-!
# Model: control of operator parameters (pymoo/operators/control.py)

A parameter has a name `N` and a type; its value `A`. What a control proposes for `n` matings is a list of `n` rows, one dictionary
`name ↦ value` per mating (the code keeps one array per parameter; `vals[k][i]` is the entry `k` of row `i`).
-/

namespace Model

variable {N A D : Type*} [DecidableEq N]

/-- control.py:82-86: parameters an individual has no value for get a sampled one; `sample k i` is the value sampled for parameter `k`
of individual `i`. The values are set on the individuals of the population themselves. -/
def ctlFill (names : List N) (sample : N → ℕ → A) (pop : List (MixedX N A)) : List (MixedX N A) :=
  pop.zipIdx.map fun e => names.foldl (fun (d : MixedX N A) k => if (mGet d k).isNone then mSet d k (sample k e.2) else d) e.1

/-- control.py:113 `Individual(X={key: parent.get(key) for key in params})`; a missing attribute would be `None`, after `ctlFill` there
is none missing. -/
def ctlParent (names : List N) (d : MixedX N A) : Option (MixedX N A) := names.mapM fun k => (mGet d k).map fun a => (k, a)

/-- The kinds of control. -/
inductive CtlKind
  | no
  | random
  | evolutionary
  deriving DecidableEq

/-- control.py:36-43 `ParameterControl.do(n)` with `_do` of the three kinds (64-65, 69-70, 78-120): the attributes of the population
afterwards and the rows for `n` matings. `par` are the parents selected for each mating (positions in the population), `op` the
operators of `MixedVariableMating`. `none`: an exception. -/
def ctlDo (op : VarClass → List N → List (List (List A)) → Option (List (List A))) (vars : List (N × VarClass)) (sample fresh : N → ℕ → A)
    (par : List (List ℕ)) (n : ℕ) (pop : List (MixedX N A)) : CtlKind → Option (List (MixedX N A) × List (MixedX N A))
  | .no => some (pop, List.replicate n [])
  | .random => (mixedSampling vars (fun k => (List.range n).map (fresh k)) n).map fun rows => (pop, rows)
  | .evolutionary =>
    let pop' := ctlFill (vars.map Prod.fst) sample pop
    (par.mapM fun (m : List ℕ) => m.mapM fun i => pop'[i]?.bind fun d => ctlParent (vars.map Prod.fst) d).bind fun parents =>
      (mixedMating op vars parents n).map fun rows => (pop', rows)

/-- An offspring: its variables and the parameters attached to it (control.py:52-57 `advance`). -/
structure CtlOff (N A D : Type*) where
  x : D
  params : MixedX N A
  deriving DecidableEq

/-- control.py:161-189 `ParameterControlMating._do` after the control has chosen the `rows`: mating `k` is crossed with the parameters of row `k`
(`cross row k o`: offspring `o` of mating `k`); the offspring are ordered as crossover.py:67 leaves them (first the offspring 0 of all
matings, then the offspring 1 …); the parameters are repeated with `np.repeat` (184-185); `mutate row j x` is the mutation of the
offspring at position `j` with its row; the rows are attached. -/
def ctlMating (nOff : ℕ) (cross : MixedX N A → ℕ → ℕ → D) (mutate : MixedX N A → ℕ → D → D) (rows : List (MixedX N A)) :
    Option (List (CtlOff N A D)) :=
  let X := (List.range nOff).flatMap fun o => rows.zipIdx.map fun e => cross e.1 e.2 o
  let params := rows.flatMap fun r => List.replicate nOff r
  if params.length = X.length then some ((X.zip params).zipIdx.map fun e => ⟨mutate e.1.2 e.2 e.1.1, e.1.2⟩) else none

/-- de.py:88-221 and pso_ep.py:90-147 (`Variant.do`, `Swarm.do`): one offspring per row. -/
def ctlDirect (create : MixedX N A → ℕ → D) (rows : List (MixedX N A)) : List (CtlOff N A D) :=
  rows.zipIdx.map fun e => ⟨create e.1 e.2, e.1⟩

/-- The parameters of the individuals over the generations: in every generation the control proposes rows from the present population,
offspring carry their rows (`attach`: in the order of `ctlMating` or `ctlDirect`), and `survive` picks positions of the population and
the offspring together. Collected: all rows proposed. -/
def ctlRun (op : VarClass → List N → List (List (List A)) → Option (List (List A))) (vars : List (N × VarClass)) (kind : CtlKind)
    (attach : List (MixedX N A) → List (MixedX N A)) :
    List (MixedX N A) → List ((N → ℕ → A) × (N → ℕ → A) × List (List ℕ) × ℕ × List ℕ) → Option (List (MixedX N A) × List (MixedX N A))
  | pop, [] => some (pop, [])
  | pop, g :: gs =>
    (ctlDo op vars g.1 g.2.1 g.2.2.1 g.2.2.2.1 pop kind).bind fun pr =>
      (g.2.2.2.2.mapM fun i => (pr.1 ++ attach pr.2)[i]?).bind fun next =>
        (ctlRun op vars kind attach next gs).map fun r => (r.1, pr.2 ++ r.2)

/-- control.py:128-150 `age_binary_tournament` for one pair; `gen i` is the generation individual `i` was created in. -/
def ageTournament (gen : ℕ → ℕ) (a b : ℕ) (coin : Bool) : Option ℕ := compareInd a (gen a) b (gen b) .larger true coin

/-- util/__init__.py:29-33, the decorator `default_random_state`: the generator used by a function called with `random_state=given`;
`entropy` is the fresh generator. -/
def rngOf {G : Type*} (given : Option G) (entropy : G) : G := given.getD entropy

/-- Who hands the generator of the algorithm on to the control: pso_ep.py:97 does; de.py:96 and control.py:169 call `control.do(n)`
without it. -/
inductive CtlCaller
  | swarm
  | variant
  | mating
  deriving DecidableEq

/-- The generator the control of an algorithm uses. -/
def ctlRng {G : Type*} (c : CtlCaller) (rng entropy : G) : G :=
  match c with
  | .swarm => rngOf (some rng) entropy
  | .variant => rngOf none entropy
  | .mating => rngOf none entropy

end Model
