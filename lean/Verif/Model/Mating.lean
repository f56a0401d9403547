import Verif.Model.Population
import Mathlib.Data.List.FinRange

/-!
# Model of `pymoo/core/crossover.py`, `pymoo/core/mutation.py`, `pymoo/core/mating.py`, `operators/crossover/nox.py`

On the heap of `Model/Population.lean`; `xkey` is the attribute `"X"`, and `V` is the type of its values (whole design
vectors). The bodies `_do` of the operators are arguments; the shape assertion of `crossover.py:47` is part of their type.
Not modelled: the cast to `vtype`, the repair built into an operator (`core/operator.py:44-46`).
-/

namespace Model

variable {κ V : Type*} [DecidableEq κ]

/-- `crossover.py:58-60`: extend by permutations until there are enough; `perms j` is the `j`-th random permutation.
`none` = more than `fuel` rounds. -/
def extendLoop {nPar : ℕ} (perms : ℕ → List (Fin nPar)) (nOff : ℕ) : ℕ → ℕ → List (Fin nPar) → Option (List (Fin nPar))
  | 0, _, s => if s.length < nOff then none else some s
  | fuel + 1, j, s => if s.length < nOff then extendLoop perms nOff fuel (j + 1) (s ++ perms j) else some s

/-- `crossover.py:52-60`: the parents copied for a mating without crossover. `choice` is `random_state.choice(...,
replace=False)`. -/
def noCrossParents {nPar : ℕ} (nOff fuel : ℕ) (choice : List (Fin nPar)) (perms : ℕ → List (Fin nPar)) :
    Option (List (Fin nPar)) :=
  if nOff < nPar then some choice
  else if nOff = nPar then some (List.finRange nPar)
  else (extendLoop perms nOff fuel 0 []).map (·.take nOff)

/-- `crossover.py:18-70` `Crossover.do(problem, matings)`. `body` is `_do`; `cross k` whether mating `k` is crossed; the
offspring are the rows of `Xp.reshape(-1, n_var)`, offspring number first, mating second. `none` = an exception or an
endless loop. -/
def crossoverDo {nPar nMat : ℕ} (ind0 : κ → Option V) (xkey : κ) (nOff fuel : ℕ)
    (body : (Fin nPar → Fin nMat → Option V) → Fin nOff → Fin nMat → V)
    (cross : Fin nMat → Bool) (choice : Fin nMat → List (Fin nPar)) (perms : Fin nMat → ℕ → List (Fin nPar))
    (matings : Fin nMat → Fin nPar → ℕ) (s : PState κ V) : Option (PState κ V × List ℕ) :=
  let X : Fin nPar → Fin nMat → Option V := fun p k => s.heap (matings k p) xkey
  let Q := body X
  let cell (o : Fin nOff) (k : Fin nMat) : Option V :=
    if cross k then some (Q o k)
    else (noCrossParents nOff fuel (choice k) (perms k)).bind fun sel => sel[o.1]?.bind fun p => X p k
  match ((List.finRange nOff).flatMap fun o => (List.finRange nMat).map fun k => cell o k).mapM id with
  | none => none
  | some rows => popNew ind0 [(xkey, rows)] s

/-- `nox.py:13-27` `NoCrossover.do(problem, matings)` with as many offspring as parents: the parents themselves. -/
def noCrossoverDo {nPar nMat : ℕ} (matings : Fin nMat → Fin nPar → ℕ) : List ℕ :=
  (List.finRange nMat).flatMap fun k => (List.finRange nPar).map fun p => matings k p

/-- `copy.deepcopy(pop)` (`mutation.py:23`): new individuals with the same attributes; an individual occurring twice is
copied once. -/
def deepcopyPop (pop : List ℕ) (s : PState κ V) : PState κ V × List ℕ :=
  ({ heap := fun i => if s.next ≤ i ∧ i < s.next + pop.length then (pop[i - s.next]?.map s.heap).getD (s.heap i)
       else s.heap i,
     next := s.next + pop.length },
   pop.map fun i => s.next + pop.idxOf i)

/-- `mutation.py:18-40` `Mutation.do(problem, pop, inplace)`; `body` is `_do`, `accept` which positions are accepted. `pop[mut]
.set("X", Xp[mut])` is `setColumnP` on the selected positions. -/
def mutationDo (xkey : κ) (inplace : Bool) (body : List (Option V) → List V) (accept : List Bool) (pop : List ℕ)
    (s : PState κ V) : PState κ V × List ℕ :=
  let sp := if inplace then (s, pop) else deepcopyPop pop s
  let s := sp.1
  let pop := sp.2
  let Xp := body (popGet s.heap pop xkey)
  let sel := ((pop.zip Xp).zip accept).filter (·.2)
  ({ s with heap := setColumnP xkey (sel.map (·.1.1)) (sel.map (·.1.2)) s.heap }, pop)

/-- `mating.py:24-47` `Mating._do` with given parents: crossover, then mutation in place. -/
def matingDo {nPar nMat : ℕ} (ind0 : κ → Option V) (xkey : κ) (nOff fuel : ℕ)
    (body : (Fin nPar → Fin nMat → Option V) → Fin nOff → Fin nMat → V)
    (cross : Fin nMat → Bool) (choice : Fin nMat → List (Fin nPar)) (perms : Fin nMat → ℕ → List (Fin nPar))
    (mbody : List (Option V) → List V) (accept : List Bool) (matings : Fin nMat → Fin nPar → ℕ) (s : PState κ V) :
    Option (PState κ V × List ℕ) :=
  (crossoverDo ind0 xkey nOff fuel body cross choice perms matings s).map fun r => mutationDo xkey true mbody accept r.2 r.1

/-- `mating.py:24-47` with `NoCrossover`. -/
def matingNoCrossover {nPar nMat : ℕ} (xkey : κ) (mbody : List (Option V) → List V) (accept : List Bool)
    (matings : Fin nMat → Fin nPar → ℕ) (s : PState κ V) : PState κ V × List ℕ :=
  mutationDo xkey true mbody accept (noCrossoverDo matings) s

end Model
