import Verif.Model.Evaluator
import Verif.Model.Duplicate

/-!
# Model: the initial population (pymoo/core/initialization.py, with core/sampling.py, core/repair.py, core/population.py)

Individuals are objects in a heap (as in Model/Evaluator); a population is a list of references. New individuals get references from
`next` on.
-/

namespace Model

variable {X κ V : Type*}

/-- The argument `sampling` of an algorithm: a population, a matrix of points, or a sampling operator. -/
inductive InitSampling (X : Type*)
  | pop (ids : List ℕ)
  | array (rows : List X)
  | op (draw : ℕ → List X)

/-- population.py:105-121 `Population.new(X=rows)`: new individuals without values. -/
def newInds (heap : ℕ → EvInd X κ V) (next : ℕ) (rows : List X) : (ℕ → EvInd X κ V) × List ℕ :=
  (fun i => match rows[i - next]? with
    | some x => if next ≤ i then ⟨x, fun _ => none, []⟩ else heap i
    | none => heap i, (List.range rows.length).map (next + ·))

/-- repair.py:9-17 `Repair.do(problem, pop)`: the variables are replaced in the individuals themselves. `none`: the number of
points is wrong (population.py:44-45). -/
def repairInds (repair : List X → List X) (heap : ℕ → EvInd X κ V) (ids : List ℕ) : Option (ℕ → EvInd X κ V) :=
  let Xp := repair (ids.map fun i => (heap i).x)
  if ids.length = 0 then some heap
  else if Xp.length ≠ ids.length then none
  else some ((ids.zip Xp).foldl (fun (h : ℕ → EvInd X κ V) e => Function.update h e.1 { h e.1 with x := e.2 }) heap)

/-- initialization.py:28-49 `Initialization.do(problem, n_samples)`: the heap and the initial population. -/
def initDo (repair : List X → List X) (masks : (ℕ → EvInd X κ V) → DupMasks ℕ) (heap : ℕ → EvInd X κ V) (next nSamples : ℕ) (s : InitSampling X) :
    Option ((ℕ → EvInd X κ V) × List ℕ) :=
  let hp := match s with
    | .pop ids => (heap, ids)
    | .array rows => newInds heap next rows
    | .op draw => newInds heap next (draw nSamples)
  let todo := hp.2.filter fun i => (hp.1 i).evaluated.isEmpty
  (if todo.length > 0 then repairInds repair hp.1 todo else some hp.1).map fun h => (h, dedup (masks h) true hp.2 [])

end Model
