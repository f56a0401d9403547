import Verif.Model.Optimum
import Verif.Model.Survival

/-!
# Model of the generation loop of `pymoo/algorithms/base/genetic.py`, for any survival operator

Individuals have a type `ι` (object identity). What the mating produces is an argument: the list of offspring of each generation (`none`: no infills).
-/

namespace Model

variable {ι α β : Type*} {m : ℕ}

/-- What one call of `self.survival.do` uses: the operator's `_do` (with its random numbers) and numpy's sort of the violations. -/
structure SurvCall (ι : Type*) where
  op : List ι → ℕ → List ι
  sortCV : (pop : List ι) → List (Fin pop.length) → List (Fin pop.length)

/-- `core/survival.py:25-98` for this call; `split` = `filter_infeasible and problem.has_constraints()`. -/
def SurvCall.apply (c : SurvCall ι) (split : Bool) (feas : ι → Bool) (n : ℕ) (pop : List ι) : List ι :=
  survivalDo split c.op feas pop (c.sortCV pop) (some n)

/-- `genetic.py:82-91` `_initialize_advance`; without `advance_after_initial_infill` the population is what `core/algorithm.py:226-228` set, the infills. -/
def geneticInit (split : Bool) (feas : ι → Bool) (advanceInitial : Bool) (c : SurvCall ι) (infills : List ι) : List ι :=
  if advanceInitial then c.apply split feas infills.length infills else infills

/-- `genetic.py:116-134` `_advance`. -/
def geneticAdvance (split : Bool) (feas : ι → Bool) (popSize : ℕ) (pop : List ι) (g : Option (List ι) × SurvCall ι) : List ι :=
  g.2.apply split feas popSize (g.1.elim pop (pop ++ ·))

/-- A run: the initial infills, then the generations. -/
def geneticRun (split : Bool) (feas : ι → Bool) (popSize : ℕ) (advanceInitial : Bool) (init : List ι × SurvCall ι)
    (gens : List (Option (List ι) × SurvCall ι)) : List ι :=
  gens.foldl (geneticAdvance split feas popSize) (geneticInit split feas advanceInitial init.2 init.1)

end Model
