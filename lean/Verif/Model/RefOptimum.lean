import Verif.Model.RankOptimum
import Verif.Model.NSGA3

/-!
# Model of the optimum reported by NSGA-III, U-NSGA-III and NSDE-R: `pymoo/algorithms/moo/nsga3.py` 125-130, `nsder.py` 75-79

The survival by reference directions keeps an attribute `opt`, written by `_do`; the algorithm's `opt` is set from it after each generation. Individuals have a type `ι`.
-/

namespace Model

variable {ι α β : Type*} {m : ℕ}

/-- What one call of the survival does: the survivors and `survival.opt` computed by `_do`, and numpy's sort of the violations. -/
structure RefCall (ι : Type*) where
  op : List ι → ℕ → List ι × List ι
  sortCV : (pop : List ι) → List (Fin pop.length) → List (Fin pop.length)

/-- The population, `survival.opt` and the algorithm's `opt` (`none` = Python's `None`, `nsga3.py:142`, `algorithm.py`). -/
structure RefState (ι : Type*) where
  pop : List ι
  kept : Option (List ι)
  opt : Option (List ι)

/-- `core/survival.py:25-98` with `survival.opt`; `_do` is not called for an empty list of feasible individuals (line 63). -/
def refSurvive (split : Bool) (feas : ι → Bool) (n : ℕ) (c : RefCall ι) (s : RefState ι) : RefState ι :=
  let sub := rankSub split feas s.pop (c.sortCV s.pop)
  { s with
    pop := survivalDo split (fun l k => (c.op l k).1) feas s.pop (c.sortCV s.pop) (some n)
    kept := if sub.length = 0 then s.kept else some (c.op sub (min sub.length (min n s.pop.length))).2 }

/-- `_set_optimum` of NSGA-III (`nsga3.py:125-130`) and of NSDE-R (`nsder.py:75-79`); `none`: an exception (`argmin` of an empty array, `len(None)`). -/
def refSetOptimum [LT β] [DecidableLT β] (nsder : Bool) (at' : Attrs ι α β m) (s : RefState ι) : Option (RefState ι) :=
  if ¬ s.pop.any at'.feas then (npArgmin at'.cv s.pop).map fun x => { s with opt := some [x] }
  else if nsder then some { s with opt := s.kept }
  else s.kept.map fun l => if l.length ≠ 0 then { s with opt := some l } else s

/-- A generation: the offspring (`none` = no infills) and the survival. -/
structure RefGen (ι : Type*) where
  off : Option (List ι)
  call : RefCall ι

/-- `genetic.py:116-134` `_advance`, then `_set_optimum`. -/
def refAdvance [LT β] [DecidableLT β] (nsder split : Bool) (at' : Attrs ι α β m) (popSize : ℕ) (s : RefState ι) (g : RefGen ι) : Option (RefState ι) :=
  refSetOptimum nsder at' (refSurvive split at'.feas popSize g.call { s with pop := g.off.elim s.pop (s.pop ++ ·) })

/-- `genetic.py:82-91` with `advance_after_initial_infill` (`nsga3.py:112`), then the generations. -/
def refRun [LT β] [DecidableLT β] (nsder split : Bool) (at' : Attrs ι α β m) (popSize : ℕ) (init : List ι) (c0 : RefCall ι) (gens : List (RefGen ι)) : Option (RefState ι) :=
  gens.foldlM (refAdvance nsder split at' popSize) =<< refSetOptimum nsder at' (refSurvive split at'.feas init.length c0 ⟨init, none, none⟩)

/-- The call of `ReferenceDirectionSurvival` (`nsga3.py:145-209`): `dist sub i` is the row of distances of the individual to the directions, which depends on everything the normalisation has seen before. -/
def nsga3Call [Sub α] (paretoRank : (N : ℕ) → (Fin N → Fin m → α) → Fin N → ℕ) (obj : ι → Fin m → α) (dist : (sub : List ι) → Fin sub.length → List ℚ)
    (shuffle : ℕ → List ℕ → List ℕ) (sortCV : (pop : List ι) → List (Fin pop.length) → List (Fin pop.length)) [LinearOrder α] : RefCall ι :=
  ⟨fun sub k => (((ndsFronts (paretoRank sub.length) none none 0 (fun i => obj (sub.get i)) none (some k)).bind fun fronts =>
      nsga3Survive fronts (dist sub) shuffle k k).map fun r => (r.1.map sub.get, r.2.map sub.get)).getD ([], []), sortCV⟩

end Model
