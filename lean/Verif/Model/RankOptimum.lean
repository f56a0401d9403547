import Verif.Model.GDE3
import Verif.Model.FrontSurvivals

/-!
# Model of the optimum reported by NSGA-II, NSDE, GDE3 and AGE-MOEA: `pymoo/algorithms/moo/nsga2.py` 123-127, `age.py` 78-82

The attribute `rank` is stored in the individuals and stays there until it is written again; it is written by the survival, and the optimum is read from it. Individuals have a type `ι` (object identity).
-/

namespace Model

variable {ι α β γ K : Type*} {m : ℕ}

/-- What one call of the survival does: the operator's `_do`, the ranks it writes into the individuals it is given (`none` = not written), and numpy's sort of the violations. -/
structure RankCall (ι : Type*) where
  op : List ι → ℕ → List ι
  ranks : List ι → ℕ → ι → Option ℕ
  sortCV : (pop : List ι) → List (Fin pop.length) → List (Fin pop.length)

/-- The population and the attribute `rank` of all individuals. -/
structure RankState (ι : Type*) where
  pop : List ι
  rank : ι → Option ℕ

/-- `core/survival.py:59-90`: the individuals handed to `_do`. -/
def rankSub (split : Bool) (feas : ι → Bool) (pop : List ι) (sortCV : List (Fin pop.length) → List (Fin pop.length)) : List ι :=
  if split then (splitByFeasibility (fun i => feas (pop.get i)) sortCV id true false).1.map pop.get else pop

/-- `core/survival.py:25-98` with the ranks written by `_do`, which is not called for an empty list of feasible individuals (line 63). -/
def rankSurvive (split : Bool) (feas : ι → Bool) (n : ℕ) (c : RankCall ι) (s : RankState ι) : RankState ι :=
  let sub := rankSub split feas s.pop (c.sortCV s.pop)
  ⟨survivalDo split c.op feas s.pop (c.sortCV s.pop) (some n),
    fun x => if sub.length = 0 then s.rank x else (c.ranks sub (min sub.length (min n s.pop.length)) x).or (s.rank x)⟩

/-- A generation: the offspring (`none` = no infills), which individuals count as feasible during the survival, and the survival. -/
structure RankGen (ι : Type*) where
  off : Option (List ι)
  feas : ι → Bool
  call : RankCall ι

/-- `genetic.py:116-134` `_advance`. -/
def rankAdvance (split : Bool) (popSize : ℕ) (s : RankState ι) (g : RankGen ι) : RankState ι :=
  rankSurvive split g.feas popSize g.call { s with pop := g.off.elim s.pop (s.pop ++ ·) }

/-- `genetic.py:82-91` with `advance_after_initial_infill` (`nsga2.py:116`, `age.py:71`), then the generations. New individuals have no rank. -/
def rankRun (split : Bool) (popSize : ℕ) (init : List ι) (g0 : RankGen ι) (gens : List (RankGen ι)) : RankState ι :=
  gens.foldl (rankAdvance split popSize) (rankSurvive split g0.feas init.length g0.call ⟨init, fun _ => none⟩)

/-- `nsga2.py:123-127`, `age.py:78-82` `_set_optimum`; `none`: `argmin` of an empty array. -/
def rankOptimum [LT β] [DecidableLT β] (at' : Attrs ι α β m) (s : RankState ι) : Option (List ι) :=
  if s.pop.any at'.feas then some (s.pop.filter fun x => decide (s.rank x = some 0)) else (npArgmin at'.cv s.pop).map fun x => [x]

/-- The rank found at the position of `x` in `sub`. -/
def rankAt [DecidableEq ι] (sub : List ι) (r : Fin sub.length → Option ℕ) (x : ι) : Option ℕ :=
  (List.finRange sub.length).findSome? fun i => if sub.get i = x then r i else none

/-- The call of `RankAndCrowding` (`classes.py:40-103`); ranks are written in line 97. -/
def rcCall [DecidableEq ι] [LinearOrder α] [Sub α] [LinearOrder γ] (paretoRank : (N : ℕ) → (Fin N → Fin m → α) → Fin N → ℕ) (obj : ι → Fin m → α)
    (crowd : (l : ℕ) → (Fin l → Fin m → α) → ℕ → Fin l → γ) (argsort : (l : ℕ) → (Fin l → γ) → List (Fin l)) (P : ℕ → (l : ℕ) → Fin l → Fin l)
    (sortCV : (pop : List ι) → List (Fin pop.length) → List (Fin pop.length)) : RankCall ι :=
  ⟨rcOperator paretoRank obj crowd argsort P,
    fun sub k x => (rankAndCrowding (paretoRank sub.length) (fun i => obj (sub.get i)) crowd argsort P k).bind fun st => rankAt sub st.rank x, sortCV⟩

/-- The call of `AGEMOEASurvival` (`age.py:95-151`); ranks are written in line 115, the largest integer for individuals that are not ranked. -/
def ageCall [DecidableEq ι] [Sub α] [LinearOrder K] [Zero K] (maxVal : ℕ) (paretoRank : (N : ℕ) → (Fin N → Fin m → α) → Fin N → ℕ) (obj : ι → Fin m → α)
    (score prox : (l : ℕ) → (Fin l → ι) → List (List (Fin l)) → Fin l → K) (argsort : (l : ℕ) → (Fin l → K) → List (Fin l) → List (Fin l))
    (sortCV : (pop : List ι) → List (Fin pop.length) → List (Fin pop.length)) : RankCall ι :=
  ⟨fun sub k => ((ageSurvival (paretoRank sub.length) (fun i => obj (sub.get i)) (score sub.length sub.get) (prox sub.length sub.get) (argsort sub.length) k).getD []).map sub.get,
    fun sub k x => (ndsFronts (paretoRank sub.length) none none 0 (fun i => obj (sub.get i)) none (some k)).bind fun fronts =>
      rankAt sub (fun i => some ((ageFrontNo fronts i).getD maxVal)) x, sortCV⟩

end Model
