import Verif.Model.NonDominatedSorting
import Verif.Model.Sorting

/-!
# Model of `pymoo/core/survival.py` and `operators/survival/rank_and_crowding/classes.py`

A population is a list of individuals (objects, type `ι`); a population of known size `N` is also addressed by
positions `Fin N`.
-/

namespace Model

section RankAndCrowding
variable {N m : ℕ} {α β : Type*} [LinearOrder β]

/-- The local `survivors` of `RankAndCrowding._do` and the attributes `rank`, `crowding` written to the
individuals (`classes.py:66, 97-98`); `none` = not written by this call. -/
structure RCState (N : ℕ) (β : Type*) where
  survivors : List (Fin N)
  rank : Fin N → Option ℕ
  crowding : Fin N → Option β

/-- State before the loop. -/
def RCState.init : RCState N β := ⟨[], fun _ => none, fun _ => none⟩

/-- `classes.py:95-98`: `for j, i in enumerate(front): pop[i].set("rank", k); pop[i].set("crowding", ...)`. -/
def rcSave (front : List (Fin N)) (k : ℕ) (cr : Fin front.length → β) (st : RCState N β) : RCState N β :=
  (List.finRange front.length).foldl (fun st j =>
    { st with
      rank := Function.update st.rank (front.get j) (some k)
      crowding := Function.update st.crowding (front.get j) (some (cr j)) }) st

/-- `classes.py:71-101`: body of the loop over the fronts. `crowd` is `self.crowding_func.do`, `argsort`
numpy's sort, `P k` the random permutation drawn while processing front `k`. -/
def rcStep (F : Fin N → Fin m → α) (crowd : (l : ℕ) → (Fin l → Fin m → α) → ℕ → Fin l → β)
    (argsort : (l : ℕ) → (Fin l → β) → List (Fin l)) (P : ℕ → (l : ℕ) → Fin l → Fin l) (nSurvive : ℕ)
    (st : RCState N β) (fk : List (Fin N) × ℕ) : RCState N β :=
  let front := fk.1
  let k := fk.2
  let Ff : Fin front.length → Fin m → α := fun j => F (front.get j)
  if st.survivors.length + front.length > nSurvive then
    let nRemove := st.survivors.length + front.length - nSurvive
    let cr := crowd front.length Ff nRemove
    -- `randomized_argsort` never fails for "descending" (`C38_numpy`)
    let I := (randomizedArgsort (argsort front.length) (P k front.length) "descending" cr).getD []
    let I := I.take (I.length - nRemove)
    let st := rcSave front k cr st
    { st with survivors := st.survivors ++ I.map front.get }
  else
    let cr := crowd front.length Ff 0
    let st := rcSave front k cr st
    { st with survivors := st.survivors ++ (List.finRange front.length).map front.get }

/-- `classes.py:71-101`: the loop. -/
def rcLoop (F : Fin N → Fin m → α) (crowd : (l : ℕ) → (Fin l → Fin m → α) → ℕ → Fin l → β)
    (argsort : (l : ℕ) → (Fin l → β) → List (Fin l)) (P : ℕ → (l : ℕ) → Fin l → Fin l) (nSurvive : ℕ)
    (fronts : List (List (Fin N))) : RCState N β :=
  fronts.zipIdx.foldl (rcStep F crowd argsort P nSurvive) RCState.init

/-- `classes.py:40-103` `RankAndCrowding._do`, with the default `NonDominatedSorting()` (no dominator). -/
def rankAndCrowding [Sub α] (paretoRank : (Fin N → Fin m → α) → Fin N → ℕ) (F : Fin N → Fin m → α)
    (crowd : (l : ℕ) → (Fin l → Fin m → α) → ℕ → Fin l → β)
    (argsort : (l : ℕ) → (Fin l → β) → List (Fin l)) (P : ℕ → (l : ℕ) → Fin l → Fin l) (nSurvive : ℕ) :
    Option (RCState N β) :=
  (ndsFronts paretoRank none none 0 F none (some nSurvive)).map (rcLoop F crowd argsort P nSurvive)

end RankAndCrowding

section Survival
variable {ι : Type*}

/-- `pymoo/core/survival.py:152-183` `split_by_feasibility(pop, sort_infeas_by_cv, sort_feas_by_obj)`, index
version. `sortCV`/`sortF` re-order a list of positions by `np.argsort` of the violation / first objective. -/
def splitByFeasibility {N : ℕ} (feas : Fin N → Bool) (sortCV sortF : List (Fin N) → List (Fin N))
    (sortInfeas sortFeas : Bool) : List (Fin N) × List (Fin N) :=
  let feasible := (List.finRange N).filter feas
  let infeasible := (List.finRange N).filter fun i => !feas i
  let infeasible := if sortInfeas then sortCV infeasible else infeasible
  let feasible := if sortFeas then sortF feasible else feasible
  (feasible, infeasible)

/-- `pymoo/core/survival.py:25-98` `Survival.do(problem, pop, n_survive=...)` returning individuals. `op` is the
subclass's `_do`, `feas` the attribute `FEAS`; `split` stands for `self.filter_infeasible and
problem.has_constraints()`. -/
def survivalDo (split : Bool) (op : List ι → ℕ → List ι) (feas : ι → Bool) (pop : List ι)
    (sortCV : List (Fin pop.length) → List (Fin pop.length)) (nSurvive : Option ℕ) : List ι :=
  if pop.length = 0 then pop
  else
    let n := min (nSurvive.getD pop.length) pop.length
    if split then
      let fi := splitByFeasibility (fun i => feas (pop.get i)) sortCV id true false
      let feasible := fi.1
      let infeasible := fi.2
      let survivors := if feasible.length = 0 then [] else op (feasible.map pop.get) (min feasible.length n)
      let nRemaining := n - survivors.length
      if nRemaining > 0 then survivors ++ (infeasible.take nRemaining).map pop.get else survivors
    else op pop n

/-- `pymoo/core/survival.py:93-96`: the dictionary from individual to position (a later position overwrites an
earlier one) and the list of positions; `none` = `KeyError`. -/
def survivalIndices [DecidableEq ι] (pop survivors : List ι) : Option (List ℕ) :=
  let h : ι → Option ℕ := pop.zipIdx.foldl (fun h (ind, k) => Function.update h ind (some k)) (fun _ => none)
  survivors.mapM h

/-- `pymoo/core/survival.py:126-149` `ToReplacement._do(problem, pop, off)`: `indices` is the result of
`survival.do(merged, n_survive=len(merged), return_indices=True)`, written as attribute `__rank__` to the merged
population; position `k` is replaced if its offspring has the smaller attribute. -/
def toReplacement (indices : List ℕ) (pop off : List ι) : List ι :=
  (pop.zip off).zipIdx.map fun ((p, o), k) =>
    if indices.getD (pop.length + k) 0 < indices.getD k 0 then o else p

end Survival

end Model
