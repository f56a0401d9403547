import Verif.Model.NonDominatedSorting
import Verif.Model.Normalization
import Mathlib.Data.List.Sort

/-!
# Model of `pymoo/algorithms/moo/nsga3.py`: association, niching, survival

Individuals of the last front are addressed by their position `0, 1, ...` in it. Random permutations are a function `shuffle`
of the number of the draw; the theorems hold for every one that returns a permutation of its argument.
-/

namespace Model

/-- The local variables of `niching` (`nsga3.py:213-261`): survivors, mask, niche counts, number of random draws so far. -/
structure NichState where
  survivors : List ℕ
  mask : ℕ → Bool
  count : ℕ → ℕ
  draws : ℕ

/-- The element of `l` with the smallest distance, the first one of several (`nsga3.py:249`: `np.argmin`). -/
def argminBy (dist : ℕ → ℚ) : List ℕ → Option ℕ
  | [] => none
  | a :: l => some (l.foldl (fun b i => if dist i < dist b then i else b) a)

/-- `nsga3.py:241-259`: the loop over `next_niches`; `L` = the number of individuals. `none` = an exception. -/
def nicheInner (L : ℕ) (niche : ℕ → ℕ) (dist : ℕ → ℚ) (shuffle : ℕ → List ℕ → List ℕ) : List ℕ → NichState → Option NichState
  | [], st => some st
  | k :: ks, st =>
    let ind := shuffle st.draws ((List.range L).filter fun i => decide (niche i = k) && st.mask i)
    let pick := if st.count k = 0 then argminBy dist ind else ind.head?
    pick.bind fun i => nicheInner L niche dist shuffle ks
      ⟨st.survivors ++ [i], Function.update st.mask i false, Function.update st.count k (st.count k + 1), st.draws + 1⟩

/-- `nsga3.py:226-259`: the while loop. `np.unique` sorts and removes repetitions. `none` = an exception (no individual is
left), or not finished after `fuel` rounds. -/
def nichingLoop (L : ℕ) (niche : ℕ → ℕ) (dist : ℕ → ℚ) (shuffle : ℕ → List ℕ → List ℕ) (nRemaining : ℕ) :
    ℕ → NichState → Option NichState
  | 0, st => if st.survivors.length < nRemaining then none else some st
  | fuel + 1, st =>
    if st.survivors.length < nRemaining then
      let nSelect := nRemaining - st.survivors.length
      let niches := (((List.range L).filter st.mask).map niche).dedup.insertionSort (· ≤ ·)
      ((niches.map st.count).min?).bind fun c =>
        let next := (shuffle st.draws (niches.filter fun k => decide (st.count k = c))).take nSelect
        (nicheInner L niche dist shuffle next { st with draws := st.draws + 1 }).bind
          (nichingLoop L niche dist shuffle nRemaining fuel)
    else some st

/-- `nsga3.py:213-261` `niching(pop, n_remaining, niche_count, niche_of_individuals, dist_to_niche)`; the counts are changed in
place, so they are part of the result. -/
def niching (L : ℕ) (niche : ℕ → ℕ) (dist : ℕ → ℚ) (shuffle : ℕ → List ℕ → List ℕ) (count0 : ℕ → ℕ) (nRemaining fuel : ℕ) :
    Option NichState :=
  nichingLoop L niche dist shuffle nRemaining fuel ⟨[], fun _ => true, count0, 0⟩

/-- `nsga3.py:274-275`: the niche of an individual is the first direction with the smallest entry of its row of the distance
matrix (`row`, one entry per direction). -/
def nicheOf (row : List ℚ) : ℕ := argminFirst row

/-- `nsga3.py:280-284` `calc_niche_count`. -/
def calcNicheCount (niches : List ℕ) : ℕ → ℕ := fun k => niches.count k

/-- `nsga3.py:145-209` `ReferenceDirectionSurvival._do` after the sorting and the update of the normalisation: `fronts` is the
result of the sorting, `D i` the row of the distance matrix (`associate_to_niches`) of individual `i`. The result is the list
of survivors and `self.opt`, as individuals of the given population. Positions are those in `np.concatenate(fronts)`. -/
def nsga3Survive {N : ℕ} (fronts : List (List (Fin N))) (D : Fin N → List ℚ) (shuffle : ℕ → List ℕ → List ℕ) (nSurvive fuel : ℕ) :
    Option (List (Fin N) × List (Fin N)) :=
  let I := fronts.flatten
  let row := fun p => ((I[p]?).map D).getD []
  let niche := fun p => nicheOf (row p)
  let dist := fun p => (row p).getD (niche p) 0
  let niches := ((List.range I.length).map niche).dedup
  let closest := niches.map fun k => argminFirst ((List.range I.length).map fun p => (row p).getD k 0)
  let first := List.range (fronts.headD []).length
  let opt0 := first.filter fun p => p ∈ closest
  let opt := (if opt0.length = 0 then first else opt0).filterMap fun p => I[p]?
  if nSurvive < I.length then
    let nUntil := fronts.dropLast.flatten.length
    let count0 := if fronts.length = 1 then fun _ => 0 else calcNicheCount ((List.range nUntil).map niche)
    let nRemaining := if fronts.length = 1 then nSurvive else nSurvive - nUntil
    (niching (I.length - nUntil) (fun p => niche (nUntil + p)) (fun p => dist (nUntil + p)) shuffle count0 nRemaining fuel).map
      fun st => ((List.range nUntil ++ st.survivors.map (nUntil + ·)).filterMap fun p => I[p]?, opt)
  else some (I, opt)

end Model
