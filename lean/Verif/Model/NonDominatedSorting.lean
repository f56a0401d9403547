import Verif.Model.FastNDS

/-!
# Model of `pymoo/util/nds/non_dominated_sorting.py`

moocore's `pareto_rank` is an argument `paretoRank` (external compiled code); its contract is
`Spec.IsParetoRank`. The three result shapes of `NonDominatedSorting.do` are three functions.
-/

namespace Model

variable {n m : ℕ} {α : Type*}

/-- `sys.maxsize` on a 64-bit build, the default of `rank_from_fronts` (line 75). -/
def maxsize : ℕ := 2 ^ 63 - 1

/-- Lines 73-79 `rank_from_fronts(fronts, n)`. -/
def rankFromFronts (fronts : List (List (Fin n))) : Fin n → ℕ :=
  fronts.zipIdx.foldl (fun rank (front, i) => fun p => if p ∈ front then i else rank p) (fun _ => maxsize)

/-- `ranks.max()` (line 39). -/
def ranksMax (ranks : Fin n → ℕ) : ℕ := ((List.finRange n).map ranks).foldl max 0

/-- Lines 39-46: the loop over `r in range(ranks.max() + 1)` with its two `break`s. -/
def nativeLoop (ranks : Fin n → ℕ) (nFronts stop : Option ℕ) :
    List ℕ → List (List (Fin n)) → ℕ → List (List (Fin n))
  | [], fronts, _ => fronts
  | r :: rs, fronts, nRanked =>
    if nFronts.any (fun k => decide (k ≤ r)) then fronts
    else
      let front := (List.finRange n).filter (fun i => decide (ranks i = r))
      let fronts := fronts ++ [front]
      let nRanked := nRanked + front.length
      if stop.any (fun k => decide (k ≤ nRanked)) then fronts
      else nativeLoop ranks nFronts stop rs fronts nRanked

/-- Lines 55-61: the loop over the fronts of `fast_non_dominated_sort` with its one `break`. -/
def dominatorLoop (stop : ℕ) : List (List (Fin n)) → List (List (Fin n)) → ℕ → List (List (Fin n))
  | [], fronts, _ => fronts
  | front :: raw, fronts, nRanked =>
    let fronts := fronts ++ [front]
    let nRanked := nRanked + front.length
    if stop ≤ nRanked then fronts else dominatorLoop stop raw fronts nRanked

/-- The attribute `self.dominator`: absent (moocore is used), or an object that supplies a domination matrix
for `F` (lines 34 and 47). -/
abbrev NdsDominator (n m : ℕ) (α : Type*) := Option ((Fin n → Fin m → α) → Fin n → Fin n → ℤ)

/-- Line 35: `F - self.epsilon if self.epsilon is not None else F`. -/
def shiftF [Sub α] (epsilon : Option α) (F : Fin n → Fin m → α) : Fin n → Fin m → α :=
  match epsilon with
  | some e => fun i c => F i c - e
  | none => F

/-- Lines 29-61: the fronts computed by `NonDominatedSorting(epsilon, dominator=...).do(F, ...)` before the
result is shaped; `nFronts` already takes `only_non_dominated_front` into account. `none` = the sorting of the
given domination matrix does not terminate within `fuel` rounds. -/
def ndsFronts [Sub α] (paretoRank : (Fin n → Fin m → α) → Fin n → ℕ) (dominator : NdsDominator n m α)
    (epsilon : Option α) (fuel : ℕ) (F : Fin n → Fin m → α) (nFronts stop : Option ℕ) :
    Option (List (List (Fin n))) :=
  if n = 0 then some []
  else
    match dominator with
    | none =>
      let ranks := paretoRank (shiftF epsilon F)
      some (nativeLoop ranks nFronts stop (List.range (ranksMax ranks + 1)) [] 0)
    | some d =>
      -- `n_fronts` is set to a default in lines 50-51 but never looked at again
      (fastFromMatrix fuel (d F)).map fun raw => dominatorLoop (stop.getD 100000000) raw [] 0

/-- Lines 63-64: `do(F, only_non_dominated_front=True)`. -/
def ndsFirst [Sub α] (paretoRank : (Fin n → Fin m → α) → Fin n → ℕ) (dominator : NdsDominator n m α)
    (epsilon : Option α) (fuel : ℕ) (F : Fin n → Fin m → α) : Option (List (Fin n)) :=
  (ndsFronts paretoRank dominator epsilon fuel F (some 1) none).map fun fronts =>
    match fronts with
    | [] => []
    | f :: _ => f

/-- Lines 66-68: `do(F, return_rank=True, ...)`. -/
def ndsWithRank [Sub α] (paretoRank : (Fin n → Fin m → α) → Fin n → ℕ) (dominator : NdsDominator n m α)
    (epsilon : Option α) (fuel : ℕ) (F : Fin n → Fin m → α) (nFronts stop : Option ℕ) :
    Option (List (List (Fin n)) × (Fin n → ℕ)) :=
  (ndsFronts paretoRank dominator epsilon fuel F nFronts stop).map fun fronts => (fronts, rankFromFronts fronts)

end Model
