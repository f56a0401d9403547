import Verif.Model.Dominator

/-!
# Model of `fast_non_dominated_sort`

`pymoo/functions/standard/non_dominated_sorting.py:11-90` and the identical algorithm in
`pymoo/util/nds/fast_non_dominated_sort.py`. The dominance matrix is a function `M : Fin n → Fin n → ℤ`;
numpy arrays indexed by points are functions `Fin n → _`. The array `ranked` of the code is write-only and is
left out. The `while` loop is run with fuel; running out of fuel is the explicit result `none`
(the theorems show that `n` rounds always suffice).
-/

namespace Model

variable {n : ℕ}

/-- Local variables of the counting phase (lines 43-53). -/
structure FastState (n : ℕ) where
  isDominating : Fin n → List (Fin n)
  nDominated : Fin n → ℤ
  currentFront : List (Fin n)
  nRanked : ℕ

/-- Lines 43-53: initial values. -/
def FastState.init : FastState n :=
  { isDominating := fun _ => [], nDominated := fun _ => 0, currentFront := [], nRanked := 0 }

/-- Lines 57-63: body of the inner loop for the pair `(i, j)`. -/
def fastPair (M : Fin n → Fin n → ℤ) (i : Fin n) (s : FastState n) (j : Fin n) : FastState n :=
  if M i j = 1 then
    { s with
      isDominating := Function.update s.isDominating i (s.isDominating i ++ [j])
      nDominated := Function.update s.nDominated j (s.nDominated j + 1) }
  else if M i j = -1 then
    { s with
      isDominating := Function.update s.isDominating j (s.isDominating j ++ [i])
      nDominated := Function.update s.nDominated i (s.nDominated i + 1) }
  else s

/-- Lines 55-68: body of the outer loop; `range(i + 1, n)` is the list of the `j > i`. -/
def fastRow (M : Fin n → Fin n → ℤ) (s : FastState n) (i : Fin n) : FastState n :=
  let s := ((List.finRange n).filter (fun j => decide (i < j))).foldl (fastPair M i) s
  if s.nDominated i = 0 then
    { s with currentFront := s.currentFront ++ [i], nRanked := s.nRanked + 1 }
  else s

/-- Lines 55-68: the counting phase. -/
def fastInit (M : Fin n → Fin n → ℤ) : FastState n :=
  (List.finRange n).foldl (fastRow M) FastState.init

/-- Local variables of one round of the `while` loop (lines 74-88). -/
structure PeelState (n : ℕ) where
  nDominated : Fin n → ℤ
  nextFront : List (Fin n)
  nRanked : ℕ

/-- Lines 81-85: decrement the counter of `j`; on reaching zero it joins the next front. -/
def peelDec (s : PeelState n) (j : Fin n) : PeelState n :=
  let c := s.nDominated j - 1
  let nd := Function.update s.nDominated j c
  if c = 0 then { nDominated := nd, nextFront := s.nextFront ++ [j], nRanked := s.nRanked + 1 }
  else { s with nDominated := nd }

/-- Lines 75-85: one round of the `while` loop. -/
def peelRound (isDominating : Fin n → List (Fin n)) (current : List (Fin n)) (nDominated : Fin n → ℤ)
    (nRanked : ℕ) : PeelState n :=
  current.foldl (fun s i => (isDominating i).foldl peelDec s)
    { nDominated := nDominated, nextFront := [], nRanked := nRanked }

/-- Lines 74-90: the `while n_ranked < n` loop with fuel; `fronts` already contains `current`. -/
def peelLoop (isDominating : Fin n → List (Fin n)) :
    ℕ → (current : List (Fin n)) → (nDominated : Fin n → ℤ) → (nRanked : ℕ) → (fronts : List (List (Fin n))) →
    Option (List (List (Fin n)))
  | 0, _, _, nRanked, fronts => if nRanked < n then none else some fronts
  | fuel + 1, current, nDominated, nRanked, fronts =>
    if nRanked < n then
      let r := peelRound isDominating current nDominated nRanked
      peelLoop isDominating fuel r.nextFront r.nDominated r.nRanked (fronts ++ [r.nextFront])
    else some fronts

/-- Lines 33-90: everything after the early exits, for the dominance matrix `M`
(also `pymoo/util/nds/fast_non_dominated_sort.py`). -/
def fastFromMatrix (fuel : ℕ) (M : Fin n → Fin n → ℤ) : Option (List (List (Fin n))) :=
  if n = 0 then some []
  else
    let s := fastInit M
    peelLoop s.isDominating fuel s.currentFront s.nDominated s.nRanked [s.currentFront]

/-- Lines 11-90 with `native_biobj_sorting=False`: `F.size == 0` returns no fronts, one point is its own
front, otherwise `dominator.calc_domination_matrix` is computed and peeled. -/
def fastNonDominatedSort {α : Type*} [LinearOrder α] [AddCommGroup α] {m : ℕ} (fuel : ℕ)
    (F : Fin n → Fin m → α) : Option (List (List (Fin n))) :=
  if n * m = 0 then some []
  else if n ≤ 1 then some (if n = 1 then [List.finRange n] else [])
  else fastFromMatrix fuel (dominationMatrix F F 0)

end Model
