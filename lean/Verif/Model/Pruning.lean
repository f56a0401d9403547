import Verif.Model.CTAEA
import Mathlib.Data.List.Sort
import Mathlib.Algebra.Order.Monoid.WithTop
import Mathlib.Algebra.BigOperators.Group.List.Basic
import Mathlib.Algebra.BigOperators.Group.Finset.Defs

/-!
# Model of the pruning crowding metrics

`pymoo/functions/standard/{pruning_cd,mnn}.py` and `FunctionalDiversity` of `pymoo/operators/survival/rank_and_crowding/metrics.py`. Points are numbered `0 .. N - 1`, `x i j` is objective `j` of point `i`.
Floats are an ordered field; distances additionally take the value `⊤` (`np.inf`).
-/

namespace Model

open scoped BigOperators

variable {K : Type*} [Field K] [LinearOrder K] {M : ℕ}

/-- pruning_cd.py 19-25, mnn.py 50-56: the number of removals (only positive values matter). -/
def prCount (N M : ℕ) (nRemove : ℤ) : ℕ := (if nRemove ≤ (N : ℤ) - M then (if nRemove < 0 then 0 else nRemove) else (N : ℤ) - M).toNat

/-- pruning_cd.py 27-33, mnn.py 61-67: `np.argmin` and `np.argmax` of every column. -/
def prExtremes (N : ℕ) (x : ℕ → Fin M → K) : List ℕ :=
  ((List.finRange M).filterMap fun j => npArgmin (fun i => x i j) (List.range N)) ++ (List.finRange M).filterMap fun j => ctaArgmax (fun i => x i j) (List.range N)

/-- `np.min(X, axis=0)[j]` -/
def prLo (N : ℕ) (x : ℕ → Fin M → K) (j : Fin M) : K := ((npArgmin (fun i => x i j) (List.range N)).map fun i => x i j).getD 0

/-- `np.max(X, axis=0)[j]` -/
def prHi (N : ℕ) (x : ℕ → Fin M → K) (j : Fin M) : K := ((ctaArgmax (fun i => x i j) (List.range N)).map fun i => x i j).getD 0

/-- pruning_cd.py 35, mnn.py 69: `(X - min_vals) / (max_vals - min_vals)`; a column without spread is NaN, see the users. -/
def prNorm (N : ℕ) (x : ℕ → Fin M → K) (i : ℕ) (j : Fin M) : K := (x i j - prLo N x j) / (prHi N x j - prLo N x j)

/-- pruning_cd.py 40-43: the points `H` in the order of one column; the sort is stable, so equal values are ordered by their number. -/
def prSorted (v : ℕ → K) (H : List ℕ) : List ℕ := H.insertionSort fun a b => v a < v b ∨ (v a = v b ∧ a ≤ b)

/-- pruning_cd.py 46-50, 58: distance to the previous point in the order of the column. -/
def prLast (v : ℕ → K) (H : List ℕ) (i : ℕ) : WithTop K :=
  let S := prSorted v H
  let p := S.idxOf i
  if p = 0 then ⊤ else ((v i - v (S.getD (p - 1) 0) : K) : WithTop K)

/-- pruning_cd.py 46-50, 58: distance to the next point in the order of the column. -/
def prNext (v : ℕ → K) (H : List ℕ) (i : ℕ) : WithTop K :=
  let S := prSorted v H
  let p := S.idxOf i
  if p + 1 < S.length then ((v (S.getD (p + 1) 0) - v i : K) : WithTop K) else ⊤

/-- pruning_cd.py 40-58, 73-86: the distances with respect to the points `H`; a column without spread is NaN throughout and contributes `0.0` (lines 53-54). -/
def pcdOn (N : ℕ) (x : ℕ → Fin M → K) (H : List ℕ) (i : ℕ) : WithTop K :=
  ((List.finRange M).map fun j => if prLo N x j = prHi N x j then 0 else prLast (fun i => prNorm N x i j) H i + prNext (fun i => prNorm N x i j) H i).sum

/-- `d[H] = _d; d[extremes] = np.inf` (pruning_cd.py 59-60, 87-88; mnn.py 96-97). -/
def prAssign (D : List ℕ → ℕ → WithTop K) (E H : List ℕ) (d : ℕ → WithTop K) : ℕ → WithTop K := fun i => if i ∈ E then ⊤ else if i ∈ H then D H i else d i

/-- The loop that removes points (pruning_cd.py 62-88, mnn.py 81-97): the remaining points and the distances after `r` removals. -/
def prLoop (D : List ℕ → ℕ → WithTop K) (E : List ℕ) : ℕ → List ℕ × (ℕ → WithTop K) → List ℕ × (ℕ → WithTop K)
  | 0, s => s
  | r + 1, s =>
    match npArgmin s.2 s.1 with
    | none => s
    | some k =>
      let H := s.1.filter fun i => decide (i ≠ k)
      prLoop D E r (H, prAssign D E H s.2)

/-- The result of the pruning with the metric `D`: the points that were not removed, and all distances. -/
def prRun (D : List ℕ → ℕ → WithTop K) (E : List ℕ) (N count : ℕ) : List ℕ × (ℕ → WithTop K) :=
  prLoop D E (count - 1) (List.range N, prAssign D E (List.range N) fun _ => ⊤)

/-- `calc_pcd(X, n_remove)` (pruning_cd.py 6-90). -/
def calcPcd (N : ℕ) (x : ℕ → Fin M → K) (nRemove : ℤ) : ℕ → WithTop K := (prRun (pcdOn N x) (prExtremes N x) N (prCount N M nRemove)).2

/-- One entry of the matrix of squared Euclidean distances (mnn.py 73). -/
def mnnDist (N : ℕ) (x : ℕ → Fin M → K) (i a : ℕ) : K := ∑ j, (prNorm N x i j - prNorm N x a j) ^ 2

/-- mnn.py 74-75, 94-96: the product of the entries `1 .. nb` of the sorted row of distances to the points `H` (entry `0` is the point itself; removed points are at infinity). -/
def mnnOn (dist : ℕ → ℕ → K) (nb : ℕ) (H : List ℕ) (i : ℕ) : WithTop K :=
  let row := (H.map (dist i)).insertionSort (· ≤ ·)
  if nb < row.length then (((row.drop 1).take nb).prod : K) else ⊤

/-- `calc_mnn_base(X, n_remove, twonn)` (mnn.py 33-99); `none`: a column without spread makes all distances NaN. -/
def calcMnn (N : ℕ) (x : ℕ → Fin M → K) (nRemove : ℤ) (twonn : Bool) : Option (ℕ → WithTop K) :=
  if N ≤ M then some fun _ => ⊤
  else if ∃ j, prLo N x j = prHi N x j then none
  else some (prRun (mnnOn (mnnDist N x) (if twonn then 2 else M)) (prExtremes N x) N (prCount N M nRemove)).2

/-- `find_duplicates` (misc.py 408-424) and metrics.py 52-69: points that are not a duplicate of an earlier one get the value computed among these, duplicates get `0`. `close i k` is the test `D <= epsilon`. -/
def functionalDiversity (close : ℕ → ℕ → Bool) (filterDup : Bool) (N : ℕ) (x : ℕ → Fin M → K) (f : (N : ℕ) → (ℕ → Fin M → K) → ℕ → WithTop K) : ℕ → WithTop K :=
  if N ≤ 2 then fun _ => ⊤
  else
    let uniq := if filterDup then (List.range N).filter fun i => !((List.range i).any fun k => close i k) else List.range N
    fun i => if i ∈ uniq then f uniq.length (fun p => x (uniq.getD p 0)) (uniq.idxOf i) else 0

end Model
