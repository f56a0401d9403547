import Verif.Model.Pruning
import Mathlib.Analysis.SpecialFunctions.Log.Basic

/-!
# Model of the crowding entropy and of the fast nearest-neighbour metrics

`pymoo/operators/survival/rank_and_crowding/metrics.py` 121-211. Points are numbered `0 .. N - 1`, `x i j` is objective `j` of point `i`. Floats are reals (an ordered field for the fast metrics), `⊤` is
`np.inf`, `none` a NaN.
-/

namespace Model

open scoped BigOperators

variable {M : ℕ}

/-- metrics.py 159-160: a share `d / cd`; `0 / 0` is NaN. -/
noncomputable def ceShare (d cd : ℝ) : Option ℝ := if cd = 0 then none else some (d / cd)

/-- metrics.py 166: `p * np.log2(p)`; `np.log2(0)` is `-inf` and `0 * -inf` is NaN. -/
noncomputable def ceLog (p : ℝ) : Option ℝ := if p = 0 then none else some (p * (Real.log p / Real.log 2))

/-- metrics.py 156, 159-160, 166: the entropy of an inner point with the distances `dl` and `du` to its neighbours. -/
noncomputable def ceEntropy (dl du : ℝ) : Option ℝ := do
  let pl ← ceShare dl (dl + du)
  let pu ← ceShare du (dl + du)
  let a ← ceLog pl
  let b ← ceLog pu
  pure (-(a + b))

/-- metrics.py 145, 156, 163-174: the contribution of one objective. The norm of an objective without spread is NaN, so is the product, and it becomes `0.0` (line 174); the first and the last point have
`cd = inf` and `entropy = inf`; a NaN entropy gives `0.0`. -/
noncomputable def ceTerm (norm : ℝ) (dl du : WithTop ℝ) : WithTop ℝ :=
  if norm = 0 then 0
  else match dl, du with
    | some dl, some du => (((ceEntropy dl du).map fun e => (dl + du) * e / norm).getD 0 : ℝ)
    | _, _ => ⊤

/-- `calc_crowding_entropy(F)` (metrics.py 121-177). The stable sort of every column (line 136) is the one of `prSorted`; the distances of lines 141, 148-149 are `prLast` and `prNext`, as in `calc_pcd`; differences of
finite numbers are never NaN (lines 152-153). -/
noncomputable def calcCe (N : ℕ) (x : ℕ → Fin M → ℝ) (i : ℕ) : WithTop ℝ :=
  ((List.finRange M).map fun j => ceTerm (prHi N x j - prLo N x j) (prLast (fun a => x a j) (List.range N) i) (prNext (fun a => x a j) (List.range N) i)).sum

variable {K : Type*} [Field K] [LinearOrder K]

/-- metrics.py 191-195: the normalised objectives; the norm of an objective without spread is `1.0`. -/
def fastNorm (N : ℕ) (x : ℕ → Fin M → K) (i : ℕ) (j : Fin M) : K :=
  let norm := prHi N x j - prLo N x j
  (x i j - prLo N x j) / (if norm = 0 then 1 else norm)

/-- metrics.py 198: one entry of the matrix of squared distances. -/
def fastDist (N : ℕ) (x : ℕ → Fin M → K) (i a : ℕ) : K := ∑ j, (fastNorm N x i j - fastNorm N x a j) ^ 2

/-- metrics.py 188-211 `_calc_mnn_fast(F, n_neighbors)`: `np.partition` raises (`none`) if there is no entry number `M` in a row (line 202). The number of neighbours asked for is not used: line 201 overwrites it. -/
def mnnFastBase (N : ℕ) (x : ℕ → Fin M → K) (_nNeighbors : ℕ) : Option (ℕ → WithTop K) :=
  if N ≤ M then none
  else some fun i =>
    if i ∈ prExtremes N (fastNorm N x) then ⊤
    else (((((((List.range N).map (fastDist N x i)).insertionSort (· ≤ ·)).drop 1).take M).prod : K) : WithTop K)

/-- metrics.py 180-181 `calc_mnn_fast(F)`. -/
def mnnFast (N : ℕ) (x : ℕ → Fin M → K) : Option (ℕ → WithTop K) := mnnFastBase N x M

/-- metrics.py 184-185 `calc_2nn_fast(F)`. -/
def twonnFast (N : ℕ) (x : ℕ → Fin M → K) : Option (ℕ → WithTop K) := mnnFastBase N x 2

end Model
