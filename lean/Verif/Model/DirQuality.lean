import Verif.Model.Distances
import Verif.Model.RefDirs
import Verif.Model.Sampling
import Mathlib.Analysis.SpecialFunctions.Pow.Real
import Mathlib.Data.Real.Sqrt

/-!
Quality measures of reference directions: `util/ref_dirs/performance.py`, and the random factory `util/ref_dirs/sample_and_map.py`.
Real numbers instead of floats; `none` stands for an exception, an infinite value or `nan`. `triangulation` and
`simplex_edge_difference` (a Delaunay triangulation of qhull) are not modelled, `row_vecs=False` (a transposition before and after) neither.
-/

namespace Model

variable {d : ℕ}

/-- `ndarray.mean()`: `nan` without an entry. -/
noncomputable def dqMean (l : List ℝ) : Option ℝ := if l = [] then none else some (l.sum / l.length)

/-- `ndarray.var()`. -/
noncomputable def dqVar (l : List ℝ) : Option ℝ := (dqMean l).map fun m => (l.map fun v => (v - m) ^ (2 : ℕ)).sum / l.length

/-- `misc.py` `vectorized_cdist`, one entry. -/
noncomputable def dqDist (u v : Fin d → ℝ) : ℝ := √(∑ k, (u k - v k) ^ (2 : ℕ))

/-- `np.triu_indices(n, 1)`: the pairs of different rows, in row-major order. -/
def dqPairs {A : Type*} : List A → List (A × A)
  | [] => []
  | a :: l => l.map (fun b => (a, b)) ++ dqPairs l

/-- `performance.py:30-41` `average_distance_to_other_points`. -/
noncomputable def averageDistance (z : List (Fin d → ℝ)) : Option ℝ := dqMean ((dqPairs z).map fun p => dqDist p.1 p.2)

/-- `performance.py:53-55` (also `74-76`, `96-98`, `123-125`): the unit vectors that are missing are appended. -/
noncomputable def addCorners (z : List (Fin d → ℝ)) : List (Fin d → ℝ) := by
  classical exact ((List.finRange d).map fun i => (Pi.single i 1 : Fin d → ℝ)).foldl (fun z row => if row ∈ z then z else z ++ [row]) z

/-- The row `i` of the distance matrix with `diag` on the diagonal (`none` = infinity; an infinite entry is left out). -/
noncomputable def rowDists (diag : Option ℝ) (z : List (Fin d → ℝ)) (i : ℕ) : List ℝ :=
  (List.range z.length).filterMap fun j => if i = j then diag else some (dqDist (z.getD i 0) (z.getD j 0))

/-- A row of the distance matrix in ascending order. -/
noncomputable def sortedRow (diag : Option ℝ) (z : List (Fin d → ℝ)) (i : ℕ) : List ℝ := by
  classical exact (rowDists diag z i).insertionSort (· ≤ ·)

/-- `performance.py:17-27` `distance_of_closest_point` with `misc.py:620-631`: the smallest entry of the matrix with an infinite diagonal. -/
noncomputable def distanceOfClosest (z : List (Fin d → ℝ)) : Option ℝ :=
  (((List.range z.length).flatMap fun i => rowDists none z i)).min?

/-- `performance.py:44-60` `closest_point_variance`: the diagonal is filled with 1. -/
noncomputable def closestPointVariance (z : List (Fin d → ℝ)) : Option ℝ :=
  let z := addCorners z
  ((List.range z.length).mapM fun i => (rowDists (some 1) z i).min?) >>= dqVar

/-- `performance.py:63-84` `closest_point_variance_mod`: `n_points` is taken before the unit vectors are appended. -/
noncomputable def closestPointVarianceMod (z : List (Fin d → ℝ)) : Option ℝ :=
  let nPoints := z.length
  let z := addCorners z
  let k := ⌈√(d : ℝ)⌉₊
  ((List.range nPoints).mapM fun i => (sortedRow none z i)[k - 1]?) >>= dqVar

/-- `performance.py:131-134` (`104-107`): the `d - 1` nearest distances; no neighbour at all raises in `np.column_stack`, an infinite entry
gives `none`. -/
noncomputable def nearRow (z : List (Fin d → ℝ)) (i : ℕ) : Option (List ℝ) :=
  if d - 1 = 0 ∨ (sortedRow none z i).length < d - 1 then none else some ((sortedRow none z i).take (d - 1))

/-- `performance.py:114-138` `mean_mean`. -/
noncomputable def meanMean (z : List (Fin d → ℝ)) : Option ℝ :=
  let z := addCorners z
  ((List.range z.length).mapM fun i => nearRow z i >>= dqMean) >>= dqMean

/-- `performance.py:87-111` `geometric_mean_var`; `gmean` is the root of the product (zero if an entry is zero). -/
noncomputable def geometricMeanVar (z : List (Fin d → ℝ)) : Option ℝ :=
  let z := addCorners z
  ((List.range z.length).mapM fun i => (nearRow z i).map fun l => l.prod ^ ((1 : ℝ) / l.length)) >>= dqVar

/-- `performance.py:141-153` `potential_energy`: a zero row sum or two equal normalised rows divide by zero. -/
noncomputable def potentialEnergy (x : List (Fin d → ℝ)) : Option ℝ := by
  classical exact
    if (∀ r ∈ x, ∑ k, r k ≠ 0) then
      let x' := x.map fun r k => r k / ∑ k, r k
      let D := (dqPairs x').map fun p => ∑ k, (p.1 k - p.2 k) ^ (2 : ℕ)
      if 0 ∈ D then none else dqMean (D.map fun v => 1 / v)
    else none

/-- `performance.py:199-201`: one row is appended; `none` = a division by a zero norm. -/
noncomputable def gsStep (Y : List (Fin d → ℝ)) (x : Fin d → ℝ) : Option (List (Fin d → ℝ)) := by
  classical exact
    if 0 ∈ Y.map rowLen then none
    else some (Y ++ [fun k => x k - (Y.map fun y => (∑ m, x m * y m) / rowLen y ^ (2 : ℕ) * y k).sum])

/-- `performance.py:185-207` `gram_schmidt` with `row_vecs=True`. -/
noncomputable def gramSchmidt (X : List (Fin d → ℝ)) (norm : Bool := true) : Option (List (Fin d → ℝ)) := by
  classical exact
    ((X.drop 1).foldlM gsStep (X.take 1)) >>= fun Y =>
      if norm then (if 0 ∈ Y.map rowLen then none else some (Y.map fun y k => 1 / rowLen y * y k)) else some Y

/-- `performance.py:231-234`: the rows `E[1:] - E[0]`. -/
noncomputable def simplexEdges (n : ℕ) : List (Fin (n + 1) → ℝ) :=
  (List.finRange n).map fun i k => (Pi.single i.succ 1 : Fin (n + 1) → ℝ) k - (Pi.single 0 1 : Fin (n + 1) → ℝ) k

/-- `performance.py:222-235` `project_onto_one_dim_less`, one row of `X`. -/
noncomputable def projectRow {n : ℕ} (x : Fin (n + 1) → ℝ) : Option (List ℝ) :=
  (gramSchmidt (simplexEdges n)).map fun O => O.map fun o => ∑ k, (x k - (Pi.single 0 1 : Fin (n + 1) → ℝ) k) * o k

/-- `performance.py:177-179`: the loop of `iterative_igd`; `near p` is the distance of `p` to the nearest row of `X`, `none` = not finished
after `rounds` rounds. -/
def igdLoop (near : List ℚ → ℝ) (p nDim : ℕ) (fuel batch : ℕ) : ℕ → DDStack → ℝ → Option ℝ
  | rounds, stack, val =>
    if stack = [] then some val
    else match rounds with
      | 0 => none
      | r + 1 =>
        match ddNext p nDim (some (3 / 2)) fuel (some batch) stack with
        | none => none
        | some (stack', points) => igdLoop near p nDim fuel batch r stack' (val + (points.map near).sum)

/-- `performance.py:156-182` `iterative_igd(X, n_partitions, batch_size)`; `closest` stands for the call of
`get_partition_closest_to_points`. -/
noncomputable def iterativeIgd (near : List ℚ → ℝ) (closest : ℕ → ℕ → ℕ) (nPoints nDim : ℕ) (nPartitions : Option ℕ) (batch : ℕ)
    (fuel rounds : ℕ) : Option ℝ :=
  let p := match nPartitions with
    | none => closest (nPoints * nDim * 10) nDim + 1
    | some p => p
  (igdLoop near p nDim fuel batch rounds (ddInit p) 0).map fun v => v / numUniform p nDim

/-- `sample_and_map.py:33-53` `RandomSamplingAndMap._do`: `sample m` is the result of the Latin hypercube sampling of `m` points;
a negative number of points raises, and so does the criterion (`np.min` of an empty matrix, `lhs.py:19-21`) for none. -/
def sampleAndMap (M : ℚ) (nDim nPoints : ℕ) (sample : (m : ℕ) → Fin m → Fin nDim → ℚ) : Option (List (List ℚ)) :=
  if nPoints ≤ nDim then none
  else
    let x := (List.finRange (nPoints - nDim)).map fun i => List.ofFn (sample (nPoints - nDim) i)
    let x := x.map (simplexKraemer M)
    some (x ++ (List.finRange nDim).map fun i => List.ofFn fun j : Fin nDim => if i = j then (1 : ℚ) else 0)

/-- `reference_direction.py:74-104` `ReferenceDirectionFactory.do` on top of it. -/
def sampleAndMapDo (M : ℚ) (nDim nPoints : ℕ) (scaling : Option ℚ) (lexsort : Bool) (sample : (m : ℕ) → Fin m → Fin nDim → ℚ) :
    Option (List (List ℚ)) :=
  if nDim = 1 then some [[1]]
  else (sampleAndMap M nDim nPoints sample).map fun r =>
    let r := match scaling with
      | some s => r.map (scalePoint s)
      | none => r
    if lexsort then r.insertionSort (· ≤ ·) else r

end Model
