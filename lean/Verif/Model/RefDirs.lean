import Mathlib.Data.Rat.Defs
import Mathlib.Algebra.Order.Ring.Rat
import Mathlib.Algebra.BigOperators.Group.List.Basic
import Mathlib.Data.Nat.Choose.Basic
import Mathlib.Data.List.Sort
import Mathlib.Data.List.Lex

/-!
# Model of `pymoo/util/reference_direction.py` and `pymoo/util/ref_dirs/das_dennis.py`

Floating point numbers are rationals; `special.binom` is the binomial coefficient (`Nat.choose`), `int(...)` of it is exact.
A point is a list of coordinates.
-/

namespace Model

/-- `reference_direction.py:119-129` `get_number_of_uniform_points(n_partitions, n_dim)`, for `n_dim + n_partitions ≥ 1`. -/
def numUniform (nPartitions nDim : ℕ) : ℕ := (nDim + nPartitions - 1).choose nPartitions

/-- `reference_direction.py:145-149`: the loop; `none` = not finished after `fuel` rounds. -/
def nPartitionLoop (nPoints nDim : ℕ) : ℕ → ℕ → Option ℕ
  | 0, _ => none
  | fuel + 1, p => if numUniform p nDim ≤ nPoints then nPartitionLoop nPoints nDim fuel (p + 1) else some (p - 1)

/-- `reference_direction.py:132-150` `get_partition_closest_to_points(n_points, n_dim)`. -/
def partitionClosest (fuel nPoints nDim : ℕ) : Option ℕ :=
  if nDim = 1 then some 0 else nPartitionLoop nPoints nDim fuel 1

/-- `reference_direction.py:172-194` `das_dennis_recursion`: `rest` is the number of coordinates after the current one,
`pre` the coordinates before it. -/
def ddRec (p : ℕ) : ℕ → ℕ → List ℚ → List (List ℚ)
  | 0, beta, pre => [pre ++ [(beta : ℚ) / p]]
  | rest + 1, beta, pre => (List.range (beta + 1)).flatMap fun i => ddRec p rest (beta - i) (pre ++ [(i : ℚ) / p])

/-- `reference_direction.py:153-169` `das_dennis(n_partitions, n_dim)`, for `n_dim ≥ 1`. -/
def dasDennis (p nDim : ℕ) : List (List ℚ) :=
  if p = 0 then [List.replicate nDim (1 / (nDim : ℚ))] else ddRec p (nDim - 1) p []

/-- `reference_direction.py:392-402` `scale_reference_directions`, one point. -/
def scalePoint (scaling : ℚ) (x : List ℚ) : List ℚ := x.map fun v => v * scaling + (1 - scaling) / x.length

/-- `reference_direction.py:200-245`: the number of partitions of the uniform factory from its arguments; `none` = an
exception (or `get_partition_closest_to_points` does not return). -/
def uniformPartitions (fuel nDim : ℕ) (nPoints nPartitions : Option ℕ) : Option ℕ :=
  match nPoints, nPartitions with
  | some k, _ =>
    match partitionClosest fuel k nDim with
    | none => none
    | some p => if numUniform p nDim ≠ k then none else some p
  | none, some p => some p
  | none, none => none

/-- `reference_direction.py:74-105` `ReferenceDirectionFactory.do` for the uniform factory: `np.lexsort` with the first
coordinate most significant is the (stable) lexicographic order of the points. -/
def uniformDo (p nDim : ℕ) (scaling : Option ℚ) (lexsort : Bool) : List (List ℚ) :=
  if nDim = 1 then [[1]]
  else
    let r := dasDennis p nDim
    let r := match scaling with
      | some s => r.map (scalePoint s)
      | none => r
    if lexsort then r.insertionSort (· ≤ ·) else r

/-- `reference_direction.py:287-298` `MultiLayerReferenceDirectionFactory.do`: the points of all layers without those that
are within `1e-16` (`near`) of an earlier point (`misc.py:408-424`). -/
def multiLayer (near : List ℚ → List ℚ → Bool) (layers : List (List (List ℚ))) : List (List ℚ) :=
  let R := layers.flatten
  (R.zipIdx.filter fun xi => !(R.take xi.2).any (near xi.1)).map Prod.fst

/-! ### The iterator -/

/-- The fields of `DasDennis` (`das_dennis.py:8-15`): the stack, top first. -/
abbrev DDStack := List (List ℚ × ℕ)

/-- `das_dennis.py:14-15`. -/
def ddInit (p : ℕ) : DDStack := [([], p)]

/-- `das_dennis.py:33-52`, the loop of `traverse`: returns the stack left and the points passed to `func`. `limit = none` is
`n_points = None`; `none` = not finished after `fuel` rounds. -/
def ddTraverse (p nDim : ℕ) (scaling : Option ℚ) : ℕ → Option ℕ → DDStack → Option (DDStack × List (List ℚ))
  | 0, limit, stack => if limit = some 0 ∨ stack = [] then some (stack, []) else none
  | fuel + 1, limit, stack =>
    if limit = some 0 then some (stack, [])
    else
      match stack with
      | [] => some ([], [])
      | (point, beta) :: rest =>
        if point.length + 1 = nDim then
          let q := point ++ [(beta : ℚ) / p]
          let q := match scaling with
            | some s => scalePoint s q
            | none => q
          (ddTraverse p nDim scaling fuel (limit.map (· - 1)) rest).map fun r => (r.1, q :: r.2)
        else
          ddTraverse p nDim scaling fuel limit
            ((List.range (beta + 1)).foldl (fun (st : DDStack) (i : ℕ) => (point ++ [(i : ℚ) / p], beta - i) :: st) rest)

/-- `das_dennis.py:20-23,28-31` `next(n_points)`: with `n_partitions == 0` `traverse` returns at once. -/
def ddNext (p nDim : ℕ) (scaling : Option ℚ) (fuel : ℕ) (limit : Option ℕ) (stack : DDStack) :
    Option (DDStack × List (List ℚ)) :=
  if p = 0 then some (stack, []) else ddTraverse p nDim scaling fuel limit stack

/-! ### Sampling on the simplex -/

/-- `reference_direction.py:369-370` `map_onto_unit_simplex(rnd, "sum")`, one row. -/
def simplexSum (row : List ℚ) : List ℚ := row.map fun v => v / row.sum

/-- `reference_direction.py:382-384`: the differences of consecutive entries. -/
def diffs : List ℚ → List ℚ
  | a :: b :: l => (b - a) :: diffs (b :: l)
  | _ => []

/-- `reference_direction.py:372-385` `map_onto_unit_simplex(rnd, "kraemer")`, one row of length `n_dim`; `M` is
`sys.maxsize`. The code also multiplies the caller's array by `M` in place (line 375). -/
def simplexKraemer (M : ℚ) (row : List ℚ) : List ℚ :=
  let r := (row.map (· * M)).take (row.length - 1)
  (diffs ((0 :: r ++ [M]).insertionSort (· ≤ ·))).map (· / M)

/-! ### Selection of distant points -/

/-- `np.argmax` of a list of values: the first position of the largest; `0` if empty (the code raises). -/
def argmaxFirst (l : List ℚ) : ℕ := (l.zipIdx.foldl (fun b e => if b.1 < e.1 then e else b) (l.headD 0, 0)).2

/-- `reference_direction.py:442-453`: the loop, `fuel` = the number of points still to select. -/
def maxDistLoop (D : ℕ → ℕ → ℚ) : ℕ → List ℕ → List ℕ → (ℕ → ℚ) → List ℕ
  | 0, selected, _, _ => selected
  | fuel + 1, selected, notSelected, dist =>
    let pos := argmaxFirst (notSelected.map dist)
    let I := notSelected.getD pos 0
    let dist' := fun i => if D I i < dist i then D I i else dist i
    maxDistLoop D fuel (selected ++ [I])
      ((notSelected.zipIdx.filter fun e => e.1 ≠ pos).map Prod.snd) dist'

/-- `reference_direction.py:405-455` `select_points_with_maximum_distance(X, n_select, selected)`, with the distance matrix
`D` of the points and a non-empty start. -/
def selectMaxDist (D : ℕ → ℕ → ℚ) (nPoints nSelect : ℕ) (selected : List ℕ) : List ℕ :=
  maxDistLoop D (nSelect - selected.length) selected ((List.range nPoints).filter fun i => i ∉ selected)
    fun i => ((selected.map fun j => D i j).min?).getD 0

end Model
