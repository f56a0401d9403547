import Mathlib.Algebra.Order.Field.Basic
import Mathlib.Algebra.BigOperators.Group.List.Basic
import Mathlib.Analysis.Real.Sqrt

/-!
# Model of `pymoo/core/decomposition.py` and `pymoo/decomposition/*.py`

Numbers are elements of an ordered field `K` (real numbers where a square root is needed). A scalarisation `_do` of the code
acts on matrices row by row; here it is a function of one row `f` of `F` and one row `w` of `weights`.
-/

namespace Model

section Scalar
variable {K : Type*} [Field K] [LinearOrder K]

/-- `np.max` of a row; `0` if empty (the code raises). -/
def rowMax (l : List K) : K := (l.max?).getD 0

/-- `weighted_sum.py:8-9`. -/
def weightedSum (f w : List K) : K := (List.zipWith (· * ·) f w).sum

/-- `tchebicheff.py:9-12`; `u` is the utopian point. -/
def tchebicheff (u f w : List K) : K :=
  rowMax (List.zipWith (· * ·) ((List.zipWith (· - ·) f u).map fun v => |v|) w)

/-- `asf.py:23-26`; `w0` is `weight_0`. -/
def asf (w0 : K) (u f w : List K) : K :=
  rowMax (List.zipWith (· / ·) (List.zipWith (· - ·) f u) (w.map fun v => if v = 0 then w0 else v))

/-- `aasf.py:53-55`; `c` is the constant `1e-12` of the clipping. -/
def aasf (w0 c rho : K) (u f w : List K) : K :=
  asf w0 u f w + rho * (List.zipWith (· / ·) (List.zipWith (· - ·) f u) (w.map fun v => max c v)).sum

/-! ### The dispatch of `Decomposition.do` -/

/-- The values of `_type` (`decomposition.py:31-39`). -/
inductive DecompType | oneToOne | oneToMany | manyToOne | manyToMany
  deriving DecidableEq, Repr

/-- An array given by the caller: a vector or a matrix with `nCols` columns. -/
inductive DecompArg (K : Type*)
  | vec (v : List K)
  | mat (nCols : ℕ) (rows : List (List K))

/-- `misc.py:443-474` `at_least_2d_array`: the rows. -/
def DecompArg.rows : DecompArg K → List (List K)
  | .vec v => [v]
  | .mat _ rows => rows

/-- `misc.py:477-493` `to_1d_array_if_possible(x).ndim == 1`. -/
def DecompArg.is1d : DecompArg K → Bool
  | .vec _ => true
  | .mat nCols rows => rows.length == 1 || nCols == 1

/-- `decomposition.py:29-39`. -/
def decompAuto (F W : DecompArg K) : DecompType :=
  if F.is1d && !W.is1d then .oneToMany
  else if !F.is1d && W.is1d then .manyToOne
  else if !F.is1d && !W.is1d && F.rows.length == W.rows.length then .oneToOne
  else .manyToMany

/-- `_do(F, weights)`: the rows are combined one by one; numpy repeats a single row; other lengths are an error. -/
def rowwise (s : List K → List K → K) (F W : List (List K)) : Option (List K) :=
  if F.length = W.length then some (List.zipWith s F W)
  else if F.length = 1 then some (W.map (s (F.headD [])))
  else if W.length = 1 then some (F.map fun f => s f (W.headD []))
  else none

/-- `np.repeat(A, n, axis=0)`. -/
def repeatRows (n : ℕ) (A : List (List K)) : List (List K) := A.flatMap fun r => List.replicate n r

/-- `np.tile(A, (n, 1))`. -/
def tileRows (n : ℕ) (A : List (List K)) : List (List K) := (List.replicate n A).flatten

/-- The array returned. -/
inductive DecompOut (K : Type*)
  | vec (v : List K)
  | mat (rows : List (List K))

/-- `reshape(n, m)` of a vector of length `n * m`. -/
def reshapeMat (n m : ℕ) (l : List K) : List (List K) := (List.range n).map fun i => (l.drop (i * m)).take m

/-- `decomposition.py:41-79`. -/
def decompDo (s : List K → List K → K) (t : DecompType) (F W : DecompArg K) : Option (DecompOut K) :=
  let f := F.rows
  let w := W.rows
  match t with
  | .oneToOne => (rowwise s f w).map .vec
  | .oneToMany => (rowwise s (repeatRows w.length f) w).map .vec
  | .manyToOne => (rowwise s f (repeatRows f.length w)).map .vec
  | .manyToMany =>
    (rowwise s (repeatRows w.length f) (tileRows f.length w)).map fun l => .mat (reshapeMat f.length w.length l)

/-- `decomposition.py:47-58`: the utopian point used, from the arguments `ideal_point` and `utopian_point`. -/
def decompUtopian (n : ℕ) (eps : K) (ideal utopian : Option (List K)) : List K :=
  utopian.getD ((ideal.getD (List.replicate n 0)).map fun v => v - eps)

end Scalar

/-! ### Penalty boundary intersection -/

/-- `np.linalg.norm(v)`. -/
noncomputable def norm2 (v : List ℝ) : ℝ := Real.sqrt ((v.map fun x => x * x).sum)

/-- `decomposition/util.py:6-25` `calc_distance_to_weights`, one row. -/
noncomputable def distToWeights (u f w : List ℝ) : ℝ × ℝ :=
  let g := List.zipWith (· - ·) f u
  let d1 := (List.zipWith (· * ·) g w).sum / norm2 w
  (d1, norm2 (List.zipWith (· - ·) g (w.map fun v => d1 * v / norm2 w)))

/-- `pbi.py:12-14`. -/
noncomputable def pbi (theta : ℝ) (u f w : List ℝ) : ℝ := (distToWeights u f w).1 + theta * (distToWeights u f w).2

end Model
