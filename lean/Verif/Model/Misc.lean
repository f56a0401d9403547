import Mathlib.Data.List.Basic
import Mathlib.Data.List.Sublists
import Mathlib.Algebra.BigOperators.Fin
import Mathlib.Algebra.Order.Field.Basic
import Mathlib.Algebra.Order.Round
import Mathlib.Data.Rat.Floor

/-!
# Model: helper functions (`pymoo/util/misc.py`, `pymoo/util/cache.py`)

Dictionaries are lists of keys and values in the order of insertion.
-/

namespace Model

/-! ### Arrays -/

/-- misc.py:46-56 `swap(M, a, b)` for a *two-dimensional* array: `tmp = M[a]` is a view of row `a`, so it is read again after row `a` has been overwritten. `none`: an
index that is out of range. -/
def swapRows {α : Type*} (M : List α) (a b : ℕ) : Option (List α) :=
  M[b]?.bind fun rb =>
    if a < M.length then
      let M1 := M.set a rb
      M1[a]?.map fun tmp => M1.set b tmp
    else none

/-- A one-dimensional array, or the rows of a two-dimensional one. -/
inductive Arr12 (α : Type*)
  | one (l : List α)
  | two (rows : List (List α))

/-- misc.py:531-543 `all_combinations(A, B)` for a one-dimensional `A`: `np.tile(B, k)` repeats a one-dimensional array `k` times, but the *columns* of a two-dimensional one;
`np.column_stack` needs equal numbers of rows (`none` = `ValueError`). -/
def allCombinations {α : Type*} (A : List α) (B : Arr12 α) : Option (List (List α)) :=
  match B with
  | .one b =>
    let u := A.flatMap fun x => List.replicate b.length x
    let v := (List.replicate A.length b).flatten
    if u.length = v.length then some (List.zipWith (fun x y => [x, y]) u v) else none
  | .two rows =>
    let u := A.flatMap fun x => List.replicate rows.length x
    let v := rows.map fun r => (List.replicate A.length r).flatten
    if u.length = v.length then some (List.zipWith (fun x y => x :: y) u v) else none

/-- misc.py:620-631 `distance_of_closest_points_to_others(X)`: index and distance for the point `i` of `n` (`none` = infinity, the only point); `D` is the matrix of distances. -/
def closestOther {K : Type*} [LinearOrder K] (D : ℕ → ℕ → K) (n i : ℕ) : ℕ × Option K :=
  match (List.range n).filter fun j => decide (j ≠ i) with
  | [] => (0, none)
  | a :: l =>
    let b := l.foldl (fun best j => if D i j < D i best then j else best) a
    (b, some (D i b))

/-- misc.py:390-405 `covert_to_type`: real numbers stay, integers are rounded (halves to even, as `np.round`), for booleans a comparison. -/
def convertInt (x : ℚ) : ℤ := if Int.fract x = 1 / 2 then (if 2 ∣ ⌊x⌋ then ⌊x⌋ else ⌊x⌋ + 1) else round x

def convertBool (xl xu x : ℚ) : Bool := decide (x < (xu - xl) / 2)

/-- misc.py:582-593 `evaluate_if_not_done_yet`: `pop.get("F") is None` compares the array itself, so `np.where(False)[0]` is empty. `eval` is the evaluation, `missing` says
which individuals have no objectives. -/
def evaluateIfNotDone {ι : Type*} (eval : ι → ι) (missing : ι → Bool) (pop : List ι) : List ι :=
  let getFIsNone := false
  let I := if getFIsNone then [0] else ([] : List ℕ)
  pop.zipIdx.map fun e => if e.2 ∈ I then eval e.1 else e.1

/-! ### Normalised distances -/

section Dist
variable {K : Type*} [Field K] [LinearOrder K] {n : ℕ}

/-- The differences divided by the ranges (misc.py:183, 240, 297); `none` = a division by zero. -/
def normDiff (xl xu a b : Fin n → K) : Option (Fin n → K) := if ∀ k, xu k - xl k ≠ 0 then some fun k => (a k - b k) / (xu k - xl k) else none

/-- misc.py:173-183 `func_norm_euclidean_distance`, squared (the square root is monotone). -/
def normEuclSq (xl xu a b : Fin n → K) : Option K := (normDiff xl xu a b).map fun d => ∑ k, d k ^ 2

/-- misc.py:230-240 `func_norm_manhatten_distance`. -/
def normManh (xl xu a b : Fin n → K) : Option K := (normDiff xl xu a b).map fun d => ∑ k, |d k|

/-- misc.py:287-297 `func_norm_tchebychev_distance`; the maximum of no entry raises. -/
def normCheb (xl xu a b : Fin n → K) : Option K := (normDiff xl xu a b).bind fun d => ((List.finRange n).map fun k => |d k|).max?

end Dist

/-! ### Lists and dictionaries -/

/-- misc.py:665-684 `intersect(a, b)`. -/
def intersectList {α : Type*} [DecidableEq α] (a b : List α) : List α := a.filter fun x => decide (x ∈ b)

/-- `itertools.combinations(iterable, k)`. -/
def combinations {α : Type*} : ℕ → List α → List (List α)
  | 0, _ => [[]]
  | _ + 1, [] => []
  | k + 1, x :: xs => (combinations k xs).map (x :: ·) ++ combinations (k + 1) xs

/-- misc.py:652-662 `powerset(iterable)`. -/
def powersetList {α : Type*} (l : List α) : List (List α) := (List.range (l.length + 1)).flatMap fun k => combinations k l

/-- wfg.py:108-112: the positions of the extreme points, `ps[i, s] = 0` in a matrix of ones. -/
def wfgCorners (k : ℕ) : List (Fin k → ℕ) := (powersetList (List.finRange k)).map fun s j => if j ∈ s then 0 else 1

/-- misc.py:634-649 `time_to_int(t)`; `fields` are the numbers between the colons, `none`: no field. -/
def timeToInt (fields : List ℕ) : Option ℕ :=
  match fields.reverse with
  | [] => none
  | [s] => some s
  | [s, m] => some (s + 60 * m)
  | s :: m :: h :: _ => some (s + 60 * m + 3600 * h)

section Dict
variable {κ ν : Type*} [DecidableEq κ]

/-- `d.get(k)`. -/
def mapGet : List (κ × ν) → κ → Option ν
  | [], _ => none
  | (a, v) :: l, k => if a = k then some v else mapGet l k

/-- `d[k] = v`. -/
def mapSet : List (κ × ν) → κ → ν → List (κ × ν)
  | [], k, v => [(k, v)]
  | (a, w) :: l, k, v => if a = k then (a, v) :: l else (a, w) :: mapSet l k v

/-- misc.py:829-845 `set_defaults(kwargs, defaults, overwrite, func_get)`; with `overwrite = false` and the identity this is `set_if_none_from_tuples` (608-617). -/
def setDefaults (kwargs defaults : List (κ × ν)) (overwrite : Bool) (get : ν → ν) : List (κ × ν) :=
  defaults.foldl (fun d e => if overwrite || (mapGet d e.1).isNone then mapSet d e.1 (get e.2) else d) kwargs

/-- misc.py:868-882 `where_is_what(x)`. -/
def whereIsWhat (x : List κ) : List (κ × List ℕ) :=
  x.zipIdx.foldl (fun H e =>
    let H' := if (mapGet H e.1).isNone then mapSet H e.1 [] else H
    mapSet H' e.1 (((mapGet H' e.1).getD []) ++ [e.2])) []

/-- misc.py:766-776 `list_of_dicts_unique(l, k)`: the values of the key `k` without repetition; `none` = `KeyError`. -/
def listOfDictsUnique [DecidableEq ν] (l : List (List (κ × ν))) (k : κ) : Option (List ν) :=
  (l.mapM fun e => mapGet e k).map fun vs => (vs.foldl (fun (d : List (ν × Unit)) v => mapSet d v ()) []).map (·.1)

end Dict

/-- misc.py:848-865 `filter_params(params, prefix, delete_prefix)`. -/
def filterParams {ν : Type*} (params : List (List Char × ν)) (pre : List Char) (del : Bool) : List (List Char × ν) :=
  params.foldl (fun ret e => if pre.isPrefixOf e.1 then mapSet ret (if del then e.1.drop pre.length else e.1) e.2 else ret) []

/-! ### The cache (`cache.py`) -/

/-- One call of a cached method: arguments and the two flags (cache.py:14-29). `cache` is what is stored under the name of the method. -/
def cacheCall {A V : Type*} (f : A → V) (cache : Option V) (arg : A) (useCache setCache : Bool) : Option V × V :=
  match useCache, cache with
  | true, some v => (cache, v)
  | _, _ => (if setCache then some (f arg) else cache, f arg)

/-- The values returned for a sequence of calls. -/
def cacheRun {A V : Type*} (f : A → V) : Option V → List (A × Bool × Bool) → List V
  | _, [] => []
  | c, (a, u, s) :: l => (cacheCall f c a u s).2 :: cacheRun f (cacheCall f c a u s).1 l

end Model
