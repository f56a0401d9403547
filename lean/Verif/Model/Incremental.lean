import Mathlib.Data.List.Sort
import Mathlib.Data.List.Lex
import Mathlib.Data.List.OfFn
import Mathlib.Data.List.Dedup
import Mathlib.Data.Rat.Defs
import Mathlib.Algebra.BigOperators.Fin
import Mathlib.Data.Fin.VecNotation

/-!
# Model: the incremental lattice (pymoo/util/ref_dirs/incremental.py)

The rows are integer vectors until the division at the end; a row is a function on the columns.
-/

namespace Model
variable {n : ℕ}

/-- `np.unique(edgeW, axis=0)` (`incremental.py:20, 39`): different rows in lexicographic order. -/
def uniqueRows (l : List (Fin n → ℕ)) : List (Fin n → ℕ) := l.dedup.insertionSort fun a b => List.ofFn a ≤ List.ofFn b

/-- `incremental.py:19-21, 38-40`: `n_dim` is added to each column of each edge row in turn; different rows; those with a zero. -/
def incEdge (E : List (Fin n → ℕ)) : List (Fin n → ℕ) :=
  (uniqueRows ((List.finRange n).flatMap fun i => E.map fun w k => w k + n * (if k = i then 1 else 0))).filter fun w => decide (∃ k, w k = 0)

/-- The arrays `W` and `edgeW` after the given number of rounds (`incremental.py:13-23, 32-41`). -/
def incRows (n : ℕ) : ℕ → List (Fin n → ℕ) × List (Fin n → ℕ)
  | 0 => ([fun _ => 0], [fun _ => 0])
  | p + 1 =>
    let E := incEdge (incRows n p).2
    ((incRows n p).1.map (fun w k => w k + 1) ++ E, E)

/-- `incremental.py:31-44` `incremental_lattice`; `none` = NaN (division of zero by zero without partitions). -/
def incLattice (p n : ℕ) : Option (List (Fin n → ℚ)) :=
  if n * p = 0 then none else some ((incRows n p).1.map fun w k => (w k : ℚ) / (n * p : ℕ))

/-- The loop of `check_n_points` (`incremental.py:18-28`) from round `i` on; `fuel` bounds the rounds. -/
def incCheckLoop (nPoints n : ℕ) : ℕ → ℕ → Option (List ℕ)
  | 0, _ => none
  | fuel + 1, i =>
    let W := (incRows n i).1
    if W.length < nPoints then incCheckLoop nPoints n fuel (i + 1)
    else if W.length = nPoints then some [i]
    else some [W.length - (incRows n i).2.length, i - 1, W.length, i]

/-- `incremental.py:8-28` `check_n_points`. -/
def incCheck (fuel nPoints n : ℕ) : Option (List ℕ) := if n = 1 then some [0] else incCheckLoop nPoints n fuel 0

/-- `incremental.py:47-71` `IncrementalReferenceDirectionFactory(n_dim, n_points=...)` and `do()` (without scaling, `reference_direction.py:83-86`: with one dimension `_do` is
not called); `none` = an exception or NaN. -/
def incFactory (fuel nPoints n : ℕ) : Option (List (Fin n → ℚ)) :=
  (incCheck fuel nPoints n).bind fun r =>
    match r with
    | [p] => if n = 1 then some [fun _ => 1] else incLattice p n
    | _ => none

end Model
