import Mathlib.Data.List.FinRange
import Mathlib.Order.Defs.LinearOrder
import Mathlib.Data.List.Range

/-!
# Model of `pymoo/util/randomized_argsort.py` and `pymoo/functions/standard/stochastic_ranking.py`

A one-dimensional numpy array `I` is a function from positions; only positions below its length are read.
-/

namespace Model

variable {ι α : Type*}

/-- `pymoo/util/misc.py:46-56` `swap(M, a, b)` on a one-dimensional array. -/
def swapAt (M : ℕ → ι) (a b : ℕ) : ℕ → ι := fun k => if k = b then M a else if k = a then M b else M k

section Quicksort
variable [LinearOrder α]

/-- `randomized_argsort.py:46-49`: the partition loop; the state is the array and the slot `i + 1`
(the code keeps `i`, starting from `left - 1`). -/
def partitionLoop (A : ι → α) (pivot : α) (js : List ℕ) (st : (ℕ → ι) × ℕ) : (ℕ → ι) × ℕ :=
  js.foldl (fun (st : (ℕ → ι) × ℕ) j => if A (st.1 j) ≤ pivot then (swapAt st.1 st.2 j, st.2 + 1) else st) st

/-- `randomized_argsort.py:37-55` `_quicksort(A, I, left, right)`. `pick left right` is the outcome of
`random_state.integers(left, right + 1)`; no pair `(left, right)` occurs twice in a run, so a function of the
pair covers every stream of random numbers. Natural-number subtraction in `s - 1` gives the empty range
`(0, 0)` where the code has `(0, -1)`. `none` = recursion deeper than `fuel`. -/
def quicksortRec (A : ι → α) (pick : ℕ → ℕ → ℕ) : ℕ → (ℕ → ι) → ℕ → ℕ → Option (ℕ → ι)
  | 0, I, left, right => if left < right then none else some I
  | fuel + 1, I, left, right =>
    if left < right then
      let I := swapAt I right (pick left right)
      let pivot := A (I right)
      let st := partitionLoop A pivot (List.range' left (right - left)) (I, left)
      let index := st.2
      let I := swapAt st.1 right index
      (quicksortRec A pick fuel I left (index - 1)).bind fun I => quicksortRec A pick fuel I (index + 1) right
    else some I

/-- `randomized_argsort.py:31-34` `quicksort(A)` for an array of length `n`. -/
def quicksort (A : ℕ → α) (n : ℕ) (pick : ℕ → ℕ → ℕ) : Option (List ℕ) :=
  (quicksortRec A pick n id 0 (n - 1)).map fun I => (List.range n).map I

/-- `randomized_argsort.py:22-27`: the `order` argument; anything but the two names raises (`none`). -/
def applyOrder (order : String) (I : List ι) : Option (List ι) :=
  if order = "ascending" then some I else if order = "descending" then some I.reverse else none

/-- `randomized_argsort.py:10-27` with `method="numpy"`, for a vector `A` of length `k`: `P` is the random
permutation, `argsort` numpy's (possibly unstable) sort. -/
def randomizedArgsort {k : ℕ} (argsort : (Fin k → α) → List (Fin k)) (P : Fin k → Fin k) (order : String)
    (A : Fin k → α) : Option (List (Fin k)) :=
  applyOrder order ((argsort fun i => A (P i)).map P)

/-- `randomized_argsort.py:10-27` with `method="quicksort"`. -/
def randomizedArgsortQuick (A : ℕ → α) (n : ℕ) (pick : ℕ → ℕ → ℕ) (order : String) : Option (List ℕ) :=
  (quicksort A n pick).bind (applyOrder order)

end Quicksort

section StochasticRanking
variable {β : Type*} [LinearOrder α] [LinearOrder β] [Zero β]

/-- `stochastic_ranking.py:41-52`: should the neighbours `a`, `b` be swapped, given the outcome `c` of
`u < pr`? -/
def srSwap (f : ι → α) (phi : ι → β) (c : Bool) (a b : ι) : Bool :=
  if c ∨ (phi a = 0 ∧ phi b = 0) then decide (f a > f b) else decide (phi a > phi b)

/-- `stochastic_ranking.py:38-52`: one pass over the neighbours `(j, j+1)`, `j = 0, 1, ...`; after the
comparison the larger element moves on to the next comparison. `coin j` is the outcome of `u < pr` at `j`.
Returns the new order and whether anything was swapped. -/
def srPass (gt : ℕ → ι → ι → Bool) : ℕ → List ι → List ι × Bool
  | j, a :: b :: rest =>
    if gt j a b then
      let r := srPass gt (j + 1) (a :: rest)
      (b :: r.1, true)
    else
      let r := srPass gt (j + 1) (b :: rest)
      (a :: r.1, r.2)
  | _, l => (l, false)
termination_by _ l => l.length

/-- `stochastic_ranking.py:35-56`: at most `rounds` passes, stopping after a pass without swaps. -/
def srLoop (gt : ℕ → ℕ → ι → ι → Bool) : ℕ → ℕ → List ι → List ι
  | 0, _, I => I
  | rounds + 1, i, I =>
    let r := srPass (gt i) 0 I
    if r.2 then srLoop gt rounds (i + 1) r.1 else r.1

/-- `stochastic_ranking.py:20-56` `stochastic_ranking(f, phi, pr)` for the initial order `I`
(`np.arange(len(f))` by default); `coin i j` is the outcome of `u < pr` in pass `i` at position `j`. -/
def stochasticRanking (f : ι → α) (phi : ι → β) (coin : ℕ → ℕ → Bool) (I : List ι) : List ι :=
  srLoop (fun i j => srSwap f phi (coin i j)) I.length 0 I

end StochasticRanking

end Model
