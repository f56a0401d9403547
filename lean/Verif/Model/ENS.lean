import Verif.Model.Dominator
import Mathlib.Logic.Equiv.Defs
import Mathlib.Logic.Equiv.Basic

/-!
# Model of Efficient Non-dominated Sorting

`pymoo/functions/standard/non_dominated_sorting.py:197-320`. `np.lexsort` is an argument: a permutation
`I` of the row indices; the theorems assume only that it sorts the rows lexicographically
(`LexSorted`), so they hold whatever order it gives equal rows.
-/

namespace Model

variable {α : Type*} [LinearOrder α] {m n : ℕ}

/-- Lines 257-265 / 295-304: examine a front (in reverse order) and stop at the first member with
`Dominator.get_relation(current, f) == -1`; the result is the flag `non_dominated`. -/
def nonDominatedIn (F : Fin n → Fin m → α) (i : Fin n) (front : List (Fin n)) : Bool :=
  front.reverse.all fun j => getRelation (F i) (F j) (none : Option ℤ) none != -1

/-- Lines 254-272: the loop of `sequential_search`, over the fronts from number `k` on. -/
def seqLoop (F : Fin n → Fin m → α) (i : Fin n) : List (List (Fin n)) → ℕ → ℕ
  | [], k => k
  | f :: fs, k => if nonDominatedIn F i f then k else seqLoop F i fs (k + 1)

/-- Lines 240-272 `sequential_search(F, i, fronts)`. -/
def sequentialSearch (F : Fin n → Fin m → α) (i : Fin n) (fronts : List (List (Fin n))) : ℕ :=
  seqLoop F i fronts 0

/-- `floor((k_max + k_min) / 2 + 0.5)` of lines 292, 312, 320. -/
def midpoint (kMax kMin : ℕ) : ℕ := (kMax + kMin + 1) / 2

/-- Lines 294-320: the `while True` loop of `binary_search`, with fuel. `none` means: out of fuel, or an
access `fronts[k - 1]` outside the list (Python would raise, or for `k = 0` silently read the last front). -/
def binLoop (F : Fin n → Fin m → α) (i : Fin n) (fronts : List (List (Fin n))) :
    ℕ → (kMin kMax k : ℕ) → Option ℕ
  | 0, _, _, _ => none
  | fuel + 1, kMin, kMax, k =>
    if k = 0 then none
    else match fronts[k - 1]? with
      | none => none
      | some front =>
        if nonDominatedIn F i front then
          if k = kMin + 1 then some (k - 1)
          else binLoop F i fronts fuel kMin k (midpoint k kMin)
        else
          if kMax = k + 1 ∧ kMax < fronts.length then some (kMax - 1)
          else if k = fronts.length then some fronts.length
          else binLoop F i fronts fuel k kMax (midpoint kMax k)

/-- Lines 275-320 `binary_search(F, i, fronts)`. -/
def binarySearch (F : Fin n → Fin m → α) (i : Fin n) (fronts : List (List (Fin n))) : Option ℕ :=
  if fronts.length = 0 then some 0
  else binLoop F i fronts (2 * fronts.length + 2) 0 fronts.length (midpoint fronts.length 0)

/-- Lines 225-230: open a new front if necessary and append the individual to front `k`. -/
def appendToFront (fronts : List (List (Fin n))) (k : ℕ) (i : Fin n) : List (List (Fin n)) :=
  let fronts := if k ≥ fronts.length then fronts ++ [[]] else fronts
  fronts.modify k (· ++ [i])

/-- The search strategies accepted by the assertion on line 207. -/
inductive EnsStrategy | sequential | binary

/-- Lines 220-223: choose the front number of individual `i`. -/
def ensSearch (st : EnsStrategy) (F : Fin n → Fin m → α) (i : Fin n) (fronts : List (List (Fin n))) : Option ℕ :=
  match st with
  | .sequential => some (sequentialSearch F i fronts)
  | .binary => binarySearch F i fronts

/-- Lines 219-230: insert the individuals one after another. -/
def ensInsert (st : EnsStrategy) (F : Fin n → Fin m → α) :
    List (Fin n) → List (List (Fin n)) → Option (List (List (Fin n)))
  | [], fronts => some fronts
  | i :: is, fronts =>
    match ensSearch st F i fronts with
    | none => none
    | some k => ensInsert st F is (appendToFront fronts k i)

/-- Lines 197-237 `efficient_non_dominated_sort(F, strategy)`; `I` is the result of `np.lexsort(F.T[::-1])`
(line 213), the sorted matrix is `F[I]` (line 214) and the fronts are mapped back by `I[front]` (233-235). -/
def efficientSort (st : EnsStrategy) (I : Equiv.Perm (Fin n)) (F : Fin n → Fin m → α) :
    Option (List (List (Fin n))) :=
  (ensInsert st (fun i => F (I i)) (List.finRange n) []).map (fun fronts => fronts.map (fun f => f.map I))

end Model
