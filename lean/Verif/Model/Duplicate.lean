import Mathlib.Data.List.Basic
import Mathlib.Order.Defs.LinearOrder
import Mathlib.Data.Finset.Insert

/-!
# Model of `pymoo/core/duplicate.py`, `pymoo/core/infill.py` and the duplicate helpers of `pymoo/util/misc.py`

A population is a list of individuals of type `ι`. Distances (`cdist`, user functions) enter through the
relation that is tested: `near x y` is the outcome of `D <= epsilon` for the row of `x` and the column of `y`
(`False` where the distance is NaN, `duplicate.py:75`).
-/

namespace Model

variable {ι : Type*}

/-- `pop[~mask]` for a boolean array (`duplicate.py:27,36`). -/
def keepUnmarked (pop : List ι) (mask : List Bool) : List ι :=
  (pop.zip mask).filterMap fun (x, b) => if b then none else some x

/-- The method `_do(pop, other, ...)` of a duplicate elimination: with `other = None` (first field) and with
another population (second field); both return the mask of duplicates. -/
structure DupMasks (ι : Type*) where
  itself : List ι → List Bool
  against : List ι → List ι → List Bool

/-- `duplicate.py:29-36`: the loop over the further populations. -/
def dedupArgs (d : DupMasks ι) : List ι → List (List ι) → List ι
  | pop, [] => pop
  | pop, arg :: args =>
    if arg.length > 0 then
      if pop.length = 0 then pop
      else dedupArgs d (keepUnmarked pop (d.against pop arg)) args
    else dedupArgs d pop args

/-- `duplicate.py:20-50` `DuplicateElimination.do(pop, *args, to_itself=...)`, the population returned. -/
def dedup (d : DupMasks ι) (toItself : Bool) (pop : List ι) (args : List (List ι)) : List ι :=
  if pop.length = 0 then pop
  else dedupArgs d (if toItself then keepUnmarked pop (d.itself pop) else pop) args

/-- `duplicate.py:38-48`: the two index lists of `return_indices=True`; an individual is looked up in
`set(pop)` by identity. -/
def dedupIndices [DecidableEq ι] (d : DupMasks ι) (toItself : Bool) (pop : List ι) (args : List (List ι)) :
    List ι × List ℕ × List ℕ :=
  if pop.length = 0 then (pop, [], [])
  else
    let res := dedup d toItself pop args
    let r := pop.zipIdx.foldl (fun (acc : List ℕ × List ℕ) (p : ι × ℕ) =>
      if p.1 ∈ res then (acc.1 ++ [p.2], acc.2) else (acc.1, acc.2 ++ [p.2])) ([], [])
    (res, r.1, r.2)

/-- `duplicate.py:61-78` `DefaultDuplicateElimination`: for a population against itself the upper triangle with
the diagonal is `inf`, so row `i` is compared with the earlier rows only. -/
def defaultMasks (near : ι → ι → Bool) : DupMasks ι where
  itself pop := pop.zipIdx.map fun (x, i) => (pop.take i).any (near x)
  against pop other := pop.map fun x => other.any (near x)

/-- `duplicate.py:81-85` `to_float` on the two kinds of comparison results. -/
def toFloat {α : Type*} [Zero α] [One α] : Bool ⊕ α → α
  | .inl b => if b then 0 else 1
  | .inr v => v

/-- `duplicate.py:100-117` `ElementwiseDuplicateElimination._do`: row `i` is compared with the later rows. -/
def elementwiseMasks {α : Type*} [Zero α] [One α] [LT α] [DecidableLT α] (cmp : ι → ι → Bool ⊕ α) (eps : α) :
    DupMasks ι where
  itself pop := pop.zipIdx.map fun (x, i) => (pop.drop (i + 1)).any fun y => decide (toFloat (cmp x y) < eps)
  against pop other := pop.map fun x => other.any fun y => decide (toFloat (cmp x y) < eps)

/-- `duplicate.py:145-152`: the loop over the population with the set `H` of hashes seen so far. `hash2` is
`self.func` applied twice. -/
def hashLoop {η : Type*} [DecidableEq η] (hash2 : ι → η) : List ι → List η → List Bool
  | [], _ => []
  | x :: xs, H => if hash2 x ∈ H then true :: hashLoop hash2 xs H else false :: hashLoop hash2 xs (hash2 x :: H)

/-- `duplicate.py:137-154` `HashDuplicateElimination._do`. -/
def hashMasks {η : Type*} [DecidableEq η] (hash2 : ι → η) : DupMasks ι where
  itself pop := hashLoop hash2 pop []
  against pop other := hashLoop hash2 pop (other.map hash2)

/-- `pymoo/util/misc.py:408-424` `find_duplicates(X, epsilon)`. -/
def findDuplicates (near : ι → ι → Bool) (X : List ι) : List Bool :=
  X.zipIdx.map fun (x, i) => (X.take i).any (near x)

/-! ## The infill loop -/

/-- `pymoo/core/infill.py:40-65`: the `while` loop. `gen k n` is what mating and repair produce in round `k`
when `n` individuals are missing; `elim _off pop off` is `self.eliminate_duplicates.do(_off, pop, off)`.
Result: the offspring and the number of rounds; `none` = more than `fuel` rounds. -/
def infillLoop (elim : List ι → List ι → List ι → List ι) (gen : ℕ → ℕ → List ι) (pop : List ι)
    (nOffsprings nMax : ℕ) : ℕ → List ι → ℕ → Option (List ι × ℕ)
  | 0, off, k => if off.length < nOffsprings then none else some (off, k)
  | fuel + 1, off, k =>
    if off.length < nOffsprings then
      let new := elim (gen k (nOffsprings - off.length)) pop off
      let new := if off.length + new.length > nOffsprings then new.take (nOffsprings - off.length) else new
      let off := off ++ new
      if k + 1 ≥ nMax then some (off, k + 1)
      else infillLoop elim gen pop nOffsprings nMax fuel off (k + 1)
    else some (off, k)

/-- `pymoo/core/infill.py:21-67` `InfillCriterion.do`. -/
def infillDo (elim : List ι → List ι → List ι → List ι) (gen : ℕ → ℕ → List ι) (pop : List ι)
    (nOffsprings nMax fuel : ℕ) : Option (List ι × ℕ) := infillLoop elim gen pop nOffsprings nMax fuel [] 0

/-! ## `get_duplicates` -/

section GetDuplicates
variable {ρ : Type*} [DecidableEq ρ]

/-- `pymoo/util/misc.py:149-151`: the inner `while` loop from the current position on; the list holds the
remaining sorted rows with their original indices. `none` = `IndexError` (`S[i + 1]` after the last row). -/
def gdInner : List ι → List (ρ × ι) → Option (List ι × List (ρ × ι))
  | l, a :: b :: rest => if a.1 = b.1 then gdInner (l ++ [a.2]) (b :: rest) else some (l, a :: b :: rest)
  | _, [_] => none
  | _, [] => none

theorem gdInner_length : ∀ (l : List ι) (L : List (ρ × ι)) (r : List ι × List (ρ × ι)), gdInner l L = some r →
    r.2.length ≤ L.length
  | l, a :: b :: rest, r, h => by
    rw [gdInner] at h
    split_ifs at h with hab
    · have := gdInner_length (l ++ [a.2]) (b :: rest) r h
      simp only [List.length_cons] at this ⊢
      omega
    · simp only [Option.some.injEq] at h
      rw [← h]
  | _, [_], r, h => by simp [gdInner] at h
  | _, [], r, h => by simp [gdInner] at h

/-- `pymoo/util/misc.py:145-157`: the outer `while` loop; it stops when at most one row is left. -/
def gdOuter (L : List (ρ × ι)) : Option (List (List ι)) :=
  match L with
  | [] => some []
  | [_] => some []
  | a :: b :: rest =>
    match _h : gdInner [] (a :: b :: rest) with
    | none => none
    | some (l, []) => some (if l.length > 0 then [l] else [])
    | some (l, c :: rest') =>
      (gdOuter rest').map fun res => if l.length > 0 then (l ++ [c.2]) :: res else res
termination_by L.length
decreasing_by
  have := gdInner_length _ _ _ _h
  simp only [List.length_cons] at this ⊢
  omega

/-- `pymoo/util/misc.py:132-157` `get_duplicates(M)`; `sorted` are the rows of `M` with their indices in the
order of `np.lexsort`. -/
def getDuplicates (sorted : List (ρ × ι)) : Option (List (List ι)) := gdOuter sorted

end GetDuplicates

end Model
