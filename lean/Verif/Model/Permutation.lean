import Mathlib.Data.List.Basic
import Mathlib.Logic.Function.Basic
import Mathlib.Data.List.Rotate

/-!
# Model of the permutation operators

`pymoo/operators/crossover/ox.py`, `pymoo/operators/crossover/erx.py`, `pymoo/operators/mutation/inversion.py`.
Random choices are arguments.
-/

namespace Model

variable {ι : Type*} [DecidableEq ι]

/-- `ox.py:15-56` `ox(receiver, donor, seq=(start, end), shift)`; `none` = the assertion on the lengths (line 32).
The slice `donor[start : end + 1]` is `donation`; lines 45-51 read the receiver from position 0, or with `shift` from
position `start` on, cyclically. -/
def ox (receiver donor : List ι) (start stop : ℕ) (shift : Bool) : Option (List ι) :=
  if donor.length ≠ receiver.length then none
  else
    let donation := (donor.drop start).take (stop + 1 - start)
    let order := if shift then receiver.rotate start else receiver
    let y := order.filter fun v => !decide (v ∈ donation)
    some (y.take start ++ donation ++ y.drop start)

/-- `inversion.py:9-17` `inversion_mutation(y, seq=(start, end))`. -/
def inversionMutation {ι : Type*} (y : List ι) (start stop : ℕ) : List ι :=
  y.take start ++ ((y.drop start).take (stop + 1 - start)).reverse ++ (y.drop start).drop (stop + 1 - start)

/-- The dictionary of `erx.py`: its keys in insertion order, and the value (a set) of each key. -/
structure Adj (ι : Type*) where
  keys : List ι
  nb : ι → List ι

/-- `set.add`. -/
def setAdd (s : List ι) (v : ι) : List ι := if v ∈ s then s else s ++ [v]

/-- `erx.py:125-127`: `H[x[k]] = set()` if missing, then `H[x[k]].update([prev, succ])`. -/
def adjAdd (H : Adj ι) (k prev succ : ι) : Adj ι :=
  let old := if k ∈ H.keys then H.nb k else []
  { keys := if k ∈ H.keys then H.keys else H.keys ++ [k]
    nb := Function.update H.nb k (setAdd (setAdd old prev) succ) }

/-- `erx.py:118-129` `calc_adjency_matrix(x, H)`. -/
def calcAdj (x : List ι) (H : Adj ι) : Adj ι :=
  (List.finRange x.length).foldl (fun H (k : Fin x.length) =>
    have hk : 0 < x.length := k.pos
    adjAdd H (x.get k) (x.get ⟨(k.1 + x.length - 1) % x.length, Nat.mod_lt _ hk⟩)
      (x.get ⟨(k.1 + 1) % x.length, Nat.mod_lt _ hk⟩)) H

/-- The loop of `erx.py:10-11`: `none` = `KeyError`. -/
def adjRemoveLoop (val : ι) (keys : List ι) : List ι → (ι → List ι) → Option (ι → List ι)
  | [], nb => some nb
  | e :: es, nb =>
    if e ∈ keys ∧ val ∈ nb e then adjRemoveLoop val keys es (Function.update nb e ((nb e).erase val)) else none

/-- `erx.py:9-12` `remove_from_adj_list(H, val)`. -/
def adjRemove (H : Adj ι) (val : ι) : Option (Adj ι) :=
  if val ∈ H.keys then
    (adjRemoveLoop val H.keys (H.nb val) H.nb).map fun nb => { keys := H.keys.erase val, nb := nb }
  else none

/-- `random_state.choice(l)`: `none` = `ValueError` for an empty list; `pick` is the random choice. -/
def choice {ι : Type*} (pick : List ι → ι) (l : List ι) : Option ι := if l = [] then none else some (pick l)

/-- `erx.py:67-78`: the next node after `next` was removed; `H` is the dictionary after the removal. -/
def erxNext (pick : List ι → ι) (neighbors : List ι) (H : Adj ι) : Option ι :=
  if neighbors.length = 0 then choice pick H.keys
  else if neighbors.all (fun e => decide (e ∈ H.keys)) then
    match (neighbors.map fun e => (H.nb e).length).min? with
    | none => none
    | some m => choice pick (neighbors.filter fun e => decide ((H.nb e).length = m))
  else none

/-- `erx.py:54-78`: the `while True` loop. `pick k` is the random choice in round `k`. `none` = an exception, or more than
`fuel` rounds. -/
def erxLoop (pick : ℕ → List ι → ι) (n : ℕ) : ℕ → ℕ → Adj ι → List ι → ι → Option (List ι)
  | 0, _, _, _, _ => none
  | fuel + 1, k, H, y, next =>
    let y := y ++ [next]
    if y.length = n then some y
    else if next ∈ H.keys then
      let neighbors := H.nb next
      (adjRemove H next).bind fun H =>
        (erxNext (pick k) neighbors H).bind fun next => erxLoop pick n fuel (k + 1) H y next
    else none

/-- `erx.py:24-80` `erx(a, b)`. -/
def erx (pick : ℕ → List ι → ι) (fuel : ℕ) (a b : List ι) : Option (List ι) :=
  if a.length ≠ b.length then none
  else
    let H := calcAdj b (calcAdj a ⟨[], fun _ => []⟩)
    (choice (pick 0) H.keys).bind fun next => erxLoop pick a.length fuel 1 H [] next

end Model
