import Mathlib.Data.List.Basic
import Mathlib.Data.List.Dedup
import Mathlib.Logic.Function.Basic

/-!
# Model of `pymoo/core/population.py`

Individuals are objects: a population is a list of object identifiers. The state is the heap and the next free
identifier. Attribute names are of type `κ`, attribute values of type `V` (an absent attribute is `none`).
-/

namespace Model

/-- The objects that exist (identifiers below `next`) with their attributes. -/
structure PState (κ V : Type*) where
  heap : ℕ → κ → Option V
  next : ℕ

/-- The argument of `Population.set` for one key (`population.py:41-48`): a scalar (or string) is given to everyone, an
iterable is distributed. -/
inductive PVal (V : Type*)
  | scalar (v : V)
  | column (vs : List V)

variable {κ V A : Type*} [DecidableEq κ] [DecidableEq A]

/-- `kwargs[key] = value` on a dictionary, as key/value pairs in insertion order. -/
def dictSet (d : List (A × V)) (k : A) (v : V) : List (A × V) :=
  if k ∈ d.map Prod.fst then d.map (fun e => if e.1 = k then (k, v) else e) else d ++ [(k, v)]

/-- `population.py:174-176`: the loop over the pairs of arguments. -/
def interleavingLoop : List A → List (A × A) → List (A × A)
  | k :: v :: rest, d => interleavingLoop rest (dictSet d k v)
  | _, d => d

/-- `population.py:167-177` `interleaving_args(*args, kwargs)`; keys and values are Python objects of one type `A`;
`none` = the exception for an odd number. -/
def interleavingArgs (args : List A) (kwargs : List (A × A)) : Option (List (A × A)) :=
  if args.length % 2 ≠ 0 then none else some (interleavingLoop args kwargs)

/-- `individual.py:455-473` `Individual.set(key, value)`, the effect on the attribute store. -/
def indSet (h : ℕ → κ → Option V) (i : ℕ) (key : κ) (v : V) : ℕ → κ → Option V :=
  Function.update h i (Function.update (h i) key (some v))

/-- `population.py:47-54` for an iterable: `self[i].set(key, values[i])`. -/
def setColumnP (key : κ) : List ℕ → List V → (ℕ → κ → Option V) → (ℕ → κ → Option V)
  | i :: ids, v :: vs, h => setColumnP key ids vs (indSet h i key v)
  | _, _, h => h

/-- `population.py:47-54` for a value that is not iterable. -/
def setScalarP (key : κ) (v : V) : List ℕ → (ℕ → κ → Option V) → (ℕ → κ → Option V)
  | i :: ids, h => setScalarP key v ids (indSet h i key v)
  | [], h => h

/-- `population.py:41-54`: the loop over the keys; the flag is `false` when the exception of line 45 was raised. -/
def setItems (pop : List ℕ) : List (κ × PVal V) → (ℕ → κ → Option V) → (ℕ → κ → Option V) × Bool
  | [], h => (h, true)
  | (key, .scalar v) :: rest, h => setItems pop rest (setScalarP key v pop h)
  | (key, .column vs) :: rest, h =>
    if vs.length ≠ pop.length then (h, false) else setItems pop rest (setColumnP key pop vs h)

/-- `population.py:31-56` `Population.set(**kwargs)`. -/
def popSet (pop : List ℕ) (kwargs : List (κ × PVal V)) (h : ℕ → κ → Option V) : (ℕ → κ → Option V) × Bool :=
  if pop.length = 0 then (h, true) else setItems pop kwargs h

/-- `population.py:58-81` `Population.get(key)`. -/
def popGet (h : ℕ → κ → Option V) (pop : List ℕ) (key : κ) : List (Option V) := pop.map fun i => h i key

/-- `population.py:100-103` `Population.empty(size)`: new individuals; a new individual has the attributes `ind0`. -/
def popEmpty (ind0 : κ → Option V) (size : ℕ) (s : PState κ V) : PState κ V × List ℕ :=
  ({ heap := fun i => if s.next ≤ i ∧ i < s.next + size then ind0 else s.heap i, next := s.next + size },
   (List.range size).map (s.next + ·))

/-- `population.py:105-121` `Population.new(**kwargs)`: `none` = the exception for columns of different lengths. A value
without `len` raises in the code as well. -/
def popNew (ind0 : κ → Option V) (kwargs : List (κ × List V)) (s : PState κ V) : Option (PState κ V × List ℕ) :=
  let go (size : ℕ) : Option (PState κ V × List ℕ) :=
    let e := popEmpty ind0 size s
    let r := popSet e.2 (kwargs.map fun kv => (kv.1, PVal.column kv.2)) e.1.heap
    if r.2 then some ({ e.1 with heap := r.1 }, e.2) else none
  if kwargs.length > 0 then
    match (kwargs.map fun kv => kv.2.length).dedup with
    | [size] => go size
    | _ => none
  else go 0

/-- The possible arguments of `merge` (`population.py:145-164`). -/
inductive MArg (V : Type*)
  | none
  | pop (ids : List ℕ)
  | ind (i : ℕ)
  | array (rows : List V)
  | other

/-- What `pop_from_array_or_individual` and `merge` return: a population, `None`, or an exception. -/
inductive MRes
  | pop (ids : List ℕ)
  | none
  | raises
  deriving DecidableEq

/-- `population.py:124-142` `pop_from_array_or_individual(array)`; `xkey` is `"X"`. -/
def popFrom (ind0 : κ → Option V) (xkey : κ) (a : MArg V) (s : PState κ V) : PState κ V × MRes :=
  match a with
  | .pop ids => (s, .pop ids)
  | .array rows =>
    match popNew ind0 [(xkey, rows)] s with
    | some (s', ids) => (s', .pop ids)
    | none => (s, .raises)
  | .ind i => ({ s with next := s.next + 1 }, .pop [i])
  | .none => (s, .none)
  | .other => (s, .none)

/-- `population.py:145-164` `merge(a, b)`. -/
def mergeTwo (ind0 : κ → Option V) (xkey : κ) (a b : MArg V) (s : PState κ V) : PState κ V × MRes :=
  match a, b with
  | .none, .none => (s, .raises)
  | .none, b => popFrom ind0 xkey b s
  | a, .none => popFrom ind0 xkey a s
  | a, b =>
    let ra := popFrom ind0 xkey a s
    let rb := popFrom ind0 xkey b ra.1
    (rb.1, match ra.2, rb.2 with
      | .pop la, .pop lb => if la.length = 0 then .pop lb else if lb.length = 0 then .pop la else .pop (la ++ lb)
      | _, _ => .raises)

/-- The result of a merge as an argument of the next one. -/
def MRes.toArg : MRes → Option (MArg V)
  | .pop ids => some (.pop ids)
  | .none => some .none
  | .raises => Option.none

/-- `population.py:89-92`: the loop over the other arguments. -/
def mergeRest (ind0 : κ → Option V) (xkey : κ) : List (MArg V) → PState κ V × MRes → PState κ V × MRes
  | [], r => r
  | o :: others, r =>
    match (r.2.toArg : Option (MArg V)) with
    | some m => mergeRest ind0 xkey others (mergeTwo ind0 xkey m o r.1)
    | Option.none => r

/-- `population.py:83-94` `Population.merge(a, b, *args)`. -/
def popMerge (ind0 : κ → Option V) (xkey : κ) (a b : MArg V) (others : List (MArg V)) (s : PState κ V) :
    PState κ V × MRes :=
  mergeRest ind0 xkey others (mergeTwo ind0 xkey a b s)

end Model
