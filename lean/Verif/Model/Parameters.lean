import Mathlib.Data.List.Basic

/-!
# Model of `pymoo/core/parameters.py`: nested and flat parameter dictionaries

A parameter name is a list of characters. A Python dictionary is the list of its items in insertion order. A nested dictionary
is a tree whose leaves are the parameters (objects without `items`).
-/

namespace Model

/-- A parameter name. -/
abbrev PKey := List Char

/-- `d.get(k)`. -/
def dGet {β : Type*} : List (PKey × β) → PKey → Option β
  | [], _ => none
  | (a, v) :: l, k => if a = k then some v else dGet l k

/-- `d[k] = v`: an existing item keeps its place, a new one goes to the end. -/
def dSet {β : Type*} : List (PKey × β) → PKey → β → List (PKey × β)
  | [], k, v => [(k, v)]
  | (a, w) :: l, k, v => if a = k then (a, v) :: l else (a, w) :: dSet l k v

/-- A nested dictionary (`node`) or a parameter (`leaf`). -/
inductive PTree (α : Type)
  | leaf (v : α)
  | node (items : List (PKey × PTree α))

/-- `parameters.py:181` the new prefix `f"{prefix}.{k}" if prefix is not None else k`. -/
def newPrefix : Option PKey → PKey → PKey
  | none, k => k
  | some p, k => p ++ '.' :: k

mutual
/-- `parameters.py:169-183` `flatten_rec(params, prefix)` with a prefix. -/
def flattenRec {α : Type} (p : PKey) : PTree α → List (PKey × α)
  | .leaf v => [(p, v)]
  | .node items => flattenItems (some p) items
/-- `parameters.py:180-181`: the loop over the items. -/
def flattenItems {α : Type} (p : Option PKey) : List (PKey × PTree α) → List (PKey × α)
  | [] => []
  | (k, t) :: rest => flattenRec (newPrefix p k) t ++ flattenItems p rest
end

/-- `parameters.py:157-166` `flatten(params)` of a dictionary: a dict comprehension. -/
def flattenDict {α : Type} (items : List (PKey × PTree α)) : List (PKey × α) :=
  (flattenItems none items).foldl (fun d e => dSet d e.1 e.2) []

/-- Put a character in front of the first part. -/
def consFirst (c : Char) : List PKey → List PKey
  | [] => [[c]]
  | h :: t => (c :: h) :: t

/-- `k.split(".")`. -/
def splitDots : PKey → List PKey
  | [] => [[]]
  | c :: s => if c = '.' then [] :: splitDots s else consFirst c (splitDots s)

/-- `".".join(a)`. -/
def joinDots : List PKey → PKey
  | [] => []
  | [a] => a
  | a :: b :: l => a ++ '.' :: joinDots (b :: l)

/-- `parameters.py:199-206`, the effect of one item on `ret` (keys with one part). -/
def addLeaf {α : Type} (ret : List (PKey × PTree α)) (e : PKey × α) : List (PKey × PTree α) :=
  match splitDots e.1 with
  | [_] => dSet ret e.1 (.leaf e.2)
  | _ => ret

/-- `parameters.py:199-206`, the effect of one item on `groups` (keys with several parts). -/
def addGroup {α : Type} (groups : List (PKey × List (PKey × α))) (e : PKey × α) : List (PKey × List (PKey × α)) :=
  match splitDots e.1 with
  | a :: b :: l => dSet groups a (dSet ((dGet groups a).getD []) (joinDots (b :: l)) e.2)
  | _ => groups

/-- `parameters.py:186-211` `hierarchical(data)`; `fuel` bounds the recursion depth (every recursive call removes a `.` from
every key, so the number of dots of the longest key is enough; without fuel the result is empty). -/
def hierarchicalDict {α : Type} : ℕ → List (PKey × α) → List (PKey × PTree α)
  | 0, _ => []
  | fuel + 1, data =>
    (data.foldl addGroup []).foldl (fun ret g => dSet ret g.1 (.node (hierarchicalDict fuel g.2))) (data.foldl addLeaf [])

mutual
/-- `parameters.py:137-154` `set_params(obj, params)` for one entry `v` of `params` applied to `data[k]`. `obj` is a tree of
variables (their values at the leaves), none of them shared. `none` = an exception. -/
def setParamEntry {α : Type} : PTree α → PTree α → Option (PTree α)
  | .leaf v, .leaf _ => some (.leaf v)
  | .node ps, .node items => (setParamItems ps items).map .node
  | .node [], .leaf v => some (.leaf v)
  | _, _ => none
/-- `parameters.py:147-154`: the loop over `params.items()`. -/
def setParamItems {α : Type} : List (PKey × PTree α) → List (PKey × PTree α) → Option (List (PKey × PTree α))
  | [], items => some items
  | (k, p) :: rest, items =>
    (dGet items k).bind fun t => (setParamEntry p t).bind fun t' => setParamItems rest (dSet items k t')
end

/-! ### Collecting the parameters of an object -/

/-- A `Variable` object: its identity, `flag`, and `active`. -/
structure PVar where
  id : ℕ
  flag : ℕ
  active : Bool
  deriving DecidableEq

/-- `parameters.py:60-69`: walk down `ret` along the prefix, creating missing dictionaries, and store the variable. `none` = an
exception (`e` is not a dictionary, or the prefix is empty). -/
def insertAt : List (PKey × PTree PVar) → List PKey → PVar → Option (List (PKey × PTree PVar))
  | _, [], _ => none
  | ret, [k], v => some (dSet ret k (.leaf v))
  | ret, k :: k' :: ks, v =>
    match dGet ret k with
    | none => (insertAt [] (k' :: ks) v).map fun l => dSet ret k (.node l)
    | some (.node l) => (insertAt l (k' :: ks) v).map fun l' => dSet ret k (.node l')
    | some (.leaf _) => none

/-- `parameters.py:59` the test of a variable. -/
def wanted (flag : ℕ) (onlyActive : Bool) (visited : List ℕ) (v : PVar) : Bool :=
  !visited.contains v.id && v.flag == flag && (!onlyActive || v.active)

/-- `parameters.py:39-78` `get_params_bfs`: `q` is the list with its last element first (`q.pop()` takes the last one). The
object is a tree: its attributes, dictionaries and variables; other attribute values are nodes without items. `none` = an
exception or not finished after `fuel` rounds. -/
def getParamsLoop (flag : ℕ) (onlyActive : Bool) :
    ℕ → List (List PKey × PTree PVar) → List ℕ → List (PKey × PTree PVar) → Option (List (PKey × PTree PVar))
  | _, [], _, ret => some ret
  | 0, _ :: _, _, _ => none
  | fuel + 1, (pre, .leaf v) :: q, visited, ret =>
    if wanted flag onlyActive visited v then
      (insertAt ret pre v).bind fun ret' => getParamsLoop flag onlyActive fuel q (v.id :: visited) ret'
    else getParamsLoop flag onlyActive fuel q (v.id :: visited) ret
  | fuel + 1, (pre, .node items) :: q, visited, ret =>
    getParamsLoop flag onlyActive fuel ((items.map fun e => (pre ++ [e.1], e.2)).reverse ++ q) visited ret

/-- `parameters.py:24-81` `get_params(obj, flag, only_active)` of an object that is not itself a variable. -/
def getParams (flag : ℕ) (onlyActive : Bool) (fuel : ℕ) (items : List (PKey × PTree PVar)) : Option (List (PKey × PTree PVar)) :=
  getParamsLoop flag onlyActive fuel [([], .node items)] [] []

end Model
