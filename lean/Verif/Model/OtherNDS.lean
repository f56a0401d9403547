import Verif.Model.Dominator
import Verif.Model.ENS

/-!
# Model of the remaining sorting routines of
`pymoo/functions/standard/non_dominated_sorting.py`

Sorting permutations computed by numpy are arguments (see `Verif/Spec/Lex.lean` for what is assumed).
-/

namespace Model

variable {α : Type*} [LinearOrder α] {m n : ℕ}

/-! ## `_fast_biobjective_nondominated_sort` (lines 93-148) -/

/-- Lines 119-141: one pass over the not yet assigned positions. `min2 = none` stands for
`min_second_obj = inf` together with `current_indices = []`. The pass over `range(n_points)` that skips
assigned positions is modelled as a pass over the list of unassigned positions; the result is
(positions of the front, positions still unassigned). -/
def biobjPass (G : Fin n → Fin 2 → α) : List (Fin n) → Option α → List (Fin n) × List (Fin n)
  | [], _ => ([], [])
  | i :: is, min2 =>
    match min2 with
    | none =>
      let r := biobjPass G is (some (G i 1))
      (i :: r.1, r.2)
    | some v =>
      if G i 1 ≥ v then
        let r := biobjPass G is (some v)
        (r.1, i :: r.2)
      else
        let r := biobjPass G is (some (min v (G i 1)))
        (i :: r.1, r.2)

/-- Lines 115-146: the `while n_assigned < n_points` loop, with fuel. -/
def biobjLoop (G : Fin n → Fin 2 → α) : ℕ → List (Fin n) → Option (List (List (Fin n)))
  | _, [] => some []
  | 0, _ :: _ => none
  | fuel + 1, rem =>
    let r := biobjPass G rem none
    if r.1 = [] then some []      -- line 146: `break`
    else (biobjLoop G fuel r.2).map (r.1 :: ·)

/-- Lines 93-148; `I` is `np.argsort(F[:, 0])` (line 108). -/
def biobjSort (fuel : ℕ) (I : Equiv.Perm (Fin n)) (F : Fin n → Fin 2 → α) : Option (List (List (Fin n))) :=
  (biobjLoop (fun i => F (I i)) fuel (List.finRange n)).map (fun fronts => fronts.map (fun f => f.map I))

/-! ## `find_non_dominated` (lines 151-194) -/

section find
variable [AddCommGroup α]

/-- Lines 175-183: the objective loop with its two flags and its `break`; returns
`(dominates, at_least_one_better)`. -/
def findInner (eps : α) (fj fi : Fin m → α) : List (Fin m) → Bool → Bool × Bool
  | [], better => (true, better)
  | c :: cs, better =>
    if fj c + eps < fi c then findInner eps fj fi cs true
    else if fj c > fi c + eps then (false, better)
    else findInner eps fj fi cs better

/-- Lines 172-188: is point `i` dominated by some `j ≠ i` (the `break` makes this a search). -/
def findIsDominated (eps : α) (F : Fin n → Fin m → α) (i : Fin n) : Bool :=
  (List.finRange n).any fun j =>
    if i ≠ j then
      let r := findInner eps (F j) (F i) (List.finRange m) false
      r.1 && r.2
    else false

/-- Lines 151-194 `find_non_dominated(F, epsilon)`. -/
def findNonDominated (eps : α) (F : Fin n → Fin m → α) : List (Fin n) :=
  (List.finRange n).filter fun i => !findIsDominated eps F i

/-- `pymoo/util/nds/non_dominated_sorting.py:82-90` (branch with `_F` given) `find_non_dominated(F, _F)`:
`np.where(np.all(M >= 0, axis=1))[0]` for the domination matrix `M` of `F` against `_F`. -/
def findNonDominatedAgainst {k : ℕ} (F : Fin n → Fin m → α) (F' : Fin k → Fin m → α) : List (Fin n) :=
  (List.finRange n).filter fun i => (List.finRange k).all fun j => decide (dominationMatrix F F' 0 i j ≥ 0)

end find

/-! ## Dominance degree approach (lines 447-562) -/

/-- Lines 463-468: the loop over the remaining sorted positions; `prev` is `sorted_idx[i-1]`, the list is
`sorted_idx[i:]`. -/
def compLoop (vec : Fin n → α) : Fin n → List (Fin n) → (Fin n → Fin n → ℤ) → (Fin n → Fin n → ℤ)
  | _, [], c => c
  | prev, s :: rest, c =>
    if vec s = vec prev then compLoop vec s rest (Function.update c s (c prev))
    else compLoop vec s rest (Function.update c s (fun b => if b ∈ s :: rest then 1 else c s b))

/-- Lines 447-470 `construct_comp_matrix(vec, sorted_idx)`; `none` is the IndexError of `sorted_idx[0]` on
an empty input (line 461). -/
def compMatrix (vec : Fin n → α) (sortedIdx : List (Fin n)) : Option (Fin n → Fin n → ℤ) :=
  match sortedIdx with
  | [] => none
  | s :: rest => some (compLoop vec s rest (Function.update (fun _ _ => 0) s (fun _ => 1)))

/-- Lines 485-486: accumulate the comparison matrices of the objectives; `b c` is the argsort of
column `c`. -/
def degreeLoop (F : Fin n → Fin m → α) (b : Fin m → List (Fin n)) :
    List (Fin m) → (Fin n → Fin n → ℤ) → Option (Fin n → Fin n → ℤ)
  | [], d => some d
  | c :: cs, d =>
    match compMatrix (fun i => F i c) (b c) with
    | none => none
    | some x => degreeLoop F b cs (fun i j => d i j + x i j)

/-- Lines 473-488 `construct_domination_matrix(f_scores)`. -/
def degreeMatrix (F : Fin n → Fin m → α) (b : Fin m → List (Fin n)) : Option (Fin n → Fin n → ℤ) :=
  (degreeLoop F b (List.finRange m) (fun _ _ => 0)).map fun d =>
    fun i j => if d i j = (m : ℤ) ∧ d j i = (m : ℤ) then 0 else d i j

/-- Lines 508-509: `np.max(d_mx, axis=0)` and the test `0 <= m_d < n_obj`. -/
def ddaFront (m : ℕ) (d : Fin n → Fin n → ℤ) : List (Fin n) :=
  (List.finRange n).filter fun i =>
    match ((List.finRange n).map fun j => d j i).max? with
    | none => false
    | some v => decide (0 ≤ v ∧ v < (m : ℤ))

/-- Lines 506-513: the `while count < n` loop of DDA-NS, with fuel. -/
def ddaLoop (m : ℕ) : ℕ → (Fin n → Fin n → ℤ) → (count : ℕ) → Option (List (List (Fin n)))
  | 0, _, count => if count < n then none else some []
  | fuel + 1, d, count =>
    if count < n then
      let front := ddaFront m d
      let d' := fun i j => if i ∈ front ∨ j ∈ front then -1 else d i j
      (ddaLoop m fuel d' (count + front.length)).map (front :: ·)
    else some []

/-- Lines 491-515 `dda_ns`. -/
def ddaNs (fuel : ℕ) (F : Fin n → Fin m → α) (b : Fin m → List (Fin n)) : Option (List (List (Fin n))) :=
  match degreeMatrix F b with
  | none => none
  | some d => ddaLoop m fuel d 0

/-- Lines 532-539: put `s` into the first front without a member whose degree against `s` is `n_obj`. -/
def ddaInsert (m : ℕ) (d : Fin n → Fin n → ℤ) (s : Fin n) : List (List (Fin n)) → List (List (Fin n))
  | [] => [[s]]
  | fk :: fs =>
    if !(fk.any fun j => decide (d j s = (m : ℤ))) then (fk ++ [s]) :: fs
    else fk :: ddaInsert m d s fs

/-- Lines 518-540 `dda_ens`; `order` is `np.lexsort(f_scores.T)`. -/
def ddaEns (F : Fin n → Fin m → α) (b : Fin m → List (Fin n)) (order : List (Fin n)) :
    Option (List (List (Fin n))) :=
  match degreeMatrix F b with
  | none => none
  | some d => some (order.foldl (fun fronts s => ddaInsert m d s fronts) [])

/-- Outcome of a call that may raise. -/
inductive SortResult (n : ℕ)
  | ok (fronts : List (List (Fin n)))
  | valueError
  | failed      -- IndexError or divergence
  deriving DecidableEq

/-- Lines 543-562 `dominance_degree_non_dominated_sort(f_scores, strategy)`. -/
def ddaSort (strategy : String) (fuel : ℕ) (F : Fin n → Fin m → α) (b : Fin m → List (Fin n))
    (order : List (Fin n)) : SortResult n :=
  let lift : Option (List (List (Fin n))) → SortResult n
    | some f => .ok f
    | none => .failed
  if strategy = "efficient" then lift (ddaEns F b order)
  else if strategy = "fast" then lift (ddaNs fuel F b)
  else .valueError

/-! ## Tree-based sorting (lines 323-444) -/

/-- Lines 323-329: a tree node with `b = n_obj - 1` branches; `empty` is Python's `None`. (The parent
weak reference is never read by the sorting and is left out.) -/
inductive NTree (n b : ℕ)
  | empty
  | node (key : Fin n) (children : Fin b → NTree n b)

/-- Lines 402 and 443: `Tree(key=p, num_branch=M - 1)`. -/
def NTree.leaf {b : ℕ} (p : Fin n) : NTree n b := .node p (fun _ => .empty)

def NTree.isEmpty {b : ℕ} : NTree n b → Bool
  | .empty => true
  | .node _ _ => false

/-- Lines 426-429: the smallest `m` with `F[p, seq m] < F[key, seq m]`, if any (`m == M-1` means none). -/
def firstLess {b : ℕ} (F : Fin n → Fin (b + 1) → α) (seq : Fin n → Fin b → Fin b) (p key : Fin n) :
    Option (Fin b) :=
  (List.finRange b).find? fun c => decide (F p (seq key c).succ < F key (seq key c).succ)

/-- Lines 408-444 `check_tree(F, p, tree, obj_seq, add_pos)`, returning the answer and the mutated tree.
`obj_seq[key]` (line 368, an argsort plus one) is `fun c => (seq key c).succ` with `seq key` a permutation.
The branches `i < m` are visited with `add_pos = False` and are therefore not modified
(`checkTree_false` in the lemmas proves that such a visit never mutates). -/
def checkTree {b : ℕ} (F : Fin n → Fin (b + 1) → α) (seq : Fin n → Fin b → Fin b) (p : Fin n) :
    NTree n b → Bool → Bool × NTree n b
  | .empty, _ => (true, .empty)
  | .node key ch, addPos =>
    match firstLess F seq p key with
    | none => (false, .node key ch)
    | some mi =>
      if (List.finRange b).all (fun i => if i < mi then (checkTree F seq p (ch i) false).1 else true) then
        let r := checkTree F seq p (ch mi) addPos
        if r.1 then
          if r.2.isEmpty && addPos then (true, .node key (Function.update ch mi (NTree.leaf p)))
          else (true, .node key (Function.update ch mi r.2))
        else (false, .node key (Function.update ch mi r.2))
      else (false, .node key ch)

/-- Lines 389-405 `update_tree`: returns the new tree and whether `p` was inserted (`left[p] = False`). -/
def updateTree {b : ℕ} (F : Fin n → Fin (b + 1) → α) (seq : Fin n → Fin b → Fin b) (p : Fin n)
    (t : NTree n b) : NTree n b × Bool :=
  match t with
  | .empty => (NTree.leaf p, true)
  | .node key ch =>
    let r := checkTree F seq p (.node key ch) true
    (r.2, r.1)

/-- Lines 377-379: one pass over the points still left; returns the tree and the points left afterwards. -/
def treePass {b : ℕ} (F : Fin n → Fin (b + 1) → α) (seq : Fin n → Fin b → Fin b) :
    List (Fin n) → NTree n b → NTree n b × List (Fin n)
  | [], t => (t, [])
  | p :: ps, t =>
    let r := updateTree F seq p t
    let q := treePass F seq ps r.1
    (q.1, if r.2 then q.2 else p :: q.2)

/-- Lines 374-380: `while np.any(left)`, with fuel; produces the forest. -/
def treeLoop {b : ℕ} (F : Fin n → Fin (b + 1) → α) (seq : Fin n → Fin b → Fin b) :
    ℕ → List (Fin n) → Option (List (NTree n b))
  | _, [] => some []
  | 0, _ :: _ => none
  | fuel + 1, left =>
    let r := treePass F seq left .empty
    (treeLoop F seq fuel r.2).map (r.1 :: ·)

/-- Lines 344-351 `Tree.traversal`: the keys in pre-order. -/
def NTree.traversal {b : ℕ} : NTree n b → List (Fin n)
  | .empty => []
  | .node key ch => key :: (List.finRange b).flatMap fun i => (ch i).traversal

/-- Lines 354-386 `tree_based_non_dominated_sort(F)`; `I` is `np.lexsort(F.T[::-1])`. -/
def treeSort {b : ℕ} (fuel : ℕ) (I : Equiv.Perm (Fin n)) (seq : Fin n → Fin b → Fin b)
    (F : Fin n → Fin (b + 1) → α) : Option (List (List (Fin n))) :=
  (treeLoop (fun i => F (I i)) seq fuel (List.finRange n)).map
    (fun forest => forest.map (fun t => t.traversal.map I))

end Model
