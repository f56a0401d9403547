import Verif.Model.OtherNDS
import Verif.Model.FastNDS
import Mathlib.Data.List.Sort
import Mathlib.Data.List.Lex
import Mathlib.Data.List.OfFn

/-!
# Model: the compiled sorting routines (`pymoo/functions/compiled/non_dominated_sorting.pyx`)

These are the functions `load_function` returns when the extension modules are available. `boundscheck` is off in these files: an index outside an array
is undefined behaviour. C `int`s are integers (no overflow), `double`s a linearly ordered group.
-/

namespace Model

variable {α : Type*} [LinearOrder α] {m n : ℕ}

section Relation
variable [AddCommGroup α]

/-- Lines 537-560 `c_get_relation(F, a, b, epsilon)`: the loop over the objectives with its verdict `val`. -/
def cRelLoop (eps : α) (a b : Fin m → α) : List (Fin m) → ℤ → ℤ
  | [], val => val
  | i :: is, val =>
    if a i + eps < b i then
      if val = -1 then 0 else cRelLoop eps a b is 1
    else if a i > b i + eps then
      if val = 1 then 0 else cRelLoop eps a b is (-1)
    else cRelLoop eps a b is val

/-- Lines 537-560. -/
def cRelation (eps : α) (a b : Fin m → α) : ℤ := cRelLoop eps a b (List.finRange m) 0

/-- Lines 106-123: the `while` loop with its two additional stopping criteria (`none` as a limit stands for `INT_MAX`); running out of fuel is the result
`none`. One round is that of the Python version. -/
def cPeelLoop (isDominating : Fin n → List (Fin n)) (stop nFronts : Option ℕ) :
    ℕ → (current : List (Fin n)) → (nDominated : Fin n → ℤ) → (nRanked : ℕ) → (fronts : List (List (Fin n))) → Option (List (List (Fin n)))
  | fuel, current, nDominated, nRanked, fronts =>
    if nRanked < n ∧ (stop.all fun k => decide (nRanked < k)) = true ∧ (nFronts.all fun k => decide (fronts.length < k)) = true then
      match fuel with
      | 0 => none
      | fuel + 1 =>
        let r := peelRound isDominating current nDominated nRanked
        cPeelLoop isDominating stop nFronts fuel r.nextFront r.nDominated r.nRanked (fronts ++ [r.nextFront])
    else some fronts

/-- Lines 56-125 `c_fast_non_dominated_sort`. The counting phase (85-101) is the one of the Python version with the relation in place of the matrix; the
`n` empty vectors appended to `is_dominating` in lines 76-77 are never used. -/
def cFastSort (fuel : ℕ) (eps : α) (stop nFronts : Option ℕ) (F : Fin n → Fin m → α) : Option (List (List (Fin n))) :=
  if n = 0 then some []
  else
    let s := fastInit fun i j => cRelation eps (F i) (F j)
    cPeelLoop s.isDominating stop nFronts fuel s.currentFront s.nDominated s.nRanked [s.currentFront]

/-- Lines 132-163 `c_find_non_dominated`. -/
def cFindNonDominated (eps : α) (F : Fin n → Fin m → α) : List (Fin n) :=
  (List.finRange n).filter fun i => !((List.finRange n).any fun j => decide (i ≠ j) && decide (cRelation eps (F j) (F i) = 1))

/-! ### Efficient sorting (lines 404-525) -/

/-- Lines 464-472 / 502-510: the members of a front in reverse order, up to the first that dominates. -/
def cNonDominatedIn (F : Fin n → Fin m → α) (i : Fin n) (front : List (Fin n)) : Bool :=
  front.reverse.all fun j => cRelation 0 (F i) (F j) != -1

/-- Lines 447-480 `sequential_search`, over the fronts from number `k` on. -/
def cSeqLoop (F : Fin n → Fin m → α) (i : Fin n) : List (List (Fin n)) → ℕ → ℕ
  | [], k => k
  | f :: fs, k => if cNonDominatedIn F i f then k else cSeqLoop F i fs (k + 1)

/-- Lines 482-525 `binary_search`: the loop. `none` = out of fuel or an index outside `fronts`. -/
def cBinLoop (F : Fin n → Fin m → α) (i : Fin n) (fronts : List (List (Fin n))) : ℕ → (kMin kMax k : ℕ) → Option ℕ
  | 0, _, _, _ => none
  | fuel + 1, kMin, kMax, k =>
    if k = 0 then none
    else match fronts[k - 1]? with
      | none => none
      | some front =>
        if cNonDominatedIn F i front then
          if k = kMin + 1 then some (k - 1)
          else cBinLoop F i fronts fuel kMin k ((k + kMin + 1) / 2)
        else
          if kMax = k + 1 ∧ kMax < fronts.length then some (kMax - 1)
          else if k = fronts.length then some fronts.length
          else cBinLoop F i fronts fuel k kMax ((kMax + k + 1) / 2)

/-- Lines 421-424: the front number. -/
def cEnsSearch (st : EnsStrategy) (F : Fin n → Fin m → α) (i : Fin n) (fronts : List (List (Fin n))) : Option ℕ :=
  match st with
  | .sequential => some (cSeqLoop F i fronts 0)
  | .binary =>
    if fronts.length = 0 then some 0
    else cBinLoop F i fronts (2 * fronts.length + 2) 0 fronts.length ((fronts.length + 0 + 1) / 2)

/-- Lines 419-430. -/
def cEnsInsert (st : EnsStrategy) (F : Fin n → Fin m → α) : List (Fin n) → List (List (Fin n)) → Option (List (List (Fin n)))
  | [], fronts => some fronts
  | i :: is, fronts =>
    match cEnsSearch st F i fronts with
    | none => none
    | some k => cEnsInsert st F is ((if k ≥ fronts.length then fronts ++ [[]] else fronts).modify k (· ++ [i]))

/-- Lines 404-443 `c_efficient_non_dominated_sort`. -/
def cEfficientSort (st : EnsStrategy) (I : Equiv.Perm (Fin n)) (F : Fin n → Fin m → α) : Option (List (List (Fin n))) :=
  (cEnsInsert st (fun i => F (I i)) (List.finRange n) []).map fun fronts => fronts.map fun f => f.map I

end Relation

/-! ### Dominance degree (lines 388-393, 577-686) -/

/-- Lines 597-605: the comparison matrix of one objective, from a zero matrix; `prev` is `b[i - 1]`. -/
def cCompLoop (vec : Fin n → α) : Fin n → List (Fin n) → (Fin n → Fin n → ℤ) → (Fin n → Fin n → ℤ)
  | _, [], c => c
  | prev, s :: rest, c =>
    if vec s = vec prev then cCompLoop vec s rest (Function.update c s (c prev))
    else cCompLoop vec s rest (Function.update c s fun b => if b ∈ s :: rest then 1 else c s b)

/-- Lines 593-611: adds the comparison matrix to `D`. For `n = 0` all loops are empty. -/
def cComp (vec : Fin n → α) (b : List (Fin n)) (D : Fin n → Fin n → ℤ) : Fin n → Fin n → ℤ :=
  match b with
  | [] => D
  | s :: rest =>
    let c := cCompLoop vec s rest (Function.update (fun _ _ => 0) s fun _ => 1)
    fun i j => D i j + c i j

/-- Lines 617-621: one pair. -/
def cRemovePair (m : ℕ) (D : Fin n → Fin n → ℤ) (p : Fin n × Fin n) : Fin n → Fin n → ℤ :=
  if D p.1 p.2 = (m : ℤ) then
    if D p.2 p.1 = (m : ℤ) then
      fun i j => if (i = p.2 ∧ j = p.1) ∨ (i = p.1 ∧ j = p.2) then 0 else D i j
    else D
  else D

/-- Lines 613-621 `c_remove_dominators`: in place, over the pairs `i ≤ j`. -/
def cRemove (m : ℕ) (D : Fin n → Fin n → ℤ) : Fin n → Fin n → ℤ :=
  (((List.finRange n).flatMap fun i => ((List.finRange n).filter fun j => decide (i ≤ j)).map fun j => (i, j))).foldl (cRemovePair m) D

/-- Lines 577-591 `c_construct_domination_matrix`. -/
def cDegree (F : Fin n → Fin m → α) (b : Fin m → List (Fin n)) : Fin n → Fin n → ℤ :=
  cRemove m ((List.finRange m).foldl (fun D c => cComp (fun i => F i c) (b c) D) fun _ _ => 0)

/-- Lines 633-646: the column maxima, starting from `-1`, and the members of the next front. -/
def cDdaFront (m : ℕ) (D : Fin n → Fin n → ℤ) : List (Fin n) :=
  (List.finRange n).filter fun i =>
    let v := (List.finRange n).foldl (fun mx j => max mx (D j i)) (-1)
    decide (0 ≤ v ∧ v < (m : ℤ))

/-- Lines 648-661 `c_dda_ns_get_fronts` with fuel. -/
def cDdaLoop (m : ℕ) : ℕ → (Fin n → Fin n → ℤ) → (count : ℕ) → Option (List (List (Fin n)))
  | 0, _, count => if count < n then none else some []
  | fuel + 1, D, count =>
    if count < n then
      let front := cDdaFront m D
      (cDdaLoop m fuel (fun i j => if i ∈ front ∨ j ∈ front then -1 else D i j) (count + front.length)).map (front :: ·)
    else some []

/-- Lines 663-686 `c_dda_ens_get_fronts`: one solution. -/
def cDdaInsert (m : ℕ) (D : Fin n → Fin n → ℤ) (s : Fin n) : List (List (Fin n)) → List (List (Fin n))
  | [] => [[s]]
  | fk :: fs => if fk.any fun sd => decide (D sd s = (m : ℤ)) then fk :: cDdaInsert m D s fs else (fk ++ [s]) :: fs

/-- Lines 42-45, 388-396 `dominance_degree_non_dominated_sort(F, strategy)`. -/
def cDdaSort (strategy : String) (fuel : ℕ) (F : Fin n → Fin m → α) (b : Fin m → List (Fin n)) (order : List (Fin n)) : SortResult n :=
  if strategy ≠ "fast" ∧ strategy ≠ "efficient" then .valueError
  else if strategy = "efficient" then .ok (order.foldl (fun fronts s => cDdaInsert m (cDegree F b) s fronts) [])
  else
    match cDdaLoop m fuel (cDegree F b) 0 with
    | some f => .ok f
    | none => .failed

/-! ### Best order sort (lines 166-383) -/

/-- The local variables of `c_best_order_sort` and `c_fast_best_order_sort`: `rank` (`-1` is `none`), the fronts per objective, the fronts, and (fast
version) the number of encounters and `check_if_equal` (`-1` is `none`, `-2` is `some none`). -/
structure BosSt (n m : ℕ) where
  rank : Fin n → Option ℕ
  L : Fin m → List (List (Fin n))
  fronts : List (List (Fin n))
  counter : Fin n → ℕ
  next : Fin n → Option (Option (Fin n))

/-- Lines 182-193, 290-309: initial values. -/
def BosSt.init : BosSt n m := { rank := fun _ => none, L := fun _ => [], fronts := [], counter := fun _ => 0, next := fun _ => none }

/-- Lines 233-247, 364-378: `s` gets rank `k`, a new front is opened for every objective if necessary. -/
def bosPut (st : BosSt n m) (j : Fin m) (s : Fin n) (k : ℕ) : BosSt n m :=
  { st with
    rank := Function.update st.rank s (some k)
    L := fun l =>
      let Ll := if k ≥ st.fronts.length then st.L l ++ [[]] else st.L l
      if l = j then Ll.modify k (· ++ [s]) else Ll
    fronts := (if k ≥ st.fronts.length then st.fronts ++ [[]] else st.fronts).modify k (· ++ [s]) }

/-- Lines 200-247 / 330-378 after the bookkeeping: `s` is the next solution of objective `j`; `blocks` tells whether a front of this objective contains a
solution because of which `s` does not belong to it. The `break` once all solutions are ranked only leaves out appends to `L` and is not modelled. -/
def bosVisit (blocks : List (Fin n) → Bool) (st : BosSt n m) (j : Fin m) (s : Fin n) : BosSt n m :=
  match st.rank s with
  | some r => { st with L := fun l => if l = j then (st.L l).modify r (· ++ [s]) else st.L l }
  | none => bosPut st j s ((st.L j).findIdx fun f => !blocks f)

/-- The visits in the order of the two loops (lines 199-202, 316-321). -/
def bosPairs (n m : ℕ) : List (ℕ × Fin m) := (List.range n).flatMap fun i => (List.finRange m).map fun j => (i, j)

/-- Lines 178-180: `np.lexsort(F[:, j:][:, ::-1].T)`: by objective `j`, then the following ones; equal rows by their number. -/
def bosOrder (F : Fin n → Fin m → α) (j : Fin m) : List (Fin n) :=
  (List.finRange n).insertionSort fun a b => List.Lex (· < ·) ((List.ofFn (F a)).drop j) ((List.ofFn (F b)).drop j) ∨
    ((List.ofFn (F a)).drop j = (List.ofFn (F b)).drop j ∧ a ≤ b)

section Bos
variable [AddCommGroup α]

/-- Lines 199-252: one visit of `c_best_order_sort`. -/
def bosStep (F : Fin n → Fin m → α) (Q : Fin m → List (Fin n)) (st : BosSt n m) (p : ℕ × Fin m) : BosSt n m :=
  match (Q p.2)[p.1]? with
  | none => st
  | some s => bosVisit (fun f => f.any fun e => cRelation 0 (F s) (F e) == -1) st p.2 s

/-- Lines 166-252 `c_best_order_sort`. -/
def bosSort (F : Fin n → Fin m → α) : List (List (Fin n)) := ((bosPairs n m).foldl (bosStep F (bosOrder F)) BosSt.init).fronts

end Bos

/-- Lines 270-273: the first column is sorted by the whole row, column `j` by objective `j` and then by `_Q[:, 0]` — the entry number `s` of the first
column, not the position of `s` in it. -/
def fboOrder (F : Fin n → Fin m → α) (j : Fin m) : List (Fin n) :=
  let Q0 := (List.finRange n).insertionSort fun a b => List.Lex (· < ·) (List.ofFn (F a)) (List.ofFn (F b)) ∨ (List.ofFn (F a) = List.ofFn (F b) ∧ a ≤ b)
  if j.val = 0 then Q0
  else (List.finRange n).insertionSort fun a b => F a j < F b j ∨ (F a j = F b j ∧ (Q0.getD a a).val ≤ (Q0.getD b b).val)

/-- Lines 277-286: the objectives of a solution in the order in which it is visited. -/
def fboObjs (Q : Fin m → List (Fin n)) (s : Fin n) : List (Fin m) := ((bosPairs n m).filter fun p => (Q p.2)[p.1]? == some s).map (·.2)

/-- Lines 562-568 `c_is_dominating_or_equal(F, a, b, C, k)`. -/
def fboDom (F : Fin n → Fin m → α) (C : Fin n → List (Fin m)) (a b : Fin n) (k : ℕ) : Bool := ((C b).drop k).all fun j => !decide (F b j < F a j)

/-- Lines 347-360: the scan of a front; the flags `is_dominated`, `is_equal` when it ends. -/
def fboScan (F : Fin n → Fin m → α) (C : Fin n → List (Fin m)) (next : Fin n → Option (Option (Fin n))) (s : Fin n) (k : ℕ) :
    List (Fin n) → Bool × Bool → Bool × Bool
  | [], r => r
  | e :: es, r =>
    let d := fboDom F C e s k
    let q := if d && (next e == some (some s)) then decide (∀ c, F s c = F e c) else r.2
    if d || q then (d, q) else fboScan F C next s k es (d, q)

/-- Lines 316-381: one visit of `c_fast_best_order_sort`. `s_next = Q[i + 1, j]` of the last row is outside the array, but not used (330). -/
def fboStep (F : Fin n → Fin m → α) (Q : Fin m → List (Fin n)) (st : BosSt n m) (p : ℕ × Fin m) : BosSt n m :=
  match (Q p.2)[p.1]? with
  | none => st
  | some s =>
    let counter := Function.update st.counter s (st.counter s + 1)
    let next := match (Q p.2)[p.1 + 1]? with
      | none => st.next
      | some t => Function.update st.next s (match st.next s with
        | none => some (some t)
        | some q => if q = some t then some q else some none)
    bosVisit (fun f => let r := fboScan F (fboObjs Q) next s (counter s) f (false, false); r.1 && !r.2)
      { st with counter := counter, next := next } p.2 s

/-- Lines 256-383 `c_fast_best_order_sort`. -/
def fboSort (F : Fin n → Fin m → α) : List (List (Fin n)) := ((bosPairs n m).foldl (fboStep F (fboOrder F)) BosSt.init).fronts

end Model
