import Verif.Model.Pruning
import Mathlib.Data.Nat.Cast.Defs

/-!
# Model of the compiled pruning metrics

`pymoo/functions/compiled/{pruning_cd,mnn}.pyx` and `utils.pxd`, which replace `functions/standard/{pruning_cd,mnn}.py` if the extension modules were built.
Points are numbered `0 .. N - 1`. The modules are compiled with `boundscheck=False, wraparound=False`: an access outside an array is undefined behaviour,
here `none`. A `cpp_set[int]` is a list (its elements are visited in ascending order). Slices `a[n:-1]` of a memoryview mean what they mean in Python, and
the assignment of overlapping slices behaves as if the right-hand side was copied first.
-/

namespace Model

variable {K : Type*} [Field K] [LinearOrder K] {M : ℕ}

/-- utils.pxd 121-123 in `c_normalize_array`: the divisor of a column; a difference of zero is replaced by one. -/
def cNormRange (N : ℕ) (x : ℕ → Fin M → K) (j : Fin M) : K := if prHi N x j - prLo N x j = 0 then 1 else prHi N x j - prLo N x j

/-- utils.pxd 95-129 `c_normalize_array`. (The array is overwritten, and it is the caller's.) -/
def cNormalize (N : ℕ) (x : ℕ → Fin M → K) (i : ℕ) (j : Fin M) : K := (x i j - prLo N x j) / cNormRange N x j

/-- utils.pxd 16-32 `c_get_drop(d, H)`: the last one with the least value (`d[i] <= min_d` is written `¬ min_d < d[i]`); `0` if there is none. -/
def cDrop (d : ℕ → WithTop K) (H : List ℕ) : ℕ :=
  (H.foldl (fun (s : WithTop K × ℕ) i => if s.1 < d i then s else (d i, i)) ((⊤ : WithTop K), 0)).2

/-- The two neighbours `I[n - 1, m]` and `I[n + 1, m]` of the entry `n` of a column of `I`. -/
def cAround (col : List ℕ) (n : ℕ) : Option (ℕ × ℕ) :=
  match n with
  | 0 => none
  | p + 1 =>
    match col[p]?, col[p + 2]? with
    | some l, some u => some (l, u)
    | _, _ => none

/-- pruning_cd.pyx 141-149: the value that `D[i, m]` has after the scan of column `m`. -/
def cpcdEntry (v : ℕ → K) (N M : ℕ) (col : List ℕ) (i : ℕ) (old : WithTop K) : Option (WithTop K) :=
  (List.range N).foldlM (fun acc n => if col[n]? = some i then (cAround col n).map fun lu => (((v lu.2 - v lu.1) / (M : K) : K) : WithTop K) else some acc) old

/-- pruning_cd.pyx 124-149 `c_calc_pcd_iter`. -/
def cpcdIter (y : ℕ → Fin M → K) (N : ℕ) (I : Fin M → List ℕ) (items : List ℕ) (D : ℕ → Fin M → WithTop K) : Option (ℕ → Fin M → WithTop K) :=
  (items.flatMap fun i => (List.finRange M).map fun m => (i, m)).foldlM
    (fun D p => (cpcdEntry (fun i => y i p.2) N M (I p.2) p.1 (D p.1 p.2)).map fun w => fun i m => if i = p.1 ∧ m = p.2 then w else D i m) D

/-- pruning_cd.pyx 152-162 `c_calc_d`. -/
def cpcdSum (D : ℕ → Fin M → WithTop K) (items : List ℕ) (d : ℕ → WithTop K) : ℕ → WithTop K := fun i => if i ∈ items then ((List.finRange M).map (D i)).sum else d i

/-- pruning_cd.pyx 177-190: the scan of one column: the neighbours of `k` are remembered and `k` is taken out by shifting everything after it. -/
def cpcdDropCol (N k : ℕ) (col : List ℕ) : Option (List ℕ × List ℕ) :=
  (List.range N).foldlM
    (fun s n => if s.1[n]? = some k then (cAround s.1 n).map fun lu => (s.1.take n ++ s.1.drop (n + 1) ++ s.1.drop (N - 1), s.2 ++ [lu.1, lu.2]) else some s)
    (col, [])

/-- pruning_cd.pyx 166-192 `c_get_calc_items`. -/
def cpcdDrop (N k : ℕ) (I : Fin M → List ℕ) : Option ((Fin M → List ℕ) × List ℕ) :=
  (List.finRange M).foldlM (fun s m => (cpcdDropCol N k (s.1 m)).map fun r => (Function.update s.1 m r.1, s.2 ++ r.2)) (I, [])

/-- The local variables of `c_calc_pcd` (pruning_cd.pyx 54-121). -/
structure CpcdSt (K : Type*) (M : ℕ) where
  I : Fin M → List ℕ
  D : ℕ → Fin M → WithTop K
  d : ℕ → WithTop K
  H : List ℕ

/-- pruning_cd.pyx 96-119: one round of the loop. -/
def cpcdRound (y : ℕ → Fin M → K) (N : ℕ) (E : List ℕ) (st : CpcdSt K M) : Option (CpcdSt K M) :=
  let k := cDrop st.d st.H
  match cpcdDrop N k st.I with
  | none => none
  | some (I, items0) =>
    let items := items0.filter fun i => decide (i ∉ E)
    match cpcdIter y N I items st.D with
    | none => none
    | some D => some { I := I, D := D, d := cpcdSum D items st.d, H := st.H.filter fun i => decide (i ≠ k) }

/-- The loop `while n_removed < n_remove - 1`. -/
def cpcdLoop (y : ℕ → Fin M → K) (N : ℕ) (E : List ℕ) : ℕ → CpcdSt K M → Option (CpcdSt K M)
  | 0, st => some st
  | r + 1, st =>
    match cpcdRound y N E st with
    | none => none
    | some st' => cpcdLoop y N E r st'

/-- `calc_pcd(X, n_remove)` (pruning_cd.pyx 18-121): the columns are sorted before the normalisation, with a stable sort. -/
def cCalcPcd (N : ℕ) (x : ℕ → Fin M → K) (nRemove : ℤ) : Option (ℕ → WithTop K) :=
  let E := prExtremes N x
  let y := cNormalize N x
  let I : Fin M → List ℕ := fun m => prSorted (fun i => x i m) (List.range N)
  let items := (List.range N).filter fun i => decide (i ∉ E)
  match cpcdIter y N I items (fun _ _ => ⊤) with
  | none => none
  | some D => (cpcdLoop y N E (prCount N M nRemove - 1) { I := I, D := D, d := cpcdSum D items fun _ => ⊤, H := List.range N }).map (·.d)

/-! ### Nearest neighbours -/

/-- mnn.pyx 117-134: the matrix of squared distances. -/
def cmnnDist (y : ℕ → Fin M → K) (i j : ℕ) : K := ((List.finRange M).map fun m => (y j m - y i m) * (y j m - y i m)).sum

/-- mnn.pyx 202-217: `j` is offered to the neighbours `row` of a point with distances `δ` (`none` = `-1`). -/
def cmnnInsert (δ : ℕ → K) (j : ℕ) : List (Option ℕ) → List (Option ℕ)
  | [] => []
  | none :: row => some j :: row
  | some b :: row => if j = b then some b :: row else if δ j ≤ δ b then some j :: (some b :: row).dropLast else some b :: cmnnInsert δ j row

/-- mnn.pyx 192-217: `j` is looked at for point `i`. If the last neighbour is `-1`, the first comparison of line 199 reads outside of `D` but its result does not matter. -/
def cmnnOffer (δ : ℕ → K) (i : ℕ) (row : List (Option ℕ)) (j : ℕ) : List (Option ℕ) :=
  if j = i then row
  else
    match row.getLast? with
    | none => row
    | some none => cmnnInsert δ j row
    | some (some b) => if δ j ≤ δ b then cmnnInsert δ j row else row

/-- mnn.pyx 221-231 `c_calc_d`: the product of the distances to the neighbours; reads outside of `D` if one is missing. -/
def cmnnProd (δ : ℕ → K) (row : List (Option ℕ)) : Option K := row.foldlM (fun acc b => b.map fun b => acc * δ b) 1

/-- mnn.pyx 244-254: `k` is taken out of the neighbours of a point, for each position. -/
def cmnnDropRow (k : ℕ) (row : List (Option ℕ)) : List (Option ℕ) × Bool :=
  (List.range row.length).foldl (fun s m => if s.1[m]? = some (some k) then (s.1.take m ++ s.1.drop (m + 1) ++ [none], true) else s) (row, false)

/-- The local variables of `c_calc_mnn` (mnn.pyx 93-176). -/
structure CmnnSt (K : Type*) where
  nn : ℕ → List (Option ℕ)
  d : ℕ → WithTop K
  H : List ℕ

/-- One round of the loop (mnn.pyx 149-174); `none`: a value is computed from a neighbour that does not exist. -/
def cmnnRound (dist : ℕ → ℕ → K) (E : List ℕ) (st : CmnnSt K) : Option (CmnnSt K) :=
  let k := cDrop st.d st.H
  let H := st.H.filter fun i => decide (i ≠ k)
  let items := H.filter fun i => (cmnnDropRow k (st.nn i)).2 && decide (i ∉ E)
  let nn0 : ℕ → List (Option ℕ) := fun i => if i ∈ H then (cmnnDropRow k (st.nn i)).1 else st.nn i
  let nn : ℕ → List (Option ℕ) := fun i => if i ∈ items then H.foldl (cmnnOffer (dist i) i) (nn0 i) else nn0 i
  if items.all fun i => (cmnnProd (dist i) (nn i)).isSome then
    some { nn := nn, d := fun i => if i ∈ items then ((cmnnProd (dist i) (nn i)).map ((↑) : K → WithTop K)).getD 0 else st.d i, H := H }
  else none

/-- The loop of mnn.pyx 147-174. -/
def cmnnLoop (dist : ℕ → ℕ → K) (E : List ℕ) : ℕ → CmnnSt K → Option (CmnnSt K)
  | 0, st => some st
  | r + 1, st =>
    match cmnnRound dist E st with
    | none => none
    | some st' => cmnnLoop dist E r st'

/-- `c_calc_mnn` (mnn.pyx 91-176) with `nb` neighbours. `near i` is row `i` of `np.argpartition(D, range(1, nb + 1), axis=1)[:, 1:nb + 1]`; that fails if there are
not so many points. -/
def cmnnRun (dist : ℕ → ℕ → K) (near : ℕ → List ℕ) (E : List ℕ) (N nb count : ℕ) : Option (ℕ → WithTop K) :=
  if N ≤ nb then none
  else
    let nn : ℕ → List (Option ℕ) := fun i => (near i).map some
    let items := (List.range N).filter fun i => decide (i ∉ E)
    (cmnnLoop dist E (count - 1) { nn := nn, d := fun i => if i ∈ items then ((((near i).map (dist i)).prod : K) : WithTop K) else ⊤, H := List.range N }).map (·.d)

/-- `calc_mnn(X, n_remove)` (mnn.pyx 24-56). -/
def cCalcMnn (near : ℕ → List ℕ) (N : ℕ) (x : ℕ → Fin M → K) (nRemove : ℤ) : Option (ℕ → WithTop K) :=
  if N ≤ M then some fun _ => ⊤ else cmnnRun (cmnnDist (cNormalize N x)) near (prExtremes N x) N M (prCount N M nRemove)

/-- `calc_2nn(X, n_remove)` (mnn.pyx 59-89). -/
def cCalc2nn (near : ℕ → List ℕ) (N : ℕ) (x : ℕ → Fin M → K) (nRemove : ℤ) : Option (ℕ → WithTop K) :=
  cmnnRun (cmnnDist (cNormalize N x)) near (prExtremes N x) N 2 (prCount N M nRemove)

end Model
