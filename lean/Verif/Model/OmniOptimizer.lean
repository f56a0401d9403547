import Verif.Model.Survival
import Verif.Model.Crowding
import Verif.Model.Selection

/-!
# Model of `pymoo/algorithms/moo/omni.py` (Omni-Optimizer)

Floats are an ordered field `α` (no rounding, no NaN); populations are addressed by positions. The sorting permutations of
`np.argsort(..., kind="mergesort")` are arguments: `ord l col` is the permutation that sorts the column `col` of length `l`.
-/

namespace Model

variable {α : Type*} [Field α] [LinearOrder α] {n m d N v : ℕ}

/-- `omni.py:65-91` `LooseDominator.calc_domination_matrix(F)` (with `_F=None`). -/
def looseMatrix (delta : α) (F : Fin n → Fin m → α) (i j : Fin n) : ℤ :=
  let epsilon : Fin m → α := fun c => delta * columnNorm (fun i => F i c)
  let better := (List.finRange m).any fun c => decide (F i c < F j c)
  let worse := (List.finRange m).any fun c => decide (F i c > F j c)
  let dominates := better && !worse
  let dominated := worse && !better
  let betterByEps := (List.finRange m).any fun c => decide (F i c + epsilon c < F j c)
  let worseByEps := (List.finRange m).any fun c => decide (F i c > F j c + epsilon c)
  (if dominates && betterByEps then 1 else 0) - (if dominated && worseByEps then 1 else 0)

/-- `omni.py:23` `BOUNDARY`. -/
def omoBoundary : α := 10

/-- Entry `k` of a sorted column (positions are always in range where it is used). -/
def omoAt (s : Fin n → α) (k : ℕ) : α := if h : k < n then s ⟨k, h⟩ else 0

/-- `omni.py:136-153`: what one dimension adds to `cd` of the point at position `k` of the sorted column `s` (at least three points). `var` is
`space == "variable"`. -/
def omoContribution (var : Bool) (s : Fin n → α) (k : ℕ) : α :=
  let span := omoAt s (n - 1) - omoAt s 0
  if span = 0 then 0
  else if k = 0 then (if var then 2 * (omoAt s 1 - omoAt s 0) / span else 0)
  else if k = n - 1 then (if var then 2 * (omoAt s (n - 1) - omoAt s (n - 2)) / span else 0)
  else (omoAt s (k + 1) - omoAt s (k - 1)) / span

/-- `omni.py:99-160` `calc_crowding_distance_in_space(Y, space)`. -/
def omoSpace (var : Bool) (ord : (l : ℕ) → (Fin l → α) → Equiv.Perm (Fin l)) (Y : Fin n → Fin d → α) (i : Fin n) : α :=
  if n ≤ 2 then omoBoundary
  else
    let I : Fin d → Equiv.Perm (Fin n) := fun c => ord n (fun i => Y i c)
    let cd := ((List.finRange d).map fun c => omoContribution var (fun k => Y (I c k) c) ((I c).symm i).val).sum / (d : α)
    let isBoundary := (List.finRange d).any fun c => decide (((I c).symm i).val = 0)
    if !var && isBoundary then omoBoundary else cd

/-- `omni.py:163-206` `calc_omni_crowding_distance(F, X, obj_crowding, var_crowding)`; `none` = `ValueError`. -/
def omoCrowding (objC varC : Bool) (ord : (l : ℕ) → (Fin l → α) → Equiv.Perm (Fin l)) (F : Fin n → Fin m → α) (X : Fin n → Fin v → α) :
    Option (Fin n → α) :=
  if !(objC || varC) then none
  else
    let objCd := omoSpace false ord F
    let varCd := omoSpace true ord X
    if !varC then some objCd
    else if !objC then some varCd
    else
      let avgObj := (((List.finRange n).filter fun i => decide (objCd i ≠ omoBoundary)).map objCd).sum / (n : α) / (m : α)
      let avgVar := ((List.finRange n).map varCd).sum / (n : α) / (v : α)
      some fun i => if objCd i > avgObj ∨ varCd i > avgVar then max (objCd i) (varCd i) else min (objCd i) (varCd i)

/-- `omni.py:253-281`: body of the loop over the fronts. `P k` is the random permutation drawn for front `k`. -/
def omoStep (objC varC : Bool) (ord : (l : ℕ) → (Fin l → α) → Equiv.Perm (Fin l)) (F : Fin N → Fin m → α) (X : Fin N → Fin v → α)
    (argsort : (l : ℕ) → (Fin l → α) → List (Fin l)) (P : ℕ → (l : ℕ) → Fin l → Fin l) (nSurvive : ℕ) (st : RCState N α)
    (fk : List (Fin N) × ℕ) : Option (RCState N α) :=
  let front := fk.1
  let k := fk.2
  (omoCrowding objC varC ord (fun j : Fin front.length => F (front.get j)) (fun j : Fin front.length => X (front.get j))).map fun cr =>
    let saved := rcSave front k cr st
    let idx : List (Fin front.length) :=
      if st.survivors.length + front.length > nSurvive then
        ((randomizedArgsort (argsort front.length) (P k front.length) "descending" cr).getD []).take (nSurvive - st.survivors.length)
      else List.finRange front.length
    { saved with survivors := saved.survivors ++ idx.map front.get }

/-- `omni.py:242-283` `OmniOptimizerSurvival._do`; the sorting is `NonDominatedSorting(dominator=LooseDominator(delta))`. `none` = an exception. -/
def omoSurvival (delta : α) (objC varC : Bool) (ord : (l : ℕ) → (Fin l → α) → Equiv.Perm (Fin l)) (F : Fin N → Fin m → α)
    (X : Fin N → Fin v → α) (argsort : (l : ℕ) → (Fin l → α) → List (Fin l)) (P : ℕ → (l : ℕ) → Fin l → Fin l) (nSurvive : ℕ) :
    Option (RCState N α) :=
  (ndsFronts (fun _ _ => 0) (some (looseMatrix delta)) none N F none (some nSurvive)).bind fun fronts =>
    fronts.zipIdx.foldlM (omoStep objC varC ord F X argsort P nSurvive) RCState.init

/-- `omni.py:430-434` `_set_optimum` when some individual is feasible: the surviving individuals whose `rank` is zero. -/
def omoOptimum (st : RCState N α) : List (Fin N) := st.survivors.filter fun i => decide (st.rank i = some 0)

/-! ### Restricted mating selection -/

/-- `omni.py:327-331`: normalised decision variables; a constant variable is divided by one. -/
def omoNormalize (X : Fin n → Fin v → α) (i : Fin n) (c : Fin v) : α :=
  let col := (List.finRange n).map fun i => X i c
  let xl := col.min?.getD 0
  let norm := col.max?.getD 0 - xl
  let norm := if norm = 0 then 1 else norm
  (X i c - xl) / norm

/-- `omni.py:347` one entry of `dist`. -/
def omoDist (Xn : Fin n → Fin v → α) (p q : Fin n) : α := ((List.finRange v).map fun c => (Xn q c - Xn p c) ^ 2).sum

/-- `np.argmin` of a non-empty vector: the position of the first smallest entry. -/
def omoArgmin : List α → ℕ
  | [] => 0
  | [_] => 0
  | x :: y :: l =>
    let k := omoArgmin (y :: l)
    if (y :: l).getD k x < x then k + 1 else 0

/-- `omni.py:341-352`: the inner loop over one pass; the pairs formed, at most `left` of them. -/
def omoPass (Xn : Fin n → Fin v → α) : ℕ → List (Fin n) → List (Fin n × Fin n)
  | 0, _ => []
  | _ + 1, [] => []
  | _ + 1, [_] => []
  | left + 1, p :: q0 :: rest =>
    let remaining := q0 :: rest
    let nn := omoArgmin (remaining.map (omoDist Xn p))
    (p, remaining.getD nn q0) :: omoPass Xn left (remaining.eraseIdx nn)

/-- `omni.py:337-352`: the outer loop; `perms k` is the permutation drawn for pass `k`. `none` = still running after `fuel` passes. -/
def omoPairs (Xn : Fin n → Fin v → α) (perms : ℕ → List (Fin n)) : ℕ → ℕ → ℕ → Option (List (List (Fin n × Fin n)))
  | fuel, k, left =>
    if left = 0 then some []
    else
      match fuel with
      | 0 => none
      | fuel + 1 =>
        let pass := omoPass Xn left (perms k)
        (omoPairs Xn perms fuel (k + 1) (left - pass.length)).map fun ps => pass :: ps

/-- `omni.py:320-357` `NeighborBasedTournamentSelection._do`; `comp i` is the comparison of tournament `i`. -/
def omoSelect (X : Fin n → Fin v → α) (perms : ℕ → List (Fin n)) (fuel nSelect nParents : ℕ) (comp : ℕ → ℕ → ℕ → Option ℕ) :
    Option (List (List ℕ)) :=
  (omoPairs (omoNormalize X) perms fuel 0 (nSelect * nParents)).bind fun passes =>
    (runTournaments comp 0 (passes.flatten.map fun pq => [pq.1.val, pq.2.val])).map fun S => reshapeRows S nSelect nParents

end Model
