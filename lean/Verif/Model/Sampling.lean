import Mathlib.Algebra.Order.Field.Basic
import Mathlib.Data.Fintype.EquivFin
import Mathlib.Logic.Equiv.Basic
import Mathlib.Data.List.Basic

/-!
# Model of `pymoo/operators/sampling`, `pymoo/core/variable.py` (sampling) and `pymoo/core/mixed.py`

Random numbers are arguments. `none` = an exception.
-/

namespace Model

section
variable {K : Type*} [Field K] [LinearOrder K] {n m : ℕ}

/-- `rnd.py:49-56` `FloatRandomSampling._do` (also `rnd.py:9-27` `random`): `u` are the random numbers; the assertion
`np.all(xu >= xl)` raises. -/
def floatSampling (bounds : Option ((Fin m → K) × (Fin m → K))) (u : Fin n → Fin m → K) : Option (Fin n → Fin m → K) :=
  match bounds with
  | none => some u
  | some (xl, xu) =>
    if (List.finRange m).all fun j => decide (xl j ≤ xu j) then some fun i j => xl j + (xu j - xl j) * u i j else none

/-- `rnd.py:77-78` `BinaryRandomSampling._do`, `variable.py:203` `Binary._sample`. -/
def binarySampling (u : Fin n → Fin m → K) : Fin n → Fin m → Bool := fun i j => decide (u i j < 1 / 2)

/-- `rnd.py:98-100` `IntegerRandomSampling._do`, `variable.py:179-181` `Integer._sample`: `draw lo hi` is the result of
`random_state.integers(lo, hi)`. -/
def integerSampling (xl xu : Fin m → ℤ) (draw : Fin n → Fin m → ℤ → ℤ → ℤ) : Fin n → Fin m → ℤ :=
  fun i j => draw i j (xl j) (xu j + 1)

/-- `rnd.py:121-124` `PermutationRandomSampling._do`: one permutation per row. -/
def permutationSampling (perm : Fin n → Equiv.Perm (Fin m)) : Fin n → Fin m → ℕ := fun i j => (perm i j : ℕ)

/-- `lhs.py:81-107` `sampling_lhs_unit`: `perm j` is the result of `argsort` on column `j` of the random matrix, `u` the second
random matrix (`smooth=True`) or `none` (`smooth=False`). -/
def lhsUnit (perm : Fin m → Equiv.Perm (Fin n)) (u : Option (Fin n → Fin m → K)) : Fin n → Fin m → K := fun i j =>
  (((perm j i : ℕ) : K) + 1 - (match u with | some u => u i j | none => 1 / 2)) / (n : K)

/-- `lhs.py:65-76`: the loop that keeps the best sample; `score` is the criterion. -/
def lhsLoop {A S : Type*} [LinearOrder S] (score : A → S) : List A → A → A
  | [], X => X
  | Y :: rest, X => if score X < score Y then lhsLoop score rest Y else lhsLoop score rest X

/-- `lhs.py:38-78` `sampling_lhs`: `first` is the first sample, `rest` the ones of the loop (used with a criterion only). -/
def samplingLhs {S : Type*} [LinearOrder S] (xl xu : Fin m → K) (criterion : Option ((Fin n → Fin m → K) → S))
    (first : Fin n → Fin m → K) (rest : List (Fin n → Fin m → K)) : Fin n → Fin m → K :=
  let X := match criterion with
    | none => first
    | some score => lhsLoop score rest first
  fun i j => xl j + X i j * (xu j - xl j)

end

/-! ### Mixed variables -/

/-- The type of a variable (`variable.py`). -/
inductive VarClass
  | real | integer | binary | choice
  deriving DecidableEq

/-- `mixed.py:73-78`: add a variable to the group of its type, at the end; a new type gets a new group at the end. -/
def addToGroup {N : Type*} : List (VarClass × List N) → VarClass → N → List (VarClass × List N)
  | [], c, k => [(c, [k])]
  | (c', l) :: rest, c, k => if c' = c then (c', l ++ [k]) :: rest else (c', l) :: addToGroup rest c k

/-- `mixed.py:71-78`: the variables by type. -/
def varsByType {N : Type*} (vars : List (N × VarClass)) : List (VarClass × List N) :=
  vars.foldl (fun g v => addToGroup g v.2 v.1) []

/-- `mixed.py:80-87` `recomb`: choice variables get a group each. -/
def recombGroups {N : Type*} (vars : List (N × VarClass)) : List (VarClass × List N) :=
  (varsByType vars).flatMap fun g => if g.1 = .choice then g.2.map fun e => (.choice, [e]) else [g]

/-- A solution: a dictionary from variable names to values. -/
abbrev MixedX (N A : Type*) := List (N × A)

/-- `x[k]`. -/
def mGet {N A : Type*} [DecidableEq N] : MixedX N A → N → Option A
  | [], _ => none
  | (a, v) :: l, k => if a = k then some v else mGet l k

/-- `x[k] = v`. -/
def mSet {N A : Type*} [DecidableEq N] : MixedX N A → N → A → MixedX N A
  | [], k, v => [(k, v)]
  | (a, w) :: l, k, v => if a = k then (a, v) :: l else (a, w) :: mSet l k v

/-- `mixed.py:130-132`: the values of a group are written into one offspring. -/
def writeGroup {N A : Type*} [DecidableEq N] (x : MixedX N A) (names : List N) (vals : List A) : MixedX N A :=
  (names.zip vals).foldl (fun x e => mSet x e.1 e.2) x

/-- `mixed.py:107-118` `_parents`: the values of the variables of a group in all parents; a missing name raises. -/
def subVectors {N A : Type*} [DecidableEq N] (names : List N) (parents : List (List (MixedX N A))) : Option (List (List (List A))) :=
  parents.mapM fun (ps : List (MixedX N A)) => ps.mapM fun (p : MixedX N A) => names.mapM fun name => mGet p name

/-- `mixed.py:103-132`: the loop over the groups. `op c names P` is the result of crossover and mutation of the class on the
sub-vectors `P` (`none` if one of them raises), one vector per offspring; fewer vectors than offspring raise. -/
def mixedLoop {N A : Type*} [DecidableEq N] (op : VarClass → List N → List (List (List A)) → Option (List (List A)))
    (parents : List (List (MixedX N A))) (nOff : ℕ) : List (VarClass × List N) → List (MixedX N A) → Option (List (MixedX N A))
  | [], off => some off
  | g :: gs, off =>
    (subVectors g.2 parents).bind fun P =>
      (op g.1 g.2 P).bind fun res =>
        if res.length < nOff then none
        else mixedLoop op parents nOff gs (List.zipWith (fun x vals => writeGroup x g.2 vals) off res)

/-- `mixed.py:62-134` `MixedVariableMating._do` after the selection of the parents (one list per mating). -/
def mixedMating {N A : Type*} [DecidableEq N] (op : VarClass → List N → List (List (List A)) → Option (List (List A)))
    (vars : List (N × VarClass)) (parents : List (List (MixedX N A))) (nOff : ℕ) : Option (List (MixedX N A)) :=
  mixedLoop op parents nOff (recombGroups vars) (List.replicate nOff [])

/-- `mixed.py:140-147` `MixedVariableSampling._do`: `sample name` are the values sampled for a variable. -/
def mixedSampling {N A : Type*} (vars : List (N × VarClass)) (sample : N → List A) (n : ℕ) : Option (List (MixedX N A)) :=
  (List.range n).mapM fun k => vars.mapM fun v => ((sample v.1)[k]?).map fun a => (v.1, a)

/-- `mixed.py:153-158` `MixedVariableDuplicateElimination.is_equal(a, b)`. -/
def mixedEqual {N A : Type*} [DecidableEq N] [DecidableEq A] (a b : MixedX N A) : Bool :=
  a.all fun e => mGet b e.1 == some e.2

/-- `rm.py:10-33` `ChoiceRandomMutation._do`: `sel` are the selected entries, `sampled` the values sampled for the variables. -/
def choiceMutation {n m : ℕ} {A : Type*} (X : Fin n → Fin m → A) (sel : Fin n → Fin m → Bool) (sampled : Fin n → Fin m → A) :
    Fin n → Fin m → A := fun i j => if sel i j then sampled i j else X i j

end Model
