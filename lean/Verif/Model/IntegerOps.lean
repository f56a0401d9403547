import Verif.Model.RealOperators
import Verif.Model.Sampling
import Verif.Model.Repair

/-!
# Model of `pymoo/core/operator.py` (`Operator.__call__`), `pymoo/core/repair.py`, `pymoo/operators/repair/vtype.py`, and of the number types in
`pymoo/core/crossover.py` and `pymoo/core/mutation.py`

The heap (new individuals, attributes) is in `Model/Mating.lean`; here an individual is its array `X` with its number type. Values are real numbers, an array of
integers holds integral ones; other number types (bool, object) are not modelled.
-/

namespace Model

variable {n : ℕ}

/-- `X.dtype`: `int` or `float`. -/
inductive NumTy
  | int
  | float
  deriving DecidableEq

/-- An array `X` of an individual. -/
structure TypedX (n : ℕ) where
  ty : NumTy
  x : Fin n → ℝ

/-- Conversion to an integer cuts off towards zero. -/
noncomputable def truncZ (x : ℝ) : ℤ := if 0 ≤ x then ⌊x⌋ else ⌈x⌉

/-- `astype(ty)`, and the assignment into an array of that type: the new value. -/
noncomputable def castVal (ty : NumTy) (x : ℝ) : ℝ :=
  match ty with
  | .float => x
  | .int => truncZ x

/-- `ind.X.astype(ty)`. -/
noncomputable def castX (ty : NumTy) (a : TypedX n) : TypedX n := ⟨ty, fun j => castVal ty (a.x j)⟩

/-- The number type of `np.array([ind.X for ind in pop])`: `int` only if all have it. -/
def stackTy (l : List (TypedX n)) : NumTy := if l.all fun a => a.ty = .int then .int else .float

/-- An object of class `Repair`: `vtype`, and its `_do` on the whole array. -/
structure RepairOp (n : ℕ) where
  vtype : Option NumTy
  body : NumTy → List (Fin n → ℝ) → NumTy × List (Fin n → ℝ)

/-- `core/repair.py:9-17` `Repair.do`. -/
noncomputable def repairDo (R : RepairOp n) (pop : List (TypedX n)) : List (TypedX n) :=
  let ty := R.vtype.getD (stackTy pop)
  let r := R.body ty (pop.map fun a j => castVal ty (a.x j))
  r.2.map fun x => ⟨r.1, x⟩

/-- `rounding.py:9-25` `RoundingRepair()`. -/
noncomputable def roundingOp (n : ℕ) : RepairOp n := ⟨none, fun _ X => (.int, X.map fun x j => ((npAround (x j) : ℤ) : ℝ))⟩

/-- `vtype.py:9-28` `TypeRepair(vtype)`. -/
noncomputable def typeRepairOp (n : ℕ) (ty : NumTy) : RepairOp n := ⟨some ty, fun _ X => (ty, X.map fun x j => castVal ty (x j))⟩

/-- `core/repair.py:19-24` `NoRepair()`. -/
def noRepairOp (n : ℕ) : RepairOp n := ⟨none, fun ty X => (ty, X)⟩

/-- `core/operator.py:37-47` `Operator.__call__`: `out` is the result of `do`. -/
noncomputable def operatorCall (vtype : Option NumTy) (repair : Option (RepairOp n)) (out : List (TypedX n)) : List (TypedX n) :=
  let out := match vtype with
    | none => out
    | some ty => out.map (castX ty)
  match repair with
  | none => out
  | some R => repairDo R out

/-- `crossover.py:21-69` `Crossover.do` for two parents: `body` is `_do`, `cross k` whether mating `k` is crossed, `sel k o` the parent copied as offspring `o`
otherwise (lines 51-63). The offspring array has the number type of the parents' array (line 35). -/
noncomputable def typedCrossover {r nOff : ℕ} (vtype : Option NumTy) (body : (Fin 2 → Fin r → Fin n → ℝ) → Fin nOff → Fin r → Fin n → ℝ) (cross : Fin r → Bool)
    (sel : Fin r → Fin nOff → Fin 2) (P : Fin 2 → Fin r → TypedX n) : List (TypedX n) :=
  let ty := vtype.getD (stackTy ((List.finRange r).flatMap fun k => [P 0 k, P 1 k]))
  let X : Fin 2 → Fin r → Fin n → ℝ := fun p k j => castVal ty ((P p k).x j)
  (List.finRange nOff).flatMap fun o => (List.finRange r).map fun k =>
    ⟨ty, fun j => if cross k then castVal ty (body X o k j) else X (sel k o) k j⟩

/-- `mutation.py:19-40` `Mutation.do` with an operator that computes with floats (`pm.py:113` `X.astype(float)`): accepted individuals get the float array, the others keep theirs. -/
def typedMutation (pop : List (TypedX n)) (body : (Fin pop.length → Fin n → ℝ) → Fin pop.length → Fin n → ℝ) (accept : Fin pop.length → Bool) : List (TypedX n) :=
  let X : Fin pop.length → Fin n → ℝ := fun i => (pop.get i).x
  (List.finRange pop.length).map fun i => if accept i then ⟨.float, body X i⟩ else pop.get i

/-- The random numbers of one application of `SBX`. -/
structure SbxDraw (r n : ℕ) where
  v : Fin r → ℝ
  u : Fin r → Fin n → ℝ
  rand : Fin r → Fin n → ℝ
  w : Fin r → Fin n → ℝ
  cross : Fin r → Bool
  sel : Fin r → Fin 2 → Fin 2

/-- The parameters of `SBX` (sbx.py:101-116), for every mating. -/
structure SbxCfg (r : ℕ) where
  eta : Fin r → ℝ
  probVar : Fin r → ℝ
  probExch : Fin r → ℝ
  probBin : Fin r → ℝ
  eps : ℝ

/-- `SBX._do` with two offspring (`Model/RealOperators.lean`). -/
noncomputable def sbxBody {r : ℕ} (xl xu : Fin n → ℝ) (c : SbxCfg r) (d : SbxDraw r n) (X : Fin 2 → Fin r → Fin n → ℝ) : Fin 2 → Fin r → Fin n → ℝ :=
  crossSbx X xl xu c.eta c.probVar (fun i => if c.probExch i < d.v i then 0 else c.probBin i) c.eps d.u d.rand d.w

/-- `SBX(vtype, repair)(problem, matings)`. -/
noncomputable def sbxCall {r : ℕ} (vtype : Option NumTy) (repair : Option (RepairOp n)) (xl xu : Fin n → ℝ) (c : SbxCfg r) (d : SbxDraw r n) (P : Fin 2 → Fin r → TypedX n) :
    List (TypedX n) :=
  operatorCall vtype repair (typedCrossover vtype (sbxBody xl xu c d) d.cross d.sel P)

/-- `PM(vtype, repair)(problem, pop)`: `eta`, `mask` and `rand` as in `mutPm`, indexed by position. -/
noncomputable def pmCall (vtype : Option NumTy) (repair : Option (RepairOp n)) (xl xu : Fin n → ℝ) (eta : ℕ → ℝ) (mask : ℕ → Fin n → Bool) (rand : ℕ → Fin n → ℝ) (accept : ℕ → Bool)
    (pop : List (TypedX n)) : List (TypedX n) :=
  operatorCall vtype repair
    (typedMutation pop (fun X => mutPm X xl xu (fun i => eta i) (fun i => mask i) (fun i => rand i)) fun i => accept i)

/-- `IntegerRandomSampling` (rnd.py:81-100) as typed arrays. -/
def integerSample {m : ℕ} (xl xu : Fin n → ℤ) (draw : Fin m → Fin n → ℤ → ℤ → ℤ) : List (TypedX n) :=
  (List.finRange m).map fun i => ⟨.int, fun j => ((integerSampling xl xu draw i j : ℤ) : ℝ)⟩

end Model
