import Verif.Model.GaRun
import Verif.Model.RealOperators
import Verif.Model.Sampling
import Verif.Model.Permutation
import Verif.Model.GDE3

/-!
# Model: the operators of the default genetic algorithms as used by `Model/GaRun`

Real variables: `FloatRandomSampling`, `SBX`, `PM` (the defaults of `algorithms/soo/nonconvex/ga.py` and `algorithms/moo/nsga2.py`). Permutations: `OrderCrossover`, `InversionMutation`. Survival: `RankAndCrowding`.
-/

namespace Model

variable {n : ℕ}

/-- `crossover.py:30`: parent `k` of mating `i`. -/
def parentRow {A : Type*} [Inhabited A] (M : List (List A)) (k : ℕ) (i : Fin M.length) : A := (M.get i)[k]?.getD default

/-- `crossover.py:40-68` for two parents and two offspring: crossed matings get the rows `Q`, the others (line 55) copies of the parents; rows are offspring first, mating second. If a mating does not have two parents the code raises (here: no offspring). -/
def crossTwo {A : Type*} [Inhabited A] (M : List (List A)) (cross : Fin M.length → Bool) (Q : Fin 2 → Fin M.length → A) : List A :=
  if M.all fun l => l.length = 2 then (List.finRange 2).flatMap fun k => (List.finRange M.length).map fun i => if cross i then Q k i else parentRow M k i else []

/-- The random numbers and parameters of one call of SBX for `r` matings. -/
structure SbxNums (n r : ℕ) where
  cross : Fin r → Bool
  eta : Fin r → ℝ
  probVar : Fin r → ℝ
  probExch : Fin r → ℝ
  probBin : Fin r → ℝ
  eps : ℝ
  v : Fin r → ℝ
  u : Fin r → Fin n → ℝ
  rand : Fin r → Fin n → ℝ
  w : Fin r → Fin n → ℝ

/-- `sbx.py:115-142` inside `crossover.py:18-70`, two offspring. -/
noncomputable def sbxRows (xl xu : Fin n → ℝ) (d : (r : ℕ) → SbxNums n r) (M : List (List (Fin n → ℝ))) : List (Fin n → ℝ) :=
  let e := d M.length
  let Q := sbxDo (fun k i => parentRow M k i) xl xu e.eta e.probVar e.probExch e.probBin e.eps e.v e.u e.rand e.w none
  crossTwo M e.cross fun k i => (Q[k.1]?.getD fun _ => default) i

/-- `pm.py:101-127` `PolynomialMutation._do`. -/
noncomputable def pmRows (xl xu : Fin n → ℝ) (eta : (r : ℕ) → Fin r → ℝ) (mask : (r : ℕ) → Fin r → Fin n → Bool) (rand : (r : ℕ) → Fin r → Fin n → ℝ) (rows : List (Fin n → ℝ)) : List (Fin n → ℝ) :=
  List.ofFn (mutPm (fun i => rows.get i) xl xu (eta rows.length) (mask rows.length) (rand rows.length))

/-- `core/sampling.py` with `rnd.py:49-56`: the points of `FloatRandomSampling`. -/
noncomputable def floatRows (xl xu : Fin n → ℝ) (u : (N : ℕ) → Fin N → Fin n → ℝ) (N : ℕ) : List (Fin n → ℝ) := ((floatSampling (some (xl, xu)) (u N)).map List.ofFn).getD []

/-- `ox.py:65-79` inside `crossover.py:18-70`: the segment of every mating is drawn once. -/
def oxRows (cross : (r : ℕ) → Fin r → Bool) (seq : (r : ℕ) → Fin r → ℕ × ℕ) (shift : Bool) (M : List (List (List ℕ))) : List (List ℕ) :=
  crossTwo M (cross M.length) fun k i =>
    (ox (parentRow M k i) (parentRow M (1 - k.1) i) (seq M.length i).1 (seq M.length i).2 shift).getD []

/-- `inversion.py:34-41` `InversionMutation._do`. -/
def inversionRows (sel : ℕ → Bool) (seq : ℕ → ℕ × ℕ) (rows : List (List ℕ)) : List (List ℕ) :=
  rows.mapIdx fun i y => if sel i then inversionMutation y (seq i).1 (seq i).2 else y

end Model
