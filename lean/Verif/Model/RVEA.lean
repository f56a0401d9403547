import Verif.Model.Optimum
import Verif.Model.Survival
import Mathlib.Data.List.Sort
import Mathlib.Analysis.SpecialFunctions.Trigonometric.Inverse
import Mathlib.Analysis.SpecialFunctions.Pow.Real

/-!
# Model of `pymoo/algorithms/moo/rvea.py` and of `Algorithm.result` (`pymoo/core/algorithm.py:249-300`)

Real arithmetic. Individuals of the population given to the survival are positions `Fin N`, reference vectors are positions `Fin L`.
-/

namespace Model

variable {N L m : ℕ}

/-! ### The survival -/

/-- `rvea.py:178-181, 183-214`: for each reference vector, the individual of its niche with the least value; empty niches are skipped. -/
def rveaSelect {K : Type*} [LT K] [DecidableLT K] (niche : Fin N → Option (Fin L)) (apd : Fin L → Fin N → K) : List (Fin N) :=
  (List.finRange L).filterMap fun k => npArgmin (apd k) ((List.finRange N).filter fun i => decide (niche i = some k))

/-- `acute_angle.argmin(axis=1)` (`rvea.py:176`): the first nearest reference vector; `none` without reference vectors. -/
def rveaNiche {K : Type*} [LT K] [DecidableLT K] (angle : Fin N → Fin L → K) (i : Fin N) : Option (Fin L) := npArgmin (angle i) (List.finRange L)

/-- `np.minimum(f, z)`, where `none` is infinity. -/
noncomputable def minWith (z : Option (Fin m → ℝ)) (f : Fin m → ℝ) : Fin m → ℝ :=
  match z with
  | none => f
  | some z => fun j => min (f j) (z j)

/-- `rvea.py:162`: the ideal point, `none` = `np.full(n_dim, np.inf)`. `N = 0` never reaches the survival. -/
noncomputable def rveaIdeal (ideal : Option (Fin m → ℝ)) (F : List (Fin m → ℝ)) : Option (Fin m → ℝ) :=
  F.foldl (fun z f => some (minWith z f)) ideal

/-- `rvea.py:164-169`. -/
noncomputable def rveaDist (ideal f : Fin m → ℝ) : ℝ :=
  let d := √(∑ j, (f j - ideal j) ^ 2)
  if d < 1 / 10 ^ 64 then 1 / 10 ^ 64 else d

/-- `rvea.py:171-175`. -/
noncomputable def rveaAngle (ideal f v : Fin m → ℝ) : ℝ := Real.arccos (∑ j, (f j - ideal j) / rveaDist ideal f * v j)

/-- `rvea.py:117-118` `calc_V`, one row. -/
noncomputable def calcV (r : Fin m → ℝ) : Fin m → ℝ := fun j => r j / √(∑ i, r i ^ 2)

/-- `rvea.py:111-114` `calc_gamma`: the second largest scalar product; `none` = `IndexError` for a single vector. -/
noncomputable def calcGamma (V : Fin L → Fin m → ℝ) (k : Fin L) : Option ℝ :=
  ((((List.finRange L).map fun l => ∑ j, V k j * V l j).insertionSort (· ≥ ·))[1]?).map fun c => max (Real.arccos c) (1 / 10 ^ 64)

/-- `rvea.py:199-204`: the angle-penalised distance of individual `f` in a niche with angle `gamma`. `t = n_gen / n_max_gen`. -/
noncomputable def apdValue (m : ℕ) (t alpha gamma dist theta : ℝ) : ℝ :=
  dist * (1 + (if 2 < m then (m : ℝ) else 1) * t ^ alpha * (theta / gamma))

/-- `rvea.py:142-220` `APDSurvival._do`; `gamma` comes from `calc_gamma`. The number `n_survive` is not used. Returns the survivors and the new
ideal point; `none` = exception (`argmin` without reference vectors, `min` of a population without individuals). -/
noncomputable def apdSurvival (V : Fin L → Fin m → ℝ) (gamma : Fin L → ℝ) (t alpha : ℝ) (ideal : Option (Fin m → ℝ)) (F : Fin N → Fin m → ℝ) :
    Option (List (Fin N) × (Fin m → ℝ)) :=
  if N = 0 ∨ L = 0 then none
  else (rveaIdeal ideal ((List.finRange N).map F)).map fun z =>
    (rveaSelect (rveaNiche fun i k => rveaAngle z (F i) (V k)) fun k i => apdValue m t alpha (gamma k) (rveaDist z (F i)) (rveaAngle z (F i) (V k)), z)

/-- `rvea.py:137-140` `adapt`: the new vectors; `z`, `nadir` the stored points (`none` before the first survival). -/
noncomputable def rveaAdapt (V ref : Fin L → Fin m → ℝ) (bounds : Option ((Fin m → ℝ) × (Fin m → ℝ))) : Fin L → Fin m → ℝ :=
  match bounds with
  | none => V
  | some (z, nadir) => fun k => calcV fun j => calcV (ref k) j * (nadir j - z j)

/-- `rvea.py:95-97`: whether the vectors are adapted after generation `n`; the modulus of zero is `nan`. -/
def rveaAdaptNow (every : ℕ) (n : ℕ) : Bool := decide (every ≠ 0 ∧ n % every = 0)

/-- `rvea.py:99-103` `_set_optimum`. -/
def rveaOpt {ι β : Type*} [LT β] [DecidableLT β] (feas : ι → Bool) (cv : ι → β) (pop : List ι) : Option (List ι) :=
  if pop.any feas then some pop else (npArgmin cv pop).map fun x => [x]

/-! ### The result -/

/-- `algorithm.py:261-279`: the message. -/
inductive Message | done | empty | leastInfeasible | noFeasible
  deriving DecidableEq

/-- What `Algorithm.result` fills in: `opt`, the individuals whose `X, F, CV, G, H` are reported and whether they are given as one-dimensional arrays, `success` and `message`. -/
structure ResultView (ι : Type*) where
  opt : Option (List ι)
  vals : Option (List ι)
  oneDim : Bool
  success : Bool
  message : Message
  deriving DecidableEq

/-- `algorithm.py:249-300` `result`; `opt` is the attribute of the algorithm (`none` before `advance`), `least` is `filter_optimum(·, least_infeasible=True)`. -/
def algResult {ι : Type*} (feas : ι → Bool) (least : List ι → Option (List ι)) (returnLeast : Bool) (nObj : ℕ) (opt : Option (List ι)) : ResultView ι :=
  let l := opt.getD []
  let o : Option (List ι) × Bool × Message :=
    if l.length = 0 then (none, false, .empty)
    else if l.any feas then (some l, true, .done)
    else if returnLeast then (least l, false, .leastInfeasible)
    else (none, false, .noFeasible)
  let vals := if o.1.isNone then none else some l
  ⟨o.1, vals, decide (nObj = 1 ∧ ∃ v ∈ vals, v.length = 1), o.2.1, o.2.2⟩

end Model
