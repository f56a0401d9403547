import Verif.Model.Repair
import Verif.Model.MaskCrossover
import Mathlib.Analysis.SpecialFunctions.Pow.Real

/-!
# Model of the real-valued operators: SBX, polynomial mutation, Gaussian mutation, differential evolution

`pymoo/operators/crossover/{sbx,dex}.py`, `pymoo/operators/mutation/{pm,gauss,bitflip}.py` and the recombination of
`pymoo/algorithms/soo/nonconvex/de.py`. Numbers are real numbers (an ordered field where no power is needed). A random array
that the code draws only for the selected entries is a full array here, of which the other entries are not used.
-/

namespace Model

variable {r n : ℕ}

/-! ### Simulated binary crossover -/

/-- `sbx.py:50-59` `calc_betaq(beta)`, one entry. -/
noncomputable def sbxBetaq (eta rand beta : ℝ) : ℝ :=
  let alpha := 2 - beta ^ (-(eta + 1))
  if rand ≤ 1 / alpha then (rand * alpha) ^ (1 / (eta + 1)) else (1 / (2 - rand * alpha)) ^ (1 / (eta + 1))

/-- `sbx.py:61-70`: the lower and the upper child of the values `y1 < y2`. -/
noncomputable def sbxSpread (xl xu eta rand y1 y2 : ℝ) : ℝ × ℝ :=
  let delta := y2 - y1
  let c1 := 1 / 2 * ((y1 + y2) - sbxBetaq eta rand (1 + 2 * (y1 - xl) / delta) * delta)
  let c2 := 1 / 2 * ((y1 + y2) + sbxBetaq eta rand (1 + 2 * (xu - y2) / delta) * delta)
  (c1, c2)

/-- `sbx.py:32-43,61-78`, one entry selected for crossover: the values of the two children; `bin` is whether the random number
is smaller than `prob_bin`. -/
noncomputable def sbxEntry (xl xu eta rand : ℝ) (bin : Bool) (p1 p2 : ℝ) : ℝ × ℝ :=
  let sm := decide (p1 < p2)
  let y1 := if sm then p1 else p2
  let y2 := if sm then p2 else p1
  let c := sbxSpread xl xu eta rand y1 y2
  let child1 := if sm then c.1 else c.2
  let child2 := if sm then c.2 else c.1
  let b := Bool.xor bin (decide (p2 < p1))
  if b then (child2, child1) else (child1, child2)

/-- `sbx.py:20-30`: which entries take part; `u` are the first random numbers. -/
noncomputable def sbxCross (X : Fin 2 → Fin r → Fin n → ℝ) (xl xu : Fin n → ℝ) (probVar : Fin r → ℝ) (eps : ℝ) (u : Fin r → Fin n → ℝ) :
    Fin r → Fin n → Bool := fun i j =>
  decide (u i j < probVar i) && !decide (|X 0 i j - X 1 i j| ≤ eps) && !decide (xl j = xu j)

/-- `sbx.py:17-90` `cross_sbx` (before the last repair). -/
noncomputable def sbxRaw (X : Fin 2 → Fin r → Fin n → ℝ) (xl xu : Fin n → ℝ) (eta probVar probBin : Fin r → ℝ) (eps : ℝ)
    (u rand w : Fin r → Fin n → ℝ) : Fin 2 → Fin r → Fin n → ℝ := fun k i j =>
  if sbxCross X xl xu probVar eps u i j then
    let c := sbxEntry (xl j) (xu j) (eta i) (rand i j) (decide (w i j < probBin i)) (X 0 i j) (X 1 i j)
    if k = 0 then c.1 else c.2
  else X k i j

/-- `sbx.py:17-90` `cross_sbx`. -/
noncomputable def crossSbx (X : Fin 2 → Fin r → Fin n → ℝ) (xl xu : Fin n → ℝ) (eta probVar probBin : Fin r → ℝ) (eps : ℝ)
    (u rand w : Fin r → Fin n → ℝ) : Fin 2 → Fin r → Fin n → ℝ := fun k =>
  repairClamp (sbxRaw X xl xu eta probVar probBin eps u rand w k) xl xu

/-- `sbx.py:115-142` `SimulatedBinaryCrossover._do`: `v` are the random numbers compared with `prob_exch`; with one offspring
(`one = some coin`) the coin of the mating selects the second child. -/
noncomputable def sbxDo (X : Fin 2 → Fin r → Fin n → ℝ) (xl xu : Fin n → ℝ) (eta probVar probExch probBin : Fin r → ℝ) (eps : ℝ)
    (v : Fin r → ℝ) (u rand w : Fin r → Fin n → ℝ) (one : Option (Fin r → Bool)) : List (Fin r → Fin n → ℝ) :=
  let Q := crossSbx X xl xu eta probVar (fun i => if probExch i < v i then 0 else probBin i) eps u rand w
  match one with
  | none => [Q 0, Q 1]
  | some coin => [fun i => if coin i then Q 1 i else Q 0 i]

/-! ### Polynomial mutation -/

/-- `pm.py:50-70`: `deltaq` of one entry. -/
noncomputable def pmDeltaq (xl xu eta rand x : ℝ) : ℝ :=
  let delta1 := (x - xl) / (xu - xl)
  let delta2 := (xu - x) / (xu - xl)
  let mutPow := 1 / (eta + 1)
  if rand ≤ 1 / 2 then
    let xy := 1 - delta1
    let val := 2 * rand + (1 - 2 * rand) * xy ^ (eta + 1)
    val ^ mutPow - 1
  else
    let xy := 1 - delta2
    let val := 2 * (1 - rand) + 2 * (rand - 1 / 2) * xy ^ (eta + 1)
    1 - val ^ mutPow

/-- `pm.py:73`: the mutated value. -/
noncomputable def pmValue (xl xu eta rand x : ℝ) : ℝ := x + pmDeltaq xl xu eta rand x * (xu - xl)

/-- `pm.py:40-83` `mut_pm`; `mask` is the result of `mut_binomial` (line 39). -/
noncomputable def mutPm (X : Fin r → Fin n → ℝ) (xl xu : Fin n → ℝ) (eta : Fin r → ℝ) (mask : Fin r → Fin n → Bool)
    (rand : Fin r → Fin n → ℝ) : Fin r → Fin n → ℝ :=
  let mut' : Fin r → Fin n → Bool := fun i j => mask i j && !decide (xl j = xu j)
  let Y := repairClamp (fun i j => pmValue (xl j) (xu j) (eta i) (rand i j) (X i j)) xl xu
  setToBounds (setWhere X mut' Y) (some xl) (some xu)

section
variable {K : Type*} [Field K] [LinearOrder K]

/-! ### Gaussian mutation -/

/-- `gauss.py:16-36` `mut_gauss`; `normal` are the values drawn from the normal distribution. -/
def mutGauss (X : Fin r → Fin n → K) (xl xu : Fin n → K) (mask : Fin r → Fin n → Bool) (normal : Fin r → Fin n → K)
    (u1 u2 : Fin r → Fin n → K) : Fin r → Fin n → K :=
  repairRandomInit (setWhere X mask normal) X xl xu u1 u2

/-! ### Differential evolution -/

/-- `dex.py:38-50` the loop of `de_differential` for one mating: the pairs of parents, with the random numbers for dither and
jitter of each pair. `F` is changed from one pair to the next. -/
def deDiffs (dither jitter : Bool) (gamma : K) : List ((Fin n → K) × (Fin n → K) × K × K) → K → Fin n → K
  | [], _ => fun _ => 0
  | (a, b, ud, uj) :: rest, F =>
    let F := if dither then F + ud * (1 - F) else F
    let F := if jitter then F * (1 + gamma * (uj - 1 / 2)) else F
    fun j => F * (a j - b j) + deDiffs dither jitter gamma rest F j

/-- `dex.py:17-58` `de_differential` for one mating. -/
def deDifferential (dither jitter : Bool) (gamma : K) (base : Fin n → K) (pairs : List ((Fin n → K) × (Fin n → K) × K × K)) (F : K) :
    Fin n → K := fun j => base j + deDiffs dither jitter gamma pairs F j

/-- The arguments of `DEX` (`dex.py:62-84`) used below. -/
structure DexCfg (K : Type*) where
  F : Option K
  dither : Bool
  jitter : Bool

/-- The random numbers of one mating in one call of `de_differential`: the random `F` and two numbers for each pair. -/
structure DexDraw (K : Type*) where
  F : K
  pairs : List (K × K)

/-- `dex.py:100-103,111-114`: one donor. The settings `dither` and `jitter` are not passed on: `de_differential` uses its defaults
(`dither=None`, `jitter=True`). -/
def dexDonor (gamma : K) (base : Fin n → K) (pairs : List ((Fin n → K) × (Fin n → K))) (F : K) (d : DexDraw K) : Fin n → K :=
  deDifferential false true gamma base (List.zipWith (fun p q => (p.1, p.2, q.1, q.2)) pairs d.pairs) F

/-- `dex.py:105-114`: the rounds of new donors for the matings out of bounds, one draw per round; the configured `F` is not
used. -/
def dexRetry (gamma : K) (base : Fin r → Fin n → K) (pairs : Fin r → List ((Fin n → K) × (Fin n → K))) (xl xu : Fin n → K) :
    List (Fin r → DexDraw K) → (Fin r → Fin n → K) → Fin r → Fin n → K
  | [], Xp => Xp
  | d :: ds, Xp =>
    dexRetry gamma base pairs xl xu ds fun i =>
      if (List.finRange n).any fun j => decide (Xp i j < xl j) || decide (xu j < Xp i j)
      then dexDonor gamma (base i) (pairs i) (d i).F (d i) else Xp i

/-- `dex.py:85-144` `DEX.do`: `base` is `X[0]`, `M` the mask of the binomial or exponential crossover, `bounds` the bounds of
the problem if it has any, `draws` one draw for each of the `n_iter` rounds. -/
def dexDo (cfg : DexCfg K) (gamma : K) (base : Fin r → Fin n → K) (pairs : Fin r → List ((Fin n → K) × (Fin n → K)))
    (bounds : Option ((Fin n → K) × (Fin n → K))) (first : Fin r → DexDraw K) (draws : List (Fin r → DexDraw K))
    (u1 u2 : Fin r → Fin n → K) (M : Fin r → Fin n → Bool) : Fin r → Fin n → K :=
  let Xp := fun i => dexDonor gamma (base i) (pairs i) (cfg.F.getD (first i).F) (first i)
  let Xp := match bounds with
    | none => Xp
    | some (xl, xu) => repairRandomInit (dexRetry gamma base pairs xl xu draws Xp) base xl xu u1 u2
  setWhere base M Xp

/-- `de.py:31-52` `de_differential` for one mating; the jitter factor of each difference and variable is an argument. -/
def deSum : List ((Fin n → K) × (Fin n → K) × (Fin n → K)) → K → Fin n → K
  | [], _ => fun _ => 0
  | (a, b, jit) :: rest, F => fun j => F * jit j * (a j - b j) + deSum rest F j

/-- The recombination of target and donor (`de.py:168-206`). -/
inductive DeCross (K : Type*) (n : ℕ)
  | mask (M : Fin n → Bool)
  | line (w : K)
  | hypercube (w : Fin n → K)

/-- `de.py:173-206`, one mating: `CR` and the random numbers (masks of `mut_binomial` and `mut_exp`, numbers for the other two). -/
def deTrial (CR : K) (target donor : Fin n → K) : DeCross K n → Fin n → K
  | .mask M => fun j => if M j then donor j else target j
  | .line w => fun j => target j + w * CR * (donor j - target j)
  | .hypercube w => fun j => target j + w j * CR * (donor j - target j)

/-- `de.py:155-206`, the trial vectors: differential, `repair_random_init` (with bounds), recombination with the targets. -/
def deVariant (target base : Fin r → Fin n → K) (diffs : Fin r → List ((Fin n → K) × (Fin n → K) × (Fin n → K))) (F CR : Fin r → K)
    (bounds : Option ((Fin n → K) × (Fin n → K))) (u1 u2 : Fin r → Fin n → K) (cross : Fin r → DeCross K n) : Fin r → Fin n → K :=
  let Xp : Fin r → Fin n → K := fun i j => base i j + deSum (diffs i) (F i) j
  let donor := match bounds with
    | none => Xp
    | some (xl, xu) => repairRandomInit Xp base xl xu u1 u2
  fun i => deTrial (CR i) (target i) (donor i) (cross i)

end

/-! ### Bit flips -/

/-- `bitflip.py:10-14` for a boolean array. -/
def bitflip (X flip : Fin r → Fin n → Bool) : Fin r → Fin n → Bool := fun i j => if flip i j then !X i j else X i j

/-- `bitflip.py:10-14` for an integer array: `~x` is the bitwise complement `-x-1`. -/
def bitflipInt (X : Fin r → Fin n → ℤ) (flip : Fin r → Fin n → Bool) : Fin r → Fin n → ℤ :=
  fun i j => if flip i j then -X i j - 1 else X i j

end Model
