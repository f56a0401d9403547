import Verif.Model.SingleObjective
import Verif.Model.Replacement
import Verif.Model.Swarm
import Verif.Model.Selection
import Mathlib.Analysis.Real.Sqrt
import Mathlib.Algebra.BigOperators.Group.Finset.Basic

/-!
# Model of G3PCX and of the parent-centric crossover

`pymoo/algorithms/soo/nonconvex/g3pcx.py`, `pymoo/operators/crossover/pcx.py`, `LoopwiseAlgorithm` (`pymoo/core/algorithm.py:371-395`). Individuals are
distinct objects of type `ι`; the random draws are arguments. Real numbers instead of floats.
-/

namespace Model

section G3
variable {ι K : Type*} [LinearOrder K] [Sub K] [Zero K]

/-- `g3pcx.py:109-113`: the swap loop over the members of the family. -/
def g3Swap (at' : Attrs ι K K 1) : List ℕ → List ι → List ι
  | [], pop => pop
  | i :: rnd, pop =>
    match pop[i]?, pop[0]? with
    | some x, some x0 => if isBetter at' x x0 0 then g3Swap at' rnd ((pop.set 0 x).set i x0) else g3Swap at' rnd pop
    | _, _ => pop

/-- `g3pcx.py:103-113`: the positions `rnd` were drawn without replacement (`none`: `family_size` exceeds the population and `choice` raises, or `rnd` is no possible draw). The family
(members at `rnd` and the offspring) is reduced to its best `family_size`, which are written to the positions `rnd`; then the swaps. -/
def g3Replace [DecidableEq ι] (at' : Attrs ι K K 1) (familySize : ℕ) (pop off : List ι) (rnd : List ℕ) : Option (List ι) :=
  if rnd.length = familySize ∧ rnd.Nodup ∧ (∀ i ∈ rnd, i < pop.length) then
    let family := rnd.filterMap (pop[·]?) ++ off
    some (g3Swap at' rnd (setAt pop rnd (fitnessSurvival at' (some familySize) family)))
  else none

/-- `g3pcx.py:70-71` `_initialize_advance`. -/
def g3Init (at' : Attrs ι K K 1) (infills : List ι) : List ι := fitnessSurvival at' (some infills.length) infills

/-- `g3pcx.py:77`; `none` = `ZeroDivisionError`. -/
def g3Loops (popSize nOff : ℕ) : Option ℕ := if nOff = 0 then none else some (popSize / nOff)

/-- The algorithm between two calls of `next`: population, and the position of the generator `_next`: `none` = there is no generator and no pending state, `some r` = it is
suspended at a `yield` with `r` loops to go after the current one. -/
structure G3State (ι : Type*) where
  pop : List ι
  gen : Option ℕ
  deriving DecidableEq

/-- `LoopwiseAlgorithm._advance` (`algorithm.py:385-395`) when there is no generator: a new one is started; it suspends at the first `yield` or stops at once. -/
def g3Start (loops : ℕ) (s : G3State ι) : G3State ι := { s with gen := if loops = 0 then none else some (loops - 1) }

/-- One call of `Algorithm.next` (`algorithm.py:157-169`): `step` is the offspring that crossover, mutation and repair produce and the family drawn. The second component is the
list of individuals that are evaluated. -/
def g3Next [DecidableEq ι] (at' : Attrs ι K K 1) (familySize popSize nOff : ℕ) (s : G3State ι) (step : List ι × List ℕ) : Option (G3State ι × List ι) :=
  (g3Loops popSize nOff).bind fun loops =>
    let s := if s.gen.isNone then g3Start loops s else s
    match s.gen with
    | none => some (g3Start loops s, [])
    | some r => (g3Replace at' familySize s.pop step.1 step.2).map fun pop => (⟨pop, if r = 0 then none else some (r - 1)⟩, step.1)

/-- A run of `next`; the second component lists everything evaluated. -/
def g3Run [DecidableEq ι] (at' : Attrs ι K K 1) (familySize popSize nOff : ℕ) : G3State ι → List (List ι × List ℕ) → Option (G3State ι × List ι)
  | s, [] => some (s, [])
  | s, step :: steps => (g3Next at' familySize popSize nOff s step).bind fun r =>
      (g3Run at' familySize popSize nOff r.1 steps).map fun r' => (r'.1, r.2 ++ r'.2)

/-- `g3pcx.py:115-116` `_set_optimum`; `none` = `IndexError`. -/
def g3Opt (s : G3State ι) : Option (List ι) := s.pop[0]?.map fun x => [x]

/-- `g3pcx.py:80-87`: the parents of the matings; the first one is individual 0, the other columns are filled by `fast_fill_random` (which does not look at the first column). -/
def g3Parents (nOff nParents : ℕ) (draws : ℕ → ℕ → ℕ → ℕ) : List (List ℕ) :=
  (fastFill draws (List.replicate nOff []) (nParents - 1) 0 (List.replicate nOff [])).map fun r => 0 :: r

end G3

section PCX
variable {p n : ℕ}

/-- `np.linalg.norm` of a row. -/
noncomputable def pcxNorm (v : Fin n → ℝ) : ℝ := Real.sqrt (∑ j, v j ^ 2)

/-- `pcx.py:19,25` with `X - X[index]`: differences to the parent with index 0. -/
def pcxDiff (X : Fin (p + 1) → Fin n → ℝ) (i : Fin (p + 1)) : Fin n → ℝ := fun j => X i j - X 0 j

/-- `pcx.py:24,27` centroid and `diff_to_centroid`. -/
noncomputable def pcxDir (X : Fin (p + 1) → Fin n → ℝ) : Fin n → ℝ := fun j => (∑ i, X i j) / (p + 1) - X 0 j

/-- `pcx.py:20-21,29-30`: a norm, at least `1e-32`. -/
noncomputable def pcxDist (v : Fin n → ℝ) : ℝ := max (1e-32) (pcxNorm v)

/-- `pcx.py:33-38` `orth_dir`, entry `i`. -/
noncomputable def pcxOrth (X : Fin (p + 1) → Fin n → ℝ) (i : Fin (p + 1)) : ℝ :=
  if i = 0 then 0
  else
    let temp1 := ∑ j, pcxDiff X i j * pcxDir X j
    let temp2 := temp1 / (pcxDist (pcxDiff X i) * pcxDist (pcxDir X))
    pcxDist (pcxDiff X i) * Real.sqrt (max 0 (1 - temp2 ^ 2))

/-- `pcx.py:41` `D_not`. -/
noncomputable def pcxDNot (X : Fin (p + 1) → Fin n → ℝ) : ℝ := (∑ i, pcxOrth X i) / p

/-- `pcx.py:44-49` `noise`; `z` are the standard normal draws (`normal(0, sigma) = sigma * z`). -/
noncomputable def pcxNoise (X : Fin (p + 1) → Fin n → ℝ) (eta : ℝ) (z : Fin n → ℝ) : Fin n → ℝ := fun j =>
  let rnd := fun k => pcxDNot X * eta * z k
  rnd j - (∑ k, rnd k * pcxDir X k) * pcxDir X j / pcxDist (pcxDir X) ^ 2

/-- `pcx.py:51-54` the offspring of one mating, before the repair; `zb` is the standard normal draw for the direction of the centroid. -/
noncomputable def pcxChild (X : Fin (p + 1) → Fin n → ℝ) (eta zeta : ℝ) (z : Fin n → ℝ) (zb : ℝ) : Fin n → ℝ := fun j =>
  X 0 j + pcxNoise X eta z j + zeta * zb * pcxDir X j

end PCX

end Model
