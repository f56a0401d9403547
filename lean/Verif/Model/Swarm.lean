import Verif.Model.SingleObjective
import Verif.Model.Replacement
import Verif.Model.Repair
import Mathlib.Analysis.SpecialFunctions.Exp

/-!
# Model of differential evolution and the particle swarms

`pymoo/algorithms/soo/nonconvex/{de,pso,pso_ep,nrbo}.py`: how the algorithms use offspring to update their (personal best) population
and optimum, and the velocity and coefficient updates. Creation of DE trial vectors is in `Model/RealOperators.lean`. Individuals have an
arbitrary type `ι`; `near` says that two design vectors have distance zero.
-/

namespace Model

section Update
variable {ι α β : Type*} [LinearOrder α] [LinearOrder β] [DecidableEq ι]

/-- `pop[I] = new`. -/
def setAt (pop : List ι) (I : List ℕ) (new : List ι) : List ι := (I.zip new).foldl (fun p q => p.set q.1 q.2) pop

/-- `de.py:274-293` `_infill`: `trials[k]` is what `Variant.do` made for target `k` (`de.py:88-220`; `X[K]` raises if there are more
offspring than individuals). The infills and their attribute `index`; `perm` is the permutation drawn. -/
def deInfill (pop : List ι) (nOff popSize : ℕ) (trials : List ι) (perm : List ℕ) : Option (List ι × List ℕ) :=
  if trials.length = nOff ∧ nOff ≤ pop.length then
    if nOff < popSize then
      let index := perm.take nOff
      (index.mapM fun i => trials[i]?).map fun t => (t, index)
    else some (trials, List.range nOff)
  else none

/-- `de.py:295-305` `_advance`. -/
def deAdvance (near : ι → ι → Bool) (at' : Attrs ι α β 1) (hasConstraints : Bool) (pop : List ι) (infills : List ι × List ℕ) : Option (List ι) :=
  (infills.2.mapM fun i => pop[i]?).bind fun par =>
    (replacementDo (improvementMask near at' hasConstraints) par infills.1).map fun new => setAt pop infills.2 new

/-- One generation: the trials and the permutation drawn are inputs. -/
def deGeneration (near : ι → ι → Bool) (at' : Attrs ι α β 1) (hasConstraints : Bool) (nOff popSize : ℕ) (pop : List ι) (g : List ι × List ℕ) :
    Option (List ι) :=
  (deInfill pop nOff popSize g.1 g.2).bind fun inf => deAdvance near at' hasConstraints pop inf

/-- Any number of generations. -/
def deRun (near : ι → ι → Bool) (at' : Attrs ι α β 1) (hasConstraints : Bool) (nOff popSize : ℕ) (pop : List ι) (gens : List (List ι × List ℕ)) :
    Option (List ι) :=
  gens.foldlM (fun p g => deGeneration near at' hasConstraints nOff popSize p g) pop

/-- `de.py:307-309`, `pso_ep.py:289-291`, `nrbo.py:177-179` `_set_optimum`: the individuals of rank zero after `FitnessSurvival`. -/
def rankZero (at' : Attrs ι α β 1) (pop : List ι) : List ι := ((pop.zip (fitnessRank at' pop)).filter fun q => q.2 == 0).map Prod.fst

/-- `algorithms/soo/nonconvex/pso.py:271-284`, `nrbo.py:170-175` `_advance`: the personal bests; `none` for no offspring or a wrong number of them. -/
def swarmAdvance (near : ι → ι → Bool) (at' : Attrs ι α β 1) (hasConstraints : Bool) (pop infills : List ι) : Option (List ι) :=
  if infills.isEmpty then none else replacementDo (improvementMask near at' hasConstraints) pop infills

/-- Any number of iterations. -/
def swarmRun (near : ι → ι → Bool) (at' : Attrs ι α β 1) (hasConstraints : Bool) (pop : List ι) (infills : List (List ι)) : Option (List ι) :=
  infills.foldlM (swarmAdvance near at' hasConstraints) pop

/-- `pso_ep.py:153-167` `get_neighbors`: `star` and `ring`. -/
inductive Topology
  | star
  | ring
  deriving DecidableEq, Repr

/-- `pso_ep.py:155-158`. `np.arange(3) + i - 1` modulo `N`. -/
def swarmNeighbors (t : Topology) (N i : ℕ) : List ℕ :=
  match t with
  | .star => List.range N
  | .ring => (List.range 3).map fun d : ℕ => (((d : ℤ) + i - 1) % N).toNat

/-- `pso_ep.py:270-274`: the messages particle `k` gets. -/
def swarmMessages (neighbors : List (List ℕ)) (k : ℕ) : List ℕ :=
  neighbors.zipIdx.flatMap fun q => (q.1.filter fun j => j == k).map fun _ => q.2

/-- `pso_ep.py:276-285`: the local best of one particle. -/
def localBest [Sub α] [Zero α] (at' : Attrs ι α α 1) (pbest : List ι) (msgs : List ℕ) (old : ι) : ι :=
  match npArgmin (fun i => (fitnessRank at' pbest).getD i 0) msgs with
  | none => old
  | some i => match pbest[i]? with
    | none => old
    | some x => if isBetter at' x old 0 then x else old

/-- `pso_ep.py:249-287` `_advance` for a fixed topology: personal and local bests. -/
def epAdvance [Sub α] [Zero α] (near : ι → ι → Bool) (at' : Attrs ι α α 1) (hasConstraints : Bool) (neighbors : List (List ℕ))
    (s : List ι × List ι) (infills : List ι) : Option (List ι × List ι) :=
  (replacementDo (improvementMask near at' hasConstraints) s.1 infills).map fun pbest =>
    (pbest, s.2.zipIdx.map fun q => localBest at' pbest (swarmMessages neighbors q.2) q.1)

end Update

section Moves
variable {K : Type*} [Field K] [LinearOrder K] {r n : ℕ}

/-- `algorithms/soo/nonconvex/pso.py:104-124` `pso_equation` for all particles: positions and velocities. -/
def psoEquation (X P S V : Fin r → Fin n → K) (vmax : Fin n → K) (w c1 c2 : K) (r1 r2 : Fin r → Fin n → K) :
    (Fin r → Fin n → K) × (Fin r → Fin n → K) :=
  let V' := setToBounds (fun i j => w * V i j + c1 * r1 i j * (P i j - X i j) + c2 * r2 i j * (S i j - X i j)) (some fun j => -vmax j) (some vmax)
  (fun i j => X i j + V' i j, V')

/-- `algorithms/soo/nonconvex/pso.py:227-247`: particles that are outside get new draws, in at most `draws.length` rounds. -/
def psoRetry (X P S V : Fin r → Fin n → K) (vmax xl xu : Fin n → K) (w c1 c2 : K) :
    List ((Fin r → Fin n → K) × (Fin r → Fin n → K)) → (Fin r → Fin n → K) × (Fin r → Fin n → K) →
    (Fin r → Fin n → K) × (Fin r → Fin n → K)
  | [], q => q
  | d :: ds, q =>
    let m := isOutOfBounds q.1 xl xu
    if m.length = 0 then q
    else
      let e := psoEquation X P S V vmax w c1 c2 d.1 d.2
      psoRetry X P S V vmax xl xu w c1 c2 ds (fun i => if i ∈ m then e.1 i else q.1 i, fun i => if i ∈ m then e.2 i else q.2 i)

/-- `algorithms/soo/nonconvex/pso.py:206-253` `_infill` before the perturbation: the offspring positions and velocities. `bounds` are both bounds or none; `u1`, `u2`
are the draws of `repair_random_init`. The array given to `repair_random_init` is changed in place. -/
def psoInfill (X P S V : Fin r → Fin n → K) (vmax : Fin n → K) (bounds : Option ((Fin n → K) × (Fin n → K))) (w c1 c2 : K)
    (r1 r2 : Fin r → Fin n → K) (draws : List ((Fin r → Fin n → K) × (Fin r → Fin n → K))) (u1 u2 : Fin r → Fin n → K) :
    (Fin r → Fin n → K) × (Fin r → Fin n → K) :=
  let q := psoEquation X P S V vmax w c1 c2 r1 r2
  match bounds with
  | none => q
  | some (xl, xu) =>
    let q' := psoRetry X P S V vmax xl xu w c1 c2 (draws.take 20) q
    (repairRandomInit q'.1 X xl xu u1 u2, q'.2)

/-- `algorithms/soo/nonconvex/pso.py:184-185`: the maximal velocity. -/
def psoVmax (rate : K) (xl xu : Fin n → K) : Fin n → K := fun j => rate * (xu j - xl j)

/-- `pso_ep.py:108-140` `Swarm.do` (with `V_max` set, for a problem with bounds): positions and velocities. -/
def epInfill (X P L V : Fin r → Fin n → K) (vmax : K) (xl xu : Fin n → K) (w c1 c2 : Fin r → K) (r1 r2 u1 u2 : Fin r → Fin n → K) :
    (Fin r → Fin n → K) × (Fin r → Fin n → K) :=
  let V' := repairClamp (fun i j => w i * V i j + c1 i * r1 i j * (P i j - X i j) + c2 i * r2 i j * (L i j - X i j))
    (fun j => -vmax * (xu j - xl j)) (fun j => vmax * (xu j - xl j))
  let X' := repairRandomInit (fun i j => X i j + V' i j) X xl xu u1 u2
  (X', fun i j => X' i j - X i j)

/-- `algorithms/soo/nonconvex/pso.py:56-66`: the membership of the four states. -/
def psoS1 (f : K) : K :=
  if f ≤ 2 / 5 then 0 else if f ≤ 3 / 5 then 5 * f - 2 else if f ≤ 7 / 10 then 1 else if f ≤ 4 / 5 then -10 * f + 8 else 0

/-- `algorithms/soo/nonconvex/pso.py:69-79`. -/
def psoS2 (f : K) : K :=
  if f ≤ 1 / 5 then 0 else if f ≤ 3 / 10 then 10 * f - 2 else if f ≤ 2 / 5 then 1 else if f ≤ 3 / 5 then -5 * f + 3 else 0

/-- `algorithms/soo/nonconvex/pso.py:82-88`. -/
def psoS3 (f : K) : K := if f ≤ 1 / 10 then 1 else if f ≤ 3 / 10 then -5 * f + 3 / 2 else 0

/-- `algorithms/soo/nonconvex/pso.py:91-97`. -/
def psoS4 (f : K) : K := if f ≤ 7 / 10 then 0 else if f ≤ 9 / 10 then 5 * f - 7 / 2 else 1

/-- `algorithms/soo/nonconvex/pso.py:317` `S.argmax() + 1`: the first largest one. -/
def psoStrategy (f : K) : ℕ :=
  let s := [psoS1 f, psoS2 f, psoS3 f, psoS4 f]
  ((List.range 4).foldl (fun b i => if s.getD b 0 < s.getD i 0 then i else b) 0) + 1

/-- `algorithms/soo/nonconvex/pso.py:321-339`: the new coefficients `c1`, `c2`. Line 339 uses the `c1` that line 338 has already changed. -/
def psoCoeffs (strategy : ℕ) (delta c1 c2 : K) : K × K :=
  let p : K × K :=
    if strategy = 1 then (c1 + delta, c2 - delta)
    else if strategy = 2 then (c1 + 1 / 2 * delta, c2 - 1 / 2 * delta)
    else if strategy = 3 then (c1 + 1 / 2 * delta, c2 + 1 / 2 * delta)
    else (c1 - delta, c2 + delta)
  let a := max (3 / 2) (min (5 / 2) p.1)
  let b := max (3 / 2) (min (5 / 2) p.2)
  if 4 < a + b then
    let a' := 4 * (a / (a + b))
    (a', 4 * (b / (a' + b)))
  else (a, b)

/-- `algorithms/soo/nonconvex/pso.py:341` the inertia weight. -/
noncomputable def psoW (f : ℝ) : ℝ := 1 / (1 + 3 / 2 * Real.exp (-13 / 5 * f))

end Moves

end Model
