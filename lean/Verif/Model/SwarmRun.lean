import Verif.Model.Swarm
import Verif.Model.RealOperators
import Mathlib.Data.Fintype.Pi

/-!
# Model: whole runs of differential evolution and of the particle swarm

`pymoo/algorithms/soo/nonconvex/{de,pso}.py` from the initial points on: creation of the points, evaluation, replacement. A solution is its
variables and a serial number (the objects of the program are all created anew, `de.py:209`, `pso.py:253`, and evaluated once). The problem is a
function of the variables; the stored values are those of the problem (C159 is about the storing). Random numbers are arguments.
-/

namespace Model

variable {K : Type*} {n : ℕ}

/-- A solution: serial number and variables. -/
structure Sol (K : Type*) (n : ℕ) where
  id : ℕ
  x : Fin n → K
  deriving DecidableEq

/-- `Population.new(X=rows)`: new individuals, numbered from `next`. -/
def newSols (next : ℕ) (rows : List (Fin n → K)) : List (Sol K n) := rows.mapIdx fun i x => ⟨next + i, x⟩

/-- What the problem says of a solution. -/
def solAttrs (prob : Attrs (Fin n → K) K K 1) : Attrs (Sol K n) K K 1 := ⟨fun s => prob.F s.x, fun s => prob.feas s.x, fun s => prob.cv s.x⟩

/-- `replacement.py:77-80` `D <= 0.0`: the same variables. -/
def solNear [DecidableEq K] (a b : Sol K n) : Bool := decide (a.x = b.x)

section DE
variable [Field K] [LinearOrder K]

/-- `de.py:88-206`, the choices for one offspring: the positions of the base vector and of the two vectors of each difference, the
jitter factors (`de.py:42-44`), `F`, `CR`, the numbers of `repair_random_init` and of the recombination. -/
structure DeRow (K : Type*) (n : ℕ) where
  base : ℕ
  diffs : List (ℕ × ℕ × (Fin n → K))
  F : K
  CR : K
  u1 : Fin n → K
  u2 : Fin n → K
  cross : DeCross K n

/-- A generation: the choices for each offspring, the mutation (and repair) with its random numbers (`de.py:211-215`), the
permutation of `de.py:288`. -/
structure DeDraw (K : Type*) (n : ℕ) where
  rows : ℕ → DeRow K n
  mutate : List (Fin n → K) → List (Fin n → K)
  perm : List ℕ

/-- `de.py:101-206`: the trial vectors for the first `nOff` members; `none`: a position outside the population (IndexError). -/
def deTrialRows (xl xu : Fin n → K) (X : List (Fin n → K)) (nOff : ℕ) (d : ℕ → DeRow K n) : Option (List (Fin n → K)) :=
  if nOff ≤ X.length ∧ ∀ k < nOff, (d k).base < X.length ∧ ∀ p ∈ (d k).diffs, p.1 < X.length ∧ p.2.1 < X.length then
    let at' (i : ℕ) : Fin n → K := X.getD i fun _ => 0
    some (List.ofFn (deVariant (r := nOff) (fun i => at' i) (fun i => at' (d i).base) (fun i => (d i).diffs.map fun p => (at' p.1, at' p.2.1, p.2.2))
      (fun i => (d i).F) (fun i => (d i).CR) (some (xl, xu)) (fun i => (d i).u1) (fun i => (d i).u2) fun i => (d i).cross))
  else none

/-- The run so far: the population, all solutions evaluated, the next serial number. -/
structure DeState (K : Type*) (n : ℕ) where
  pop : List (Sol K n)
  evaluated : List (Sol K n)
  next : ℕ

/-- `de.py:274-305` and `algorithm.py:157-169`: a generation; `none`: an exception. -/
def deSolStep (prob : Attrs (Fin n → K) K K 1) (hasConstraints : Bool) (xl xu : Fin n → K) (nOff popSize : ℕ) (s : DeState K n) (d : DeDraw K n) :
    Option (DeState K n) :=
  (deTrialRows xl xu (s.pop.map Sol.x) nOff d.rows).bind fun rows =>
    let trials := newSols s.next (d.mutate rows)
    (deInfill s.pop nOff popSize trials d.perm).bind fun inf =>
      (deAdvance solNear (solAttrs prob) hasConstraints s.pop inf).map fun pop => ⟨pop, s.evaluated ++ inf.1, s.next + trials.length⟩

/-- `genetic.py:78-91` with `de.py:271-272`, then the generations: the initial points are `init`. -/
def deSolRun (prob : Attrs (Fin n → K) K K 1) (hasConstraints : Bool) (xl xu : Fin n → K) (nOff popSize : ℕ) (init : List (Fin n → K))
    (ds : List (DeDraw K n)) : Option (DeState K n) :=
  ds.foldlM (deSolStep prob hasConstraints xl xu nOff popSize) ⟨newSols 0 init, newSols 0 init, init.length⟩

end DE

section PSO
variable [Field K] [LinearOrder K]

/-- An iteration: the coefficients in force (`pso.py:334-347`), the numbers of `pso_equation`, of its repetitions and of
`repair_random_init`, by particle, and the mutation of the best (`pso.py:256-265`; `none`: `pertube_best=False`). -/
structure PsoDraw (K : Type*) (n : ℕ) where
  w : K
  c1 : K
  c2 : K
  r1 : ℕ → Fin n → K
  r2 : ℕ → Fin n → K
  again : List ((ℕ → Fin n → K) × (ℕ → Fin n → K))
  u1 : ℕ → Fin n → K
  u2 : ℕ → Fin n → K
  mutant : Option ((Fin n → K) → Fin n → K)

/-- The run so far: the particles with their velocities, the personal bests (`pop`), all solutions evaluated, the next serial number. -/
structure PsoState (K : Type*) (n : ℕ) where
  particles : List (Sol K n)
  V : List (Fin n → K)
  pop : List (Sol K n)
  evaluated : List (Sol K n)
  next : ℕ

/-- `pso.py:286-287` `_social_best`: `self.opt[0]`, the optimum of the personal bests (`algorithm.py` `_set_optimum`, `optimum.py:10-43`). For one
objective `pareto_rank` is not called. -/
def psoBest (prob : Attrs (Fin n → K) K K 1) (pop : List (Sol K n)) : Option (Sol K n) :=
  match filterOptimum (fun _ _ _ => 0) (solAttrs prob) true (some pop) with
  | some (some (b :: _)) => some b
  | _ => none

/-- `pso.py:256-265`: the position of the best personal best gets a mutant of it. -/
def psoPerturb (prob : Attrs (Fin n → K) K K 1) (pop : List (Sol K n)) (mutant : Option ((Fin n → K) → Fin n → K)) (rows : List (Fin n → K)) :
    List (Fin n → K) :=
  match mutant, (fitnessOrder (solAttrs prob) pop).head? with
  | some m, some k => rows.set k.1 (m (pop.get k).x)
  | _, _ => rows

/-- `pso.py:206-250`: new positions and velocities of the particles. -/
def psoMoves (xl xu vmax : Fin n → K) (S : Fin n → K) (s : PsoState K n) (d : PsoDraw K n) : (Fin s.pop.length → Fin n → K) × (Fin s.pop.length → Fin n → K) :=
  psoInfill (r := s.pop.length) (fun i => (s.particles.map Sol.x).getD i fun _ => 0) (fun i => (s.pop.get i).x) (fun _ => S) (fun i => s.V.getD i fun _ => 0) vmax
    (some (xl, xu)) d.w d.c1 d.c2 (fun i => d.r1 i) (fun i => d.r2 i) (d.again.map fun p => (fun i => p.1 i, fun i => p.2 i)) (fun i => d.u1 i) fun i => d.u2 i

/-- `pso.py:206-284` and `algorithm.py:157-169`: an iteration; `none`: an exception. -/
def psoSolStep (prob : Attrs (Fin n → K) K K 1) (hasConstraints : Bool) (xl xu vmax : Fin n → K) (s : PsoState K n) (d : PsoDraw K n) : Option (PsoState K n) :=
  (psoBest prob s.pop).bind fun b =>
    let q := psoMoves xl xu vmax b.x s d
    let off := newSols s.next (psoPerturb prob s.pop d.mutant (List.ofFn q.1))
    (swarmAdvance solNear (solAttrs prob) hasConstraints s.pop off).map fun pop => ⟨off, List.ofFn q.2, pop, s.evaluated ++ off, s.next + off.length⟩

/-- `pso.py:184-204`, then the iterations: initial points `init` and velocities `V0`. -/
def psoSolRun (prob : Attrs (Fin n → K) K K 1) (hasConstraints : Bool) (xl xu vmax : Fin n → K) (init V0 : List (Fin n → K)) (ds : List (PsoDraw K n)) :
    Option (PsoState K n) :=
  ds.foldlM (psoSolStep prob hasConstraints xl xu vmax) ⟨newSols 0 init, V0, newSols 0 init, newSols 0 init, init.length⟩

end PSO
end Model
