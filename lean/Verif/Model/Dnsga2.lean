import Mathlib.Algebra.BigOperators.Group.Finset.Basic
import Mathlib.Algebra.Field.Defs
import Mathlib.Algebra.BigOperators.Fin
import Mathlib.Algebra.Order.Floor.Semiring
import Mathlib.Data.Rat.Floor

/-!
# Model of `pymoo/algorithms/moo/dnsga2.py`

An individual is the pair of its variables and the objective values stored with it. `ev` is the problem as it is in the generation at hand (a dynamic
problem changes only between generations). Mating, sampling, mutation and the survivals are arguments. Numbers are exact. The evaluation of the
elitism attributes (rank, crowding) is inside the survivals.
-/

namespace Model

variable {X K : Type*} {m : ℕ}

/-- What one generation uses: the problem, the indices of the samples, the indices replaced after a change with their new variables, the two survivals, the mating. -/
structure DnsGen (X K : Type*) (m : ℕ) where
  ev : X → Fin m → K
  samples : List ℕ
  replaced : List ℕ
  fresh : ℕ → X → X
  surv1 : List (X × (Fin m → K)) → ℕ → List (X × (Fin m → K))
  surv2 : List (X × (Fin m → K)) → ℕ → List (X × (Fin m → K))
  mate : List (X × (Fin m → K)) → List X

/-- `dnsga2.py:32`: `int(np.ceil(len(pop) * perc))`. -/
def dnsSamples (n : ℕ) (perc : ℚ) : ℕ := ⌈(n : ℚ) * perc⌉₊

/-- The squared deviations of one sample. -/
def dnsDev [Field K] (ev : X → Fin m → K) (p : X × (Fin m → K)) : K := ∑ k, (ev p.1 k - p.2 k) ^ 2

/-- `dnsga2.py:35-42`: whether a change is detected. `none` = an exception: an index out of range, or, with two or more objectives and no samples, the
subtraction of arrays of the shapes `(0,)` and `(0, m)`; with one objective the mean of nothing is NaN, which is not larger than `eps`. -/
def dnsDetect [Field K] [LinearOrder K] (eps : K) (ev : X → Fin m → K) (pop : List (X × (Fin m → K))) (I : List ℕ) : Option Bool :=
  if I.length = 0 then (if m ≤ 1 then some false else none)
  else (I.mapM fun i => pop[i]?).map fun S => decide (eps < (S.map (dnsDev ev)).sum / (S.length * m))

/-- Variables with the values of the current problem. -/
def dnsEval (ev : X → Fin m → K) (xs : List X) : List (X × (Fin m → K)) := xs.map fun x => (x, ev x)

/-- `dnsga2.py:44-59`: the variables after a change. Version `"A"` overwrites the chosen individuals with new samples, `"B"` mutates them in place; `fresh i x` is what
individual `i` with variables `x` becomes. `none` = an exception: an unknown version, or version `"B"` with nothing chosen (`pm.py:33` unpacks the shape
`(0,)`). -/
def dnsReplace (version : String) (J : List ℕ) (fresh : ℕ → X → X) (xs : List X) : Option (List X) :=
  let ys := xs.mapIdx fun i x => if i ∈ J then fresh i x else x
  if version = "A" then some ys
  else if version = "B" then (if J.length = 0 then none else some ys)
  else none

/-- `dnsga2.py:26-87` `_advance`: the new population and the number of evaluations. -/
def dnsAdvance [Field K] [LinearOrder K] (eps : K) (version : String) (popSize : ℕ) (pop : List (X × (Fin m → K))) (g : DnsGen X K m) :
    Option (List (X × (Fin m → K)) × ℕ) :=
  (dnsDetect eps g.ev pop g.samples).bind fun change =>
    let base : Option (List (X × (Fin m → K))) :=
      if change then (dnsReplace version g.replaced g.fresh (pop.map Prod.fst)).map fun xs => g.surv1 (dnsEval g.ev xs) pop.length
      else some pop
    base.map fun p =>
      let off := dnsEval g.ev (g.mate p)
      (g.surv2 (p ++ off) popSize, g.samples.length + (if change then pop.length else 0) + off.length)

/-- Several generations. -/
def dnsRun [Field K] [LinearOrder K] (eps : K) (version : String) (popSize : ℕ) : List (X × (Fin m → K)) → List (DnsGen X K m) → Option (List (X × (Fin m → K)))
  | pop, [] => some pop
  | pop, g :: gs => (dnsAdvance eps version popSize pop g).bind fun r => dnsRun eps version popSize r.1 gs

end Model
