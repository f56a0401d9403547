import Verif.Model.SingleObjective
import Verif.Model.Replacement
import Verif.Model.Repair
import Mathlib.Data.Fintype.Basic
import Mathlib.Algebra.BigOperators.Group.List.Basic

/-!
# Model of Nelder–Mead and of the pattern search of Hooke and Jeeves

`pymoo/algorithms/soo/nonconvex/{nelder,pattern}.py`, `pymoo/util/vectors.py`. An individual is its design vector `Fin n → K`; the
attributes `F`, feasibility and violation are functions of it (`at'`, the evaluation). The generators `_step`, `exploration_move` and
`_next` become functions that also return the list of points they had evaluated.
-/

namespace Model

variable {K : Type*} [Field K] [LinearOrder K] {n : ℕ}

/-- `set_to_bounds_if_outside_by_problem` for one vector (`to_bound.py:9-33`). -/
def clipRow (xl xu : Option (Fin n → K)) (x : Fin n → K) : Fin n → K := setToBounds (fun _ : Fin 1 => x) xl xu 0

/-- `vectors.py:6-42` `max_alpha` with the default mode; `none` is infinity. -/
def maxAlpha (p d : Fin n → K) (xl xu : Option (Fin n → K)) : Option K :=
  let bounds := xl.toList ++ xu.toList
  if bounds.isEmpty || n == 0 then none
  else
    let vals := bounds.flatMap fun b => ((List.finRange n).filter fun j => decide (d j ≠ 0)).map fun j => (b j - p j) / d j
    match (vals.filter fun v => decide (0 ≤ v)).min? with
    | none => some 0
    | some v => some v

/-- `min(alpha, alphaU)`. -/
def capAlpha (a : K) : Option K → K
  | none => a
  | some v => min a v

/-! ### Nelder–Mead -/

/-- `nelder.py:66-72` / `75-80`: the coefficients. -/
structure NmParams (K : Type*) where
  alpha : K
  beta : K
  gamma : K
  delta : K

/-- `nelder.py:66-72` `adaptive_params`. -/
def adaptiveParams (n : ℕ) : NmParams K := ⟨1, 1 + 2 / n, 3 / 4 - 1 / (2 * n), 1 - 1 / n⟩

/-- `nelder.py:75-80` `default_params`. -/
def defaultParams : NmParams K := ⟨1, 2, 1 / 2, 1 / 20⟩

/-- `nelder.py:83-107` `initialize_simplex`: row `k`. `bounds` are both bounds, or none. -/
def simplexRow (bounds : Option ((Fin n → K) × (Fin n → K))) (x0 : Fin n → K) (scale : K) (k : Fin n) : Fin n → K :=
  match bounds with
  | some (xl, xu) =>
    let delta := scale * (xu k - xl k)
    Function.update x0 k (if x0 k + delta < xu k then x0 k + delta else x0 k - delta)
  | none =>
    let delta := if scale * x0 k = 0 then 1 / 4000 else scale * x0 k
    Function.update x0 k (x0 k + delta)

/-- `nelder.py:142-144` `_initialize_simplex`: the first population. -/
def initialSimplex (bounds : Option ((Fin n → K) × (Fin n → K))) (x0 : Fin n → K) : List (Fin n → K) :=
  x0 :: (List.finRange n).map fun k => simplexRow bounds x0 (1 / 20) k

/-- `nelder.py:160` the centroid of all vertices but the last. -/
def nmCentroid (pop : List (Fin n → K)) : Fin n → K := fun j => ((pop.take n).map fun x => x j).sum / n

/-- `nelder.py:162-231`: reflection, expansion, contractions. `b`, `s`, `w` are the first, the last but one and the last vertex.
The new last vertex (`none`: shrink) and the points evaluated. -/
def nmMove (at' : Attrs (Fin n → K) K K 1) (P : NmParams K) (xl xu : Option (Fin n → K)) (c b s w : Fin n → K) :
    Option (Fin n → K) × List (Fin n → K) :=
  let r := clipRow xl xu fun j => c j + capAlpha P.alpha (maxAlpha c (fun j => c j - w j) xl xu) * (c j - w j)
  if isBetter at' r b 0 then
    let e := clipRow xl xu fun j => c j + capAlpha P.beta (maxAlpha c (fun j => r j - c j) xl xu) * (r j - c j)
    (if isBetter at' e r 0 then some e else some r, [r, e])
  else if isBetter at' r s 0 then (some r, [r])
  else if isBetter at' r w 0 then
    let o : Fin n → K := fun j => c j + P.gamma * (r j - c j)
    (if isBetter at' o r 0 then some o else none, [r, o])
  else
    let i : Fin n → K := fun j => c j - P.gamma * (r j - c j)
    (if isBetter at' i w 0 then some i else none, [r, i])

/-- `nelder.py:237-240`: the shrunk vertices. -/
def nmShrink (P : NmParams K) (pop : List (Fin n → K)) : List (Fin n → K) :=
  match pop with
  | [] => []
  | b :: rest => rest.map fun x j => b j + P.delta * (x j - b j)

/-- `nelder.py:153-242` `_step`: the new population and the points evaluated. `none`: the simplex has too few vertices. -/
def nmStep (at' : Attrs (Fin n → K) K K 1) (P : NmParams K) (xl xu : Option (Fin n → K)) (pop : List (Fin n → K)) :
    Option (List (Fin n → K) × List (Fin n → K)) :=
  (pop[0]?).bind fun b => (pop[n - 1]?).bind fun s => (pop[n]?).map fun w =>
    let m := nmMove at' P xl xu (nmCentroid pop) b s w
    let pop' := match m.1 with
      | some v => pop.set n v
      | none => b :: nmShrink P pop
    (fitnessSurvival at' (some pop'.length) pop', m.2 ++ (if m.1.isNone then nmShrink P pop else []))

/-- `t` steps. -/
def nmRun (at' : Attrs (Fin n → K) K K 1) (P : NmParams K) (xl xu : Option (Fin n → K)) : ℕ → List (Fin n → K) →
    Option (List (Fin n → K) × List (Fin n → K))
  | 0, pop => some (pop, [])
  | t + 1, pop => (nmStep at' P xl xu pop).bind fun r => (nmRun at' P xl xu t r.1).map fun q => (q.1, r.2 ++ q.2)

/-! ### Pattern search -/

/-- `pattern.py:153-163` `step_along_axis`. -/
def stepAxis (xl xu : Option (Fin n → K)) (x : Fin n → K) (d : K) (k : Fin n) : Fin n → K :=
  clipRow xl xu (Function.update x k (x k + d))

/-- `pattern.py:106-135` `exploration_move` for the variables in the order given: the point reached and the points evaluated. -/
def explore (at' : Attrs (Fin n → K) K K 1) (xl xu : Option (Fin n → K)) (sign delta : Fin n → K) (rho : K) :
    List (Fin n) → (Fin n → K) → (Fin n → K) × List (Fin n → K)
  | [], c => (c, [])
  | k :: ks, c =>
    let d := sign k * rho * delta k
    let e := stepAxis xl xu c d k
    if isBetter at' e c 0 then
      let r := explore at' xl xu sign delta rho ks e
      (r.1, e :: r.2)
    else
      let e' := stepAxis xl xu c (-1 * d) k
      let r := explore at' xl xu sign delta rho ks (if isBetter at' e' c 0 then e' else c)
      (r.1, e :: e' :: r.2)

/-- `pattern.py:138-144` `pattern_move` (the clipping acts in place on `X`). -/
def patternMove (xl xu : Option (Fin n → K)) (cur dir : Fin n → K) (step : K) : Fin n → K :=
  clipRow xl xu fun j => cur j + step * dir j

/-- `pattern.py:147-150` `calc_sign`. -/
def calcSign (dir : Fin n → K) : Fin n → K := fun j => if dir j < 0 then -1 else if 0 < dir j then 1 else -1

/-- The attributes of `PatternSearch` that change. -/
structure PatternState (K : Type*) (n : ℕ) where
  center : Fin n → K
  explr : Fin n → K
  nNotImproved : ℕ
  rho : K
  sign : Fin n → K

/-- `pattern.py:54-64` `_initialize_advance`. -/
def patternInit (x0 : Fin n → K) (initRho : K) : PatternState K n := ⟨x0, x0, 0, initRho, fun _ => 1⟩

/-- `pattern.py:66-99` `_next`; `order` is the permutation drawn. The population afterwards is `[center, explr]`. -/
def patternNext (at' : Attrs (Fin n → K) K K 1) (xl xu : Option (Fin n → K)) (delta : Fin n → K) (initRho step : K) (order : List (Fin n))
    (s : PatternState K n) : PatternState K n × List (Fin n → K) :=
  if isBetter at' s.explr s.center 0 then
    let dir : Fin n → K := fun j => s.explr j - s.center j
    let trial := patternMove xl xu s.explr dir step
    let r := explore at' xl xu (calcSign dir) delta s.rho order trial
    ({ s with center := s.explr, explr := r.1, sign := calcSign dir }, trial :: r.2)
  else
    let k := s.nNotImproved + 1
    let r := explore at' xl xu s.sign delta (initRho ^ k) order s.center
    ({ s with explr := r.1, nNotImproved := k, rho := initRho ^ k }, r.2)

/-- A run with the permutations drawn in the iterations: the state and all points evaluated. -/
def patternRun (at' : Attrs (Fin n → K) K K 1) (xl xu : Option (Fin n → K)) (delta : Fin n → K) (initRho step : K) :
    List (List (Fin n)) → PatternState K n → PatternState K n × List (Fin n → K)
  | [], s => (s, [])
  | o :: os, s =>
    let r := patternNext at' xl xu delta initRho step o s
    let q := patternRun at' xl xu delta initRho step os r.1
    (q.1, r.2 ++ q.2)

end Model
