import Verif.Model.Individual

/-!
# Model of `pymoo/constraints`: constraint handling by changing the problem or the configuration

A matrix is the list of its rows. `none` = an exception (unless said otherwise).
-/

namespace Model

section
variable {K : Type*} [Field K] [LinearOrder K] [AddLeftMono K]

/-- The dictionary returned by the `do` of the wrapped problem (`core/problem.py:225-239`), as far as it is used here: `F` with
`m` columns, and `G`, `H` if they are in the dictionary. -/
structure DoOut (K : Type*) where
  m : ℕ
  F : List (List K)
  G : Option (List (List K))
  H : Option (List (List K))

/-- `core/individual.py:559-597` `calc_cv` for two-dimensional `G` and `H`. -/
def calcCvRows (cfg : IndConfig K) (G H : List (List K)) : List K := List.zipWith (calcCv cfg) G H

/-- `constraints/as_penalty.py:22-40` `ConstraintsAsPenalty.do`: the new `F`. Without `G` or `H` in the dictionary `del` raises
(lines 40-41); the violations have one entry per row, so `np.reshape(CV, F.shape)` raises unless there is one objective (or no
row). -/
def penaltyDo (penalty : K) (out : DoOut K) : Option (List (List K)) :=
  match out.G, out.H with
  | some G, some H =>
    if out.F.length = out.F.length * out.m then
      some (List.zipWith (fun f cv => f.map fun x => x + penalty * cv) out.F (calcCvRows defaultConfig G H))
    else none
  | _, _ => none

/-- `constraints/as_obj.py:29-48` `ConstraintsAsObjective.do` with `append=True`: the new `F`. -/
def objectiveDo (cfg : IndConfig K) (out : DoOut K) : Option (List (List K)) :=
  match out.G, out.H with
  | some G, some H => some (List.zipWith (fun cv f => cv :: f) (calcCvRows cfg G H) out.F)
  | _, _ => none

/-- The same with `append=False`: `out["F"] = CV`, a vector and not a matrix. -/
def objectiveOnlyDo (cfg : IndConfig K) (out : DoOut K) : Option (List K) :=
  match out.G, out.H with
  | some G, some H => some (calcCvRows cfg G H)
  | _, _ => none

/-- `constraints/from_bounds.py:19-38` `ConstraintsFromBounds.do`: the new `G`; `bounds` are the bounds of the wrapper. Without
bounds (`remove_bonds=True`) `xl - X` raises. -/
def boundsDo (bounds : Option (List K × List K)) (X : List (List K)) (out : DoOut K) : Option (List (List K)) :=
  match bounds, out.G with
  | some (xl, xu), some G =>
    some (List.zipWith (fun g x => g ++ (List.zipWith (fun l v => l - v) xl x ++ List.zipWith (fun v u => v - u) x xu)) G X)
  | _, _ => none

/-- `constraints/from_bounds.py:13-17`: the bounds of the wrapper. -/
def boundsOfWrapper (removeBonds : Bool) (bounds : Option (List K × List K)) : Option (List K × List K) :=
  if removeBonds then none else bounds

end

section
variable {K : Type*} [Field K] [LinearOrder K]

/-! ### Adaptive epsilon -/

/-- The tolerance `cv_eps` in `config` (attached to all individuals) and in `adapted_config`, and the initial violation `max_cv`
(`constraints/adaptive.py:56-63`, `constraints/eps.py:8-12`). -/
structure EpsState (K : Type*) where
  config : K
  adapted : K
  maxCv : K

/-- `constraints/eps.py:14-19` `_adapt_constraint_handling`: the new `adapted_config["cv_eps"]`. -/
def epsAdapt (percUntil t maxCv : K) : K := max 0 (1 - 1 / percUntil * t) * maxCv

/-- The steps of the algorithm: initialisation (with the mean violation of the first population), a new set of offspring, and an
advance at progress `t` of the termination; `ok = false` is a step whose wrapped part raises an exception. -/
inductive EpsOp (K : Type*)
  | init (meanCv : K) (ok : Bool)
  | infill (ok : Bool)
  | advance (t : K) (ok : Bool)

/-- `constraints/adaptive.py:71-81`, `constraints/eps.py:21-35`: a step; the second component is the tolerance with which the
wrapped algorithm judges individuals during the step. The default configuration has tolerance `dflt` (0). -/
def epsStep (percUntil dflt : K) (s : EpsState K) : EpsOp K → EpsState K × K
  | .init meanCv ok =>
    let s := { s with maxCv := meanCv, config := s.adapted }
    (if ok then { s with config := dflt } else s, s.config)
  | .infill ok =>
    let s := { s with config := s.adapted }
    (if ok then { s with config := dflt } else s, s.config)
  | .advance t ok =>
    let s := { s with config := s.adapted }
    (if ok then { s with config := dflt, adapted := epsAdapt percUntil t s.maxCv } else s, s.config)

/-- A run: the final state and the tolerances used in the steps. -/
def epsRun (percUntil dflt : K) : EpsState K → List (EpsOp K) → EpsState K × List K
  | s, [] => (s, [])
  | s, op :: ops =>
    let r := epsStep percUntil dflt s op
    let q := epsRun percUntil dflt r.1 ops
    (q.1, r.2 :: q.2)

/-- The state after `AdaptiveEpsilonConstraintHandling(algorithm)` (`max_cv` is `None`, never used before `init`). -/
def epsInit (dflt : K) : EpsState K := ⟨dflt, dflt, 0⟩

end

end Model
