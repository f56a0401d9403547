import Verif.Model.CTAEA
import Verif.Model.FrontSurvivals
import Verif.Model.GDE3
import Mathlib.Data.Fin.Tuple.Basic

/-!
# Model of the constrained rank-and-crowding survival

`pymoo/operators/survival/rank_and_crowding/classes.py:106-208` `ConstrRankAndCrowding`: feasible individuals compete by rank and crowding, places
that are left go to infeasible ones, ranked by the vectors of their constraint violations.
-/

namespace Model

variable {ι K : Type*} {m p q : ℕ} [Field K] [LinearOrder K]

/-- `classes.py:176-181`: the row of `C`: `np.maximum(G, 0)` next to `np.absolute(H)`. -/
def crViol (G : ι → Fin p → K) (H : ι → Fin q → K) (x : ι) : Fin (p + q) → K :=
  Fin.append (fun j => max (G x j) 0) fun j => |H x j|

/-- `classes.py:192-196`: the splitting front sorted by `CV` and cut (`r` of its members have to go). `randomized_argsort` is called without
`random_state`, so `P` is a permutation drawn from a fresh, unseeded generator. -/
def crTrim (argsort : (l : ℕ) → (Fin l → K) → List (Fin l)) (P : (l : ℕ) → Fin l → Fin l) (cv : ι → K) (r : ℕ) (front : List ι) : Option (List ι) :=
  if r = 0 then some front
  else (randomizedArgsort (argsort front.length) (P front.length) "ascending" fun i => cv (front.get i)).map fun I =>
    (I.take (front.length - r)).map front.get

/-- `classes.py:131-208` `ConstrRankAndCrowding._do`; `ranking` is `self.ranking.do` (lines 159-165 and 206). `none` = an exception. -/
def crDo (ranking : List ι → ℕ → List ι) (paretoRankC : ∀ n, (Fin n → Fin (p + q) → K) → Fin n → ℕ)
    (argsort : (l : ℕ) → (Fin l → K) → List (Fin l)) (P : (l : ℕ) → Fin l → Fin l) (constrained : Bool) (feas : ι → Bool) (cv : ι → K)
    (G : ι → Fin p → K) (H : ι → Fin q → K) (sortCV : (L : List ι) → List (Fin L.length) → List (Fin L.length)) (pop : List ι)
    (nSurvive : Option ℕ) : Option (List ι) :=
  let n := min (nSurvive.getD pop.length) pop.length
  if constrained then
    let fi := splitByFeasibility (fun i => feas (pop.get i)) (sortCV pop) id true false
    let feasible := fi.1.map pop.get
    let infeasible := fi.2.map pop.get
    let survivors := if feasible.length = 0 then [] else ranking feasible (min feasible.length n)
    let nRemaining := n - survivors.length
    if nRemaining > 0 then
      (ndsList paretoRankC (crViol G H) infeasible none (some nRemaining)).bind fun fronts =>
        (frontFill (crTrim argsort P cv) nRemaining fronts).map fun s => survivors ++ s.map Prod.fst
    else some survivors
  else some (ranking pop n)

/-- `self.ranking = RankAndCrowding(...)` (`classes.py:126`): `Survival.do` around the operator (`core/survival.py:25-98`); the problem has
constraints, so it splits by feasibility once more. -/
def crRanking {γ : Type*} [LinearOrder γ] (constrained : Bool) (paretoRank : (N : ℕ) → (Fin N → Fin m → K) → Fin N → ℕ)
    (crowd : (l : ℕ) → (Fin l → Fin m → K) → ℕ → Fin l → γ) (argsort : (l : ℕ) → (Fin l → γ) → List (Fin l)) (P : ℕ → (l : ℕ) → Fin l → Fin l)
    (at' : Attrs ι K K m) (sortCV : (L : List ι) → List (Fin L.length) → List (Fin L.length)) (sub : List ι) (k : ℕ) : List ι :=
  survivalDo constrained (rcOperator paretoRank at'.F crowd argsort P) at'.feas sub (sortCV sub) (some k)

/-- `Survival.do` of `ConstrRankAndCrowding` itself (`filter_infeasible=False`, `core/survival.py:25-98`): an empty population is returned as it is. -/
def crSurvival {γ : Type*} [LinearOrder γ] (constrained : Bool) (paretoRank : (N : ℕ) → (Fin N → Fin m → K) → Fin N → ℕ)
    (paretoRankC : ∀ n, (Fin n → Fin (p + q) → K) → Fin n → ℕ) (crowd : (l : ℕ) → (Fin l → Fin m → K) → ℕ → Fin l → γ)
    (argsort : (l : ℕ) → (Fin l → γ) → List (Fin l)) (P : ℕ → (l : ℕ) → Fin l → Fin l)
    (argsortC : (l : ℕ) → (Fin l → K) → List (Fin l)) (PC : (l : ℕ) → Fin l → Fin l) (at' : Attrs ι K K m) (G : ι → Fin p → K) (H : ι → Fin q → K)
    (sortCV : (L : List ι) → List (Fin L.length) → List (Fin L.length)) (pop : List ι) (nSurvive : Option ℕ) : Option (List ι) :=
  if pop.length = 0 then some pop
  else crDo (crRanking constrained paretoRank crowd argsort P at' sortCV) paretoRankC argsortC PC constrained at'.feas at'.cv G H sortCV pop
    (some (min (nSurvive.getD pop.length) pop.length))

end Model
