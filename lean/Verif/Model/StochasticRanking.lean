import Verif.Model.SingleObjective
import Verif.Model.Sorting
import Mathlib.Algebra.Field.Defs

/-!
# Model of the evolution strategies with stochastic ranking

`pymoo/algorithms/soo/nonconvex/{sres,isres}.py`; `stochastic_ranking` is in `Model/Sorting.lean`. `coin i j` is the outcome of `u < pr` in sweep `i` at position `j`.
-/

namespace Model

section SRES
variable {ι α β : Type*} [LinearOrder α] [LinearOrder β] [Zero β]

/-- `StochasticRankingSurvival` (sres.py 17-34), called through `Survival.do`; without constraints the order is `f.argsort()`, any ascending one. -/
def srSurvival (argsort : (ι → α) → List ι → List ι) (hasConstr : Bool) (coin : ℕ → ℕ → Bool) (at' : Attrs ι α β 1) (nSurvive : ℕ) (pop : List ι) : List ι :=
  (if hasConstr then stochasticRanking (fun x => at'.F x 0) at'.cv coin pop else argsort (fun x => at'.F x 0) pop).take nSurvive

/-- `SRES._advance` (sres.py 49-55), followed by `_set_optimum` of `ES`. -/
def sresAdvance [Sub α] (pf : ∀ n, (Fin n → Fin 1 → α) → Fin n → ℕ) (argsort : (ι → α) → List ι → List ι) (hasConstr : Bool) (at' : Attrs ι α β 1) (popSize : ℕ)
    (s : EsState ι) (g : (ℕ → ℕ → Bool) × List ι) : Option (EsState ι) :=
  let inf := if g.2.length < popSize then g.2 ++ s.pop else g.2
  esSetOptimum pf at' { s with pop := srSurvival argsort hasConstr g.1 at' popSize inf }

/-- A run of SRES: the initial sample and, for every generation, the outcomes of the comparisons with `pr` and the offspring. -/
def sresRun [Sub α] (pf : ∀ n, (Fin n → Fin 1 → α) → Fin n → ℕ) (argsort : (ι → α) → List ι → List ι) (hasConstr : Bool) (at' : Attrs ι α β 1) (popSize : ℕ)
    (c0 : ℕ → ℕ → Bool) (init : List ι) (gens : List ((ℕ → ℕ → Bool) × List ι)) : Option (EsState ι) :=
  (esSetOptimum pf at' { pop := srSurvival argsort hasConstr c0 at' init.length init, opt := none }).bind fun s =>
    gens.foldlM (fun s g => sresAdvance pf argsort hasConstr at' popSize s g) s

end SRES

/-! ### ISRES -/

section ISRES
variable {K : Type*} [Field K] [LinearOrder K]

/-- isres.py 43: the parents of the offspring. -/
def isresParents (lambda mu n : ℕ) : List ℕ := (List.range lambda).map fun i => i % min mu n

/-- isres.py 49-61: one component of offspring `i`; `x0`, `xn` are the components of the first and the following row, `e` the random factor and `z` the normal number. -/
def isresMutate (gamma : K) (mu i : ℕ) (x x0 xn snew z : K) : K := if i + 1 < mu then x + gamma * (x0 - xn) else x + snew * z

/-- isres.py 55-58: the step size with which offspring `i` is mutated and repaired. -/
def isresSigma (smax s e : K) (mu i : ℕ) : K := if i + 1 < mu then s else min smax (s * e)

/-- isres.py 67: the step size the offspring is stored with. -/
def isresStored (alpha : K) (mu i : ℕ) (s sp : K) : K := if mu ≤ i then s + alpha * (sp - s) else sp

/-- isres.py 40-70: one component of offspring `i` and its step size; `zs` are the normal numbers of the repair. -/
def isresOff (gamma alpha smax xl xu : K) (mu i : ℕ) (x x0 xn s e z : K) (zs : List K) : K × K :=
  let sp := isresSigma smax s e mu i
  (esRepair x sp xl xu zs (isresMutate gamma mu i x x0 xn sp z), isresStored alpha mu i s sp)

end ISRES

end Model
