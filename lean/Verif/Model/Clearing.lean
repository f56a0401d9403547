import Verif.Model.SingleObjective
import Verif.Model.Selection
import Verif.Model.Survival

/-!
# Model of `pymoo/util/clearing.py` and of the niching genetic algorithm

`pymoo/algorithms/soo/nonconvex/ga_niching.py`. Individuals of the sorted population are positions `0, …, n-1`; `D k i` is the
distance matrix. Attributes of individuals that were never set are `none`.
-/

namespace Model

/-- `clearing.py:33-49`: the selected indices and the mask of cleared ones. -/
structure Clearing where
  S : List ℕ
  C : ℕ → Bool

/-- `clearing.py:45-46`. -/
def clrInit : Clearing := ⟨[], fun _ => false⟩

/-- `clearing.py:48-49` `remaining`. -/
def clrRemaining (n : ℕ) (c : Clearing) : List ℕ := (List.range n).filter fun i => !c.C i

/-- `clearing.py:60-62` `reset`. -/
def clrReset (c : Clearing) : Clearing := ⟨c.S, fun i => decide (i ∈ c.S)⟩

variable {K : Type*} [LinearOrder K]

/-- `clearing.py:64-81` `select`. -/
def clrSelect (D : ℕ → ℕ → K) (eps : K) (k : ℕ) (c : Clearing) : Clearing :=
  ⟨c.S ++ [k], fun i => c.C i || i == k || decide (D k i < eps)⟩

/-- `clearing.py:15-29` `select_by_clearing`: `func` picks a position among the remaining ones. `none` = exception (nothing remains,
position out of range). The loop selects one index in each round, so `nSelect` rounds are enough (`C74_select_by_clearing`). -/
def selectLoop (n : ℕ) (D : ℕ → ℕ → K) (eps : K) (func : List ℕ → ℕ) (nSelect : ℕ) : ℕ → Clearing → Option Clearing
  | 0, c => some c
  | f + 1, c =>
    if c.S.length < nSelect then
      let c := if (clrRemaining n c).length = 0 then clrReset c else c
      ((clrRemaining n c)[func (clrRemaining n c)]?).bind fun k => selectLoop n D eps func nSelect f (clrSelect D eps k c)
    else some c

/-- `clearing.py:15-29`. -/
def selectByClearing (n : ℕ) (D : ℕ → ℕ → K) (eps : K) (func : List ℕ → ℕ) (nSelect : ℕ) : Option (List ℕ) :=
  (selectLoop n D eps func nSelect nSelect clrInit).map Clearing.S

/-- The local variables of `EpsilonClearingSurvival._do` (`ga_niching.py:127-133`) and the attributes `iter`, `rank`, `niche` of the
individuals. -/
structure NicheState where
  c : Clearing
  iter : ℕ
  rank : ℕ
  iterOne : Option (List ℕ)
  attIter : ℕ → Option ℕ
  attRank : ℕ → Option ℕ
  attNiche : ℕ → Option ℕ

/-- `ga_niching.py:138-151`: the state after the reset, if there is one. -/
def nicheReset (n : ℕ) (nMax : Option ℕ) (s : NicheState) : NicheState :=
  if (clrRemaining n s.c).length = 0 ∨ (∃ m ∈ nMax, m < s.rank) then
    { s with
      c := clrReset s.c, iter := s.iter + 1, rank := 1
      iterOne := some (s.iterOne.getD ((List.range n).filter fun i => decide (s.attIter i = some 1))) }
  else s

/-- `ga_niching.py:161-166`: the niche of `k`; the outer `none` is the `ValueError` of `argmin`. -/
def clrNicheOf (D : ℕ → ℕ → K) (s : NicheState) (k : ℕ) : Option (Option ℕ) :=
  if s.iter = 1 then some (some s.rank) else (npArgmin (D k) (s.iterOne.getD [])).map s.attNiche

/-- `ga_niching.py:137-169`: body of the loop; `none` = `IndexError` or `ValueError`. -/
def nicheStep (n : ℕ) (D : ℕ → ℕ → K) (eps : K) (nMax : Option ℕ) (s : NicheState) : Option NicheState :=
  let s := nicheReset n nMax s
  (clrRemaining n s.c).head?.bind fun k => (clrNicheOf D s k).map fun ni =>
    { s with
      c := clrSelect D eps k s.c, rank := s.rank + 1
      attIter := Function.update s.attIter k (some s.iter)
      attRank := Function.update s.attRank k (some s.rank)
      attNiche := Function.update s.attNiche k ni }

/-- `ga_niching.py:136`: the loop; one index is selected in each round, so `nSurvive` rounds are enough (`C74_rounds`). -/
def nicheLoop (n : ℕ) (D : ℕ → ℕ → K) (eps : K) (nMax : Option ℕ) (nSurvive : ℕ) : ℕ → NicheState → Option NicheState
  | 0, s => some s
  | f + 1, s => if s.c.S.length < nSurvive then (nicheStep n D eps nMax s).bind (nicheLoop n D eps nMax nSurvive f) else some s

/-- `ga_niching.py:127-133`: before the loop; `it`, `rk`, `ni` are the attributes the individuals come with. -/
def nicheInit (it rk ni : ℕ → Option ℕ) : NicheState := ⟨clrInit, 1, 1, none, it, rk, ni⟩

/-- `ga_niching.py:126-173` after sorting. -/
def nicheRun (n : ℕ) (D : ℕ → ℕ → K) (eps : K) (nMax : Option ℕ) (nSurvive : ℕ) (it rk ni : ℕ → Option ℕ) : Option NicheState :=
  nicheLoop n D eps nMax nSurvive nSurvive (nicheInit it rk ni)

section Pop
variable {ι α β : Type*} [LinearOrder α] [LinearOrder β]

/-- `ga_niching.py:119-124`: the distance matrix (only entries inside the matrix are read). -/
def distAt (dist : ι → ι → K) (dflt : K) (l : List ι) (k i : ℕ) : K := ((l[k]?).bind fun x => (l[i]?).map fun y => dist x y).getD dflt

/-- `ga_niching.py:104-168` `EpsilonClearingSurvival` through `Survival.do` (`n_survive` is cut to the size of the population): the
population is sorted by `FitnessSurvival`, `dist` is the normalised Euclidean distance of two individuals; `it`, `ni` are the attributes that
individuals have before. The survivors with their attributes `iter` and `niche`. -/
def nicheSurvival (at' : Attrs ι α β 1) (dist : ι → ι → K) (eps : K) (nMax : Option ℕ) (it ni : ι → Option ℕ) (pop : List ι) (nSurvive : ℕ) :
    Option (List (ι × Option ℕ × Option ℕ)) :=
  let sorted := fitnessSurvival at' none pop
  (nicheRun sorted.length (distAt dist eps sorted) eps nMax (min nSurvive pop.length) (fun k => sorted[k]?.bind it) (fun _ => none) fun k => sorted[k]?.bind ni).bind fun s =>
    s.c.S.mapM fun k => sorted[k]?.map fun x => (x, s.attIter k, s.attNiche k)

/-- Generations of `NicheGA` (`genetic.py:116-133`): the offspring are merged and the survivors taken. Each element of `gens` has the offspring and the attributes
`iter`, `niche` that individuals have at the beginning of that generation. -/
def nicheGens (at' : Attrs ι α β 1) (dist : ι → ι → K) (eps : K) (nMax : Option ℕ) (popSize : ℕ) (surv : List (ι × Option ℕ × Option ℕ))
    (gens : List (List ι × (ι → Option ℕ) × (ι → Option ℕ))) : Option (List (ι × Option ℕ × Option ℕ)) :=
  gens.foldlM (fun sv g => nicheSurvival at' dist eps nMax g.2.1 g.2.2 (sv.map Prod.fst ++ g.1) popSize) surv

/-- `ga_niching.py:230-234` `NicheGA._set_optimum` with `return_all_opt`. -/
def nicheOpt (surv : List (ι × Option ℕ × Option ℕ)) : List ι := (surv.filter fun q => decide (q.2.1 = some 1)).map Prod.fst

end Pop

/-- `ga_niching.py:63-95`, one tournament of `comp_by_cv_and_clearing_fitness`; `iter` is the attribute, `rank` that of the clearing. -/
def nicheCompare {α γ : Type*} [LinearOrder α] [Zero α] (pop : ℕ → TInd 1 α γ) (iter : ℕ → ℕ) (coin : Bool) (a b : ℕ) : Option ℕ :=
  if 0 < (pop a).cv ∨ 0 < (pop b).cv then compareInd a (pop a).cv b (pop b).cv .smaller true coin
  else match compareInd a (iter a) b (iter b) .smaller false coin with
    | some w => some w
    | none => compareInd a (pop a).rank b (pop b).rank .smaller true coin

end Model
