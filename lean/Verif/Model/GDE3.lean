import Verif.Model.Dominator
import Verif.Model.Optimum
import Verif.Model.Survival
import Verif.Model.Repair
import Verif.Model.MaskCrossover
import Verif.Model.Selection

/-!
# Model of `pymoo/algorithms/moo/gde3.py` and `pymoo/algorithms/moo/nsde.py`

Individuals have a type `ι` (object identity); `Attrs` gives `F`, `feas` and `CV`. Numbers are exact (no rounding, no NaN).
-/

namespace Model

variable {ι α β γ K : Type*} {m n r : ℕ}

/-! ### The environmental selection -/

/-- `rank_and_crowding/classes.py:40-103` as called by `Survival.do` with a list of individuals; the result is a list of individuals. (The
model's `rankAndCrowding` never fails for the default sorting: `C11_nsga2`.) -/
def rcOperator [LinearOrder α] [Sub α] [LinearOrder γ] (paretoRank : (N : ℕ) → (Fin N → Fin m → α) → Fin N → ℕ) (obj : ι → Fin m → α)
    (crowd : (l : ℕ) → (Fin l → Fin m → α) → ℕ → Fin l → γ) (argsort : (l : ℕ) → (Fin l → γ) → List (Fin l))
    (P : ℕ → (l : ℕ) → Fin l → Fin l) (sub : List ι) (k : ℕ) : List ι :=
  ((rankAndCrowding (paretoRank sub.length) (fun i => obj (sub.get i)) crowd argsort P k).map fun st => st.survivors.map sub.get).getD []

/-- `util/dominator.py:8-18` `get_relation(ind_a, ind_b)`. -/
def indRelation [LinearOrder α] [LinearOrder β] (at' : Attrs ι α β m) (a b : ι) : ℤ :=
  getRelation (at'.F a) (at'.F b) (some (at'.cv a)) (some (at'.cv b))

/-- `gde3.py:53-61`: body of the loop, what one pair contributes to the pool. -/
def gdePair [LinearOrder α] [LinearOrder β] (at' : Attrs ι α β m) (parent off : ι) : List ι :=
  let rel := indRelation at' parent off
  if rel = 0 then [parent, off] else if rel = -1 then [off] else [parent]

/-- `gde3.py:52-63`: the pool; `none` = `IndexError` of `infills[k]`. -/
def gdePool [LinearOrder α] [LinearOrder β] (at' : Attrs ι α β m) : List ι → List ι → Option (List ι)
  | [], _ => some []
  | _ :: _, [] => none
  | p :: pop, o :: infills => (gdePool at' pop infills).map (gdePair at' p o ++ ·)

/-- `gde3.py:49-70` `GDE3._advance`: `surv` is `self.survival.do(..., n_survive=self.n_offsprings)`. -/
def gdeAdvance [LinearOrder α] [LinearOrder β] (at' : Attrs ι α β m) (surv : List ι → List ι) (pop infills : List ι) : Option (List ι) :=
  (gdePool at' pop infills).map surv

/-- Several generations of GDE3; each has its offspring and its survival (the random numbers of the survival differ). -/
def gdeRun [LinearOrder α] [LinearOrder β] (at' : Attrs ι α β m) : List ι → List (List ι × (List ι → List ι)) → Option (List ι)
  | pop, [] => some pop
  | pop, g :: gs => (gdeAdvance at' g.2 pop g.1).bind fun pop => gdeRun at' pop gs

/-! ### The trial vectors of `VariantDE` -/

section Trial
variable [Field K] [LinearOrder K]

/-- `nsde.py:127-131` `_sample_F` for one mating: `F` is a fixed number or a pair `(lo, hi)` with a random number `u`. -/
def nsdeF (F : K ⊕ K × K) (u : K) : K := F.elim id fun b => b.1 + u * (b.2 - b.1)

/-- One difference of `nsde.py:82-90`: the two parents, the random number of `_sample_F`, the random numbers of the jitter. -/
structure NsdeDiff (K : Type*) (n : ℕ) where
  a : Fin n → K
  b : Fin n → K
  u : K
  w : Fin n → K

/-- `nsde.py:79-90`: the donor of one mating. -/
def nsdeDonor (F : K ⊕ K × K) (gamma : Option K) (base : Fin n → K) : List (NsdeDiff K n) → Fin n → K
  | [] => base
  | d :: ds => nsdeDonor F gamma
      (fun j => base j + nsdeF F d.u * (gamma.elim 1 fun g => 1 + g * (d.w j - 1 / 2)) * (d.a j - d.b j)) ds

/-- `dex.py:209-214` `DE_REPAIRS` (`nsde.py:50-55`). -/
inductive DeRepair
  | bounceBack | midway | randInit | toBounds

/-- `dex.py:157-205`. -/
def deRepair (k : DeRepair) (V base : Fin r → Fin n → K) (xl xu : Fin n → K) (u1 u2 : Fin r → Fin n → K) : Fin r → Fin n → K :=
  match k with
  | .bounceBack => repairRandomInit V base xl xu u1 u2
  | .midway => repairMidway V base xl xu
  | .randInit => repairRandInit V xl xu u1 u2
  | .toBounds => repairClamp V xl xu

/-- `nsde.py:63-125` `VariantDE._do` after the selection (without the optional mutation): `P i` is row `i` of the parents, `noise i k` the random
numbers of its `k`-th difference, `M` the mask. Columns: `0` target, `1` base, then the pairs. -/
def nsdeTrial (F : K ⊕ K × K) (gamma : Option K) (k : DeRepair) (bounds : Option ((Fin n → K) × (Fin n → K))) (X : ℕ → Fin n → K) (nDiffs : ℕ)
    (P : Fin r → ℕ → ℕ) (u : Fin r → ℕ → K) (w : Fin r → ℕ → Fin n → K) (u1 u2 : Fin r → Fin n → K) (M : Fin r → Fin n → Bool) : Fin r → Fin n → K :=
  let base : Fin r → Fin n → K := fun i => X (P i 1)
  let V : Fin r → Fin n → K := fun i =>
    nsdeDonor F gamma (base i) ((List.range nDiffs).map fun k => ⟨X (P i (2 + 2 * k)), X (P i (3 + 2 * k)), u i k, w i k⟩)
  let V := match bounds with
    | none => V
    | some b => deRepair k V base b.1 b.2 u1 u2
  fun i => fun j => if M i j then V i j else X (P i 0) j

end Trial

end Model
