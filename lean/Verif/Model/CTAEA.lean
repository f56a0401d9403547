import Verif.Model.NonDominatedSorting
import Verif.Model.Optimum
import Verif.Model.Decomposition
import Mathlib.Algebra.Order.Field.Basic
import Mathlib.Order.WithBot

/-!
# Model of `pymoo/algorithms/moo/ctaea.py`: C-TAEA's two archives and its mating selection

`paretoRank` stands for moocore's `pareto_rank`. The niche and the decomposed fitness that `_associate` (108-121) computes for an individual depend on that
individual and on the ideal point only, so they are functions `niche` and `fv`; `ctaFitness` is the fitness. Distances (`cdist`, `pdist`) are a function `dist`.
-/

namespace Model

variable {ι K : Type*} {m : ℕ} [Field K] [LinearOrder K]

/-- `NonDominatedSorting().do(...)` on the matrix of a population, as lists of individuals. -/
def ndsList (paretoRank : ∀ n, (Fin n → Fin m → K) → Fin n → ℕ) (F : ι → Fin m → K) (L : List ι) (nFronts stop : Option ℕ) : Option (List (List ι)) :=
  (ndsFronts (paretoRank L.length) none none 0 (fun i => F (L.get i)) nFronts stop).map fun fr => fr.map fun f => f.map L.get

/-- `_associate` (ctaea.py 113-118): the decomposed fitness of one individual for the reference direction of its niche, `weight_0=1e-4`. -/
def ctaFitness (w0 : K) (ideal f refDir : List K) : K := asf w0 ideal f refDir

/-- `do` (ctaea.py 100): the ideal point is updated with the offspring. -/
def ctaIdeal (ideal : Fin m → K) (off : List (Fin m → K)) : Fin m → K := off.foldl (fun a f => fun j => min (a j) (f j)) ideal

/-! ### The convergence archive -/

/-- `np.argmax`: the first element with the largest value. -/
def ctaArgmax {ι : Type*} (f : ι → K) : List ι → Option ι
  | [] => none
  | x :: xs => some (xs.foldl (fun best y => if f best < f y then y else best) x)

/-- ctaea.py 175-193: the individual that one crowded niche proposes for removal. `crowd` are the niche's survivors, `coin` is what
`shuffle` does with the pair. Line 188 compares the fitness with the *index* `niche_worst`. A niche with one member has only the infinite diagonal. -/
def ctaCandidate (fv : ℕ → K) (dist : ℕ → ℕ → K) (surv crowd : List ℕ) (coin : Bool) : Option ℕ :=
  (ctaArgmax fv crowd).bind fun w =>
    let minD : WithTop K := (surv.filter fun j => decide (j ≠ w)).foldl (fun (a : WithTop K) j => min a (dist w j : K)) ⊤
    let d : ℕ × ℕ → WithTop K := fun e => if e.1 = e.2 then ⊤ else (dist e.1 e.2 : K)
    (npArgmin d (crowd.flatMap fun p => crowd.map fun q => (p, q))).bind fun e =>
      if d e < minD ∨ (d e = minD ∧ ((w : K) < fv e.1 ∨ (w : K) < fv e.2)) then
        let c := if coin then (e.2, e.1) else e
        some (if fv c.1 < fv c.2 then c.2 else c.1)
      else some w

/-- ctaea.py 194-197: one crowded niche; the state is the individual to remove with its niche and its fitness. -/
def ctaWorse (fv : ℕ → K) (cand : ℕ → Option ℕ) (st : Option (ℕ × ℕ) × K) (ni : ℕ) : Option (ℕ × ℕ) × K :=
  match cand ni with
  | none => st
  | some w => if st.2 < fv w then (some (w, ni), fv w) else st

/-- ctaea.py 170-197: the individual to remove and its niche; `index` are the niches and `count` their numbers of survivors. -/
def ctaRound (niche : ℕ → ℕ) (fv : ℕ → K) (dist : ℕ → ℕ → K) (index : List ℕ) (coin : ℕ → Bool) (surv : List ℕ) (count : ℕ → ℕ) : Option (ℕ × ℕ) :=
  let mx := (index.map count).foldl max 0
  ((index.filter fun ni => decide (count ni = mx)).foldl
    (ctaWorse fv fun ni => ctaCandidate fv dist surv (surv.filter fun p => decide (niche p = ni)) (coin ni)) (none, -1)).1

/-- ctaea.py 169-199: the loop, at most `fuel` rounds. `survivors[None] = False` removes everybody. -/
def ctaTrim (niche : ℕ → ℕ) (fv : ℕ → K) (dist : ℕ → ℕ → K) (index : List ℕ) (coins : ℕ → ℕ → Bool) (n : ℕ) : ℕ → List ℕ → (ℕ → ℕ) → List ℕ
  | 0, surv, _ => surv
  | f + 1, surv, count =>
    if n < surv.length then
      match ctaRound niche fv dist index (coins f) surv count with
      | some (w, ni) => ctaTrim niche fv dist index coins n f (surv.filter fun p => decide (p ≠ w)) (fun k => if k = ni then count k - 1 else count k)
      | none => []
    else surv

/-- ctaea.py 143-150: filling up from the fronts of the infeasible individuals, the last one by constraint violation. -/
def ctaFill (argsort : (ι → K) → List ι → List ι) (cv : ι → K) (remainder : ℕ) (fronts : List (List ι)) : List ι :=
  fronts.foldl (fun I front => if I.length + front.length ≤ remainder then I ++ front else I ++ (argsort cv front).take (remainder - I.length)) []

/-- `_updateCA` (ctaea.py 124-203): the new archive and `self.opt`. `none` = an exception. -/
def ctaUpdateCA (rankF : ∀ n, (Fin n → Fin m → K) → Fin n → ℕ) (rank2 : ∀ n, (Fin n → Fin 2 → K) → Fin n → ℕ) (argsort : (ι → K) → List ι → List ι)
    (F : ι → Fin m → K) (cv fv : ι → K) (niche : ι → ℕ) (dist : ι → ι → K) (coins : ℕ → ℕ → Bool) (pop : List ι) (n : ℕ) : Option (List ι × List ι) :=
  let Sc := pop.filter fun i => decide (cv i = 0)
  if Sc.length = n then
    (ndsList rankF F Sc none none).bind fun fronts => fronts.head?.map fun f => (Sc, f)
  else if Sc.length < n then
    let SI := pop.filter fun i => decide (0 < cv i)
    (ndsList rank2 (fun i => ![cv i, fv i]) SI none (some (n - Sc.length))).bind fun fronts =>
      let S := Sc ++ ctaFill argsort cv (n - Sc.length) fronts
      (ndsList rankF F S none none).bind fun fronts => fronts.head?.map fun f => (S, f)
  else
    (ndsList rankF F Sc none (some n)).bind fun fronts =>
      let S := fronts.flatten
      let get : (ι → K) → ℕ → K := fun g p => (S[p]?.map g).getD 0
      let keep := if n < S.length then
          let nicheAt : ℕ → ℕ := fun p => (S[p]?.map niche).getD 0
          let distAt : ℕ → ℕ → K := fun p q => ((S[p]?).bind fun i => S[q]?.map (dist i)).getD 0
          let index := ((List.range S.length).map nicheAt).dedup
          ctaTrim nicheAt (get fv) distAt index coins n S.length (List.range S.length) (fun k => ((List.range S.length).filter fun p => decide (nicheAt p = k)).length)
        else List.range S.length
      fronts.head?.map fun f => (keep.filterMap fun p => S[p]?, keep.filterMap fun p => if p < f.length then S[p]? else none)

/-! ### The diversity archive -/

/-- ctaea.py 219-221: the best of the niche's individuals: the least fitness among the non-dominated ones. -/
def ctaBest (rankF : ∀ n, (Fin n → Fin m → K) → Fin n → ℕ) (F : ℕ → Fin m → K) (fv : ℕ → K) (cur : List ℕ) : Option ℕ :=
  (ndsPop rankF F cur).bind (npArgmin fv)

/-- ctaea.py 216-226: `k` rounds for one niche; `members` are the positions in `Hd` with this niche. A position whose label was set to `-1` is in `S`
(once `S` is full the code goes on clearing labels, which nothing reads any more). -/
def ctaTake (best : List ℕ → Option ℕ) (members : List ℕ) (n : ℕ) : ℕ → List ℕ → List ℕ
  | 0, S => S
  | k + 1, S =>
    match best (members.filter fun p => decide (p ∉ S)) with
    | none => S
    | some b => ctaTake best members n k (if S.length < n then S ++ [b] else S)

/-- ctaea.py 213-228: one pass over the niches `0 .. n_survive - 1`; `caCount i` is `len(current_ca)`. (The `break` leaves a full `S` as it is.) -/
def ctaPass (best : List ℕ → Option ℕ) (members : ℕ → List ℕ) (caCount : ℕ → ℕ) (n itr : ℕ) (S : List ℕ) : List ℕ :=
  (List.range n).foldl (fun S i => if caCount i < itr then ctaTake best (members i) n (itr - caCount i) S else S) S

/-- ctaea.py 210-229: the `while` loop, cut after `fuel` passes (`none`). -/
def ctaLoop (best : List ℕ → Option ℕ) (members : ℕ → List ℕ) (caCount : ℕ → ℕ) (n : ℕ) : ℕ → ℕ → List ℕ → Option (List ℕ)
  | 0, _, S => if S.length < n then none else some S
  | f + 1, itr, S => if S.length < n then ctaLoop best members caCount n f (itr + 1) (ctaPass best members caCount n itr S) else some S

/-- `_updateDA` (ctaea.py 205-230): the positions in `Hd` (of `nHd` individuals) that form the new archive; `caNiches` are the niches of the convergence archive. -/
def ctaUpdateDA (rankF : ∀ n, (Fin n → Fin m → K) → Fin n → ℕ) (F : ℕ → Fin m → K) (fv : ℕ → K) (niche : ℕ → ℕ) (nHd : ℕ) (caNiches : List ℕ) (n fuel : ℕ) :
    Option (List ℕ) :=
  ctaLoop (ctaBest rankF F fv) (fun i => (List.range nHd).filter fun p => decide (niche p = i)) (fun i => caNiches.count i) n fuel 1 []

/-! ### Mating -/

/-- `comp_by_cv_dom_then_random` (ctaea.py 37-50), one tournament; `rel` is `Dominator.get_relation(pop[a].F, pop[b].F)`, `coin` the random choice. -/
def ctaCompare (cv : ℕ → K) (rel : ℕ → ℕ → ℤ) (coin : Bool) (a b : ℕ) : ℕ :=
  if cv a ≤ 0 ∧ cv b ≤ 0 then
    if rel a b = 1 then a else if rel a b = -1 then b else if coin then a else b
  else if cv a ≤ 0 then a
  else if cv b ≤ 0 then b
  else if coin then a else b

/-- `RestrictedMating._do` (ctaea.py 60, 64-65): the shares of non-dominated individuals of both archives. -/
def ctaShares (rank : ℕ → ℕ) (len : ℕ) : K × K :=
  ((((List.range (len / 2)).filter fun i => decide (rank i = 0)).length : K) / (len : K),
   (((List.range (len - len / 2)).filter fun i => decide (rank (len / 2 + i) = 0)).length : K) / (len : K))

/-- `RestrictedMating._do` (ctaea.py 73-77): the offset added to the participants in row `t` of `P`; `pf` are the random numbers. -/
def ctaOffset (Pc Pd : K) (nPop nParents : ℕ) (pf : ℕ → K) (t : ℕ) : ℕ :=
  (if t % nParents = 0 ∧ Pc ≤ Pd then nPop else 0) + (if t % nParents = 1 ∧ Pc ≤ pf (t / nParents) then nPop else 0)

end Model
