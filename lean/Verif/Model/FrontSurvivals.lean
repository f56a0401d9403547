import Verif.Model.NonDominatedSorting
import Verif.Model.Optimum
import Mathlib.Algebra.Order.Field.Basic
import Mathlib.Data.List.Sort
import Mathlib.Data.List.Lex
import Mathlib.Order.WithBot
import Mathlib.Data.Nat.Sqrt

/-!
# Model of the environmental selections of SMS-EMOA, SPEA2 and AGE-MOEA

`pymoo/algorithms/moo/{sms,spea2,age}.py`. Individuals are positions `Fin N`; `paretoRank` and `hvc` stand for moocore's `pareto_rank` and
`hv_contributions`.
-/

namespace Model

variable {N m : ℕ}

/-! ### SMS-EMOA -/

section Sms
variable {K : Type*} [Field K] [LinearOrder K]

/-- `normalize(F, ideal, nadir)` (`sms.py:68-69`, `normalization.py:152-171`) for one row: equal bounds are only shifted. -/
def smsNormalize (ideal nadir f : Fin m → K) : Fin m → K :=
  fun j => if ideal j = nadir j then f j - ideal j else (f j - ideal j) / (nadir j - ideal j)

/-- `sms.py:75-78`: `r` rounds of removing the individual with the least contribution; `pt` gives the normalised objectives. `none` = `argmin` of
an empty array. -/
def smsTrim (hvc : List (Fin m → K) → List K) (pt : Fin N → Fin m → K) : ℕ → List (Fin N) → Option (List (Fin N))
  | 0, f => some f
  | r + 1, f =>
    (npArgmin (fun i : ℕ => (hvc (f.map pt)).getD i 0) (List.range f.length)).bind fun k => smsTrim hvc pt r (f.eraseIdx k)

/-- `sms.py:61-81`: body of the loop; the survivors with their attribute `rank`. -/
def fillStep {ι : Type*} (trim : ℕ → List ι → Option (List ι)) (nSurvive : ℕ) (s : List (ι × ℕ)) (fk : List ι × ℕ) : Option (List (ι × ℕ)) :=
  (if s.length + fk.1.length > nSurvive then trim (s.length + fk.1.length - nSurvive) fk.1 else some fk.1).map fun f =>
    s ++ f.map fun i => (i, fk.2)

/-- `sms.py:61-83`. -/
def frontFill {ι : Type*} (trim : ℕ → List ι → Option (List ι)) (nSurvive : ℕ) (fronts : List (List ι)) : Option (List (ι × ℕ)) :=
  fronts.zipIdx.foldlM (fillStep trim nSurvive) []

/-- `F.min(axis=0)` and `F.max(axis=0)` of a non-empty list (`none` = `ValueError`). -/
def colMinMax (F : List (Fin m → K)) : Option ((Fin m → K) × (Fin m → K)) :=
  match F with
  | [] => none
  | f :: fs => some (fs.foldl (fun a b => fun j => min (a j) (b j)) f, fs.foldl (fun a b => fun j => max (a j) (b j)) f)

/-- `sms.py:31-83` `LeastHypervolumeContributionSurvival._do`; `bounds` are `ideal` and `nadir` if given. -/
def smsSurvival (paretoRank : (Fin N → Fin m → K) → Fin N → ℕ) (hvc : (Fin m → K) → List (Fin m → K) → List K) (eps : K) (F : Fin N → Fin m → K)
    (bounds : Option ((Fin m → K) × (Fin m → K))) (nSurvive : ℕ) : Option (List (Fin N × ℕ)) :=
  (bounds.orElse fun _ => colMinMax ((List.finRange N).map F)).bind fun b =>
    (ndsFronts paretoRank none none 0 F none (some nSurvive)).bind
      (frontFill (smsTrim (hvc fun _ => 1 + eps) fun i => smsNormalize b.1 b.2 (F i)) nSurvive)

/-- `sms.py:193-196`: the bounds that `SMSEMOA._advance` passes, from the current population. -/
def smsBounds (tiny : K) (pop : List (Fin m → K)) : Option ((Fin m → K) × (Fin m → K)) :=
  (colMinMax pop).map fun b => (b.1, fun j => b.2 j + tiny)

end Sms

/-! ### SPEA2 -/

section Spea
variable {K : Type*} [Field K] [LinearOrder K]

/-- `spea2.py:55`: the number of individuals that `i` dominates; `M` is the domination matrix. -/
def speaStrength (M : Fin N → Fin N → ℤ) (i : Fin N) : ℕ := ((List.finRange N).filter fun j => decide (M i j = 1)).length

/-- `spea2.py:58`: the strengths of the dominators of `i`. -/
def speaRaw (M : Fin N → Fin N → ℤ) (i : Fin N) : ℕ := ((List.finRange N).map fun j => if M i j = -1 then speaStrength M j else 0).sum

/-- `spea2.py:61-63`. -/
def speaK (N : ℕ) : ℕ := if N ≤ Nat.sqrt N then N - 1 else Nat.sqrt N

/-- `vectorized_cdist(F, F, fill_diag_with_inf=True)` (`spea2.py:75, 79`). -/
def speaDist (dist : Fin N → Fin N → K) (i j : Fin N) : WithTop K := if i = j then ⊤ else (dist i j : WithTop K)

/-- `spea2.py:82`: one row of the sorted distances. -/
def speaSorted (dist : Fin N → Fin N → K) (S : List (Fin N)) (i : Fin N) : List (WithTop K) :=
  (S.map (speaDist dist i)).insertionSort (· ≤ ·)

/-- `spea2.py:85` `1 / (sdists[:, k] + 2)`; the reciprocal of infinity is zero. `k` is smaller than `N`. -/
def speaDensity (dist : Fin N → Fin N → K) (i : Fin N) : K :=
  match (speaSorted dist (List.finRange N) i)[speaK N]? with
  | some (some d) => 1 / (d + 2)
  | _ => 0

/-- `spea2.py:88` the fitness. -/
def speaFitness (M : Fin N → Fin N → ℤ) (dist : Fin N → Fin N → K) (i : Fin N) : K := speaRaw M i + speaDensity dist i

/-- `spea2.py:19-28` `_truncation_candidate`: the position of the first individual whose sorted distance vector is lexicographically smallest. -/
def speaCandidate (dist : Fin N → Fin N → K) (S : List (Fin N)) : Option ℕ :=
  npArgmin (fun p : ℕ => ((S[p]?).map (speaSorted dist S)).getD []) (List.range S.length)

/-- `spea2.py:114-116`: removing one individual per round, until `nSurvive` are left. -/
def speaTruncate (dist : Fin N → Fin N → K) (nSurvive : ℕ) : ℕ → List (Fin N) → Option (List (Fin N))
  | 0, S => some S
  | f + 1, S => if nSurvive < S.length then (speaCandidate dist S).bind fun p => speaTruncate dist nSurvive f (S.eraseIdx p) else some S

/-- `spea2.py:46-118` `SPEA2Survival._do`; `argsort` is numpy's sort of a list of indices by a key (`none` never occurs for a non-empty list). -/
def speaSurvival (M : Fin N → Fin N → ℤ) (dist : Fin N → Fin N → K) (argsort : (Fin N → K) → List (Fin N) → List (Fin N)) (nSurvive : ℕ) :
    Option (List (Fin N)) :=
  let S := (List.finRange N).filter fun i => decide (∀ j, 0 ≤ M i j)
  let rem := (List.finRange N).filter fun i => decide (i ∉ S)
  if S.length < nSurvive then some (S ++ (argsort (speaFitness M dist) rem).take (nSurvive - S.length))
  else if nSurvive < S.length then speaTruncate dist nSurvive S.length S
  else some S

end Spea

/-! ### AGE-MOEA -/

section Age
variable {K : Type*} [LinearOrder K] [Zero K] {β : Type*}

/-- `age.py:108-115`: the fronts' numbers, `none` for individuals that are not ranked (`max_val`). -/
def ageFrontNo (fronts : List (List (Fin N))) (i : Fin N) : Option ℕ :=
  fronts.zipIdx.foldl (fun r fk => if i ∈ fk.1 then some fk.2 else r) none

/-- `age.py:125-141`: the values of `crowd_dist`: those of `survival_score` in the first front, the proximity in fronts `1, …, max_f_no - 1`,
and zero everywhere else: the loop stops before the last front. -/
def ageCrowd (fronts : List (List (Fin N))) (score prox : Fin N → K) (i : Fin N) : K :=
  if ageFrontNo fronts i = some 0 then score i
  else match ageFrontNo fronts i with
    | some k => if k < fronts.length - 1 then prox i else 0
    | none => 0

/-- `age.py:95-151` `AGEMOEASurvival._do`: `score`, `prox` are the numbers computed by `survival_score` and `minkowski_distances`;
`argsort` is numpy's sort of positions `last` by crowding. The survivors in the order of the population. `none`: no front (`np.max` of an empty array). -/
def ageSurvival [Sub β] (paretoRank : (Fin N → Fin m → β) → Fin N → ℕ) (F : Fin N → Fin m → β) (score prox : List (List (Fin N)) → Fin N → K)
    (argsort : (Fin N → K) → List (Fin N) → List (Fin N)) (nSurvive : ℕ) : Option (List (Fin N)) :=
  (ndsFronts paretoRank none none 0 F none (some nSurvive)).bind fun fronts =>
    if fronts = [] then none
    else
      let maxNo := fronts.length - 1
      let sel := fun i => decide (∃ k < maxNo, ageFrontNo fronts i = some k)
      let last := (List.finRange N).filter fun i => decide (ageFrontNo fronts i = some maxNo)
      let rank := (argsort (ageCrowd fronts (score fronts) (prox fronts)) last).reverse
      let add := rank.take (nSurvive - ((List.finRange N).filter sel).length)
      some ((List.finRange N).filter fun i => sel i || decide (i ∈ add))

end Age

end Model
