import Verif.Model.CTAEA
import Verif.Model.Optimum
import Mathlib.Data.List.Sort
import Mathlib.Algebra.BigOperators.Fin
import Mathlib.Analysis.SpecialFunctions.Pow.Real
import Mathlib.Analysis.SpecialFunctions.Log.Basic

/-!
# Model: the survival score of AGE-MOEA and AGE-MOEA-II (`pymoo/algorithms/moo/age.py`, `age2.py`)

Indices of the front are numbers `0 … m - 1`; `front` is what is left after `np.round(front, 12)` and after the ideal point has been subtracted.
-/

namespace Model

open Finset

section Field
variable {K : Type*} [Field K] [LinearOrder K] {n : ℕ}

/-- age.py:277-286 `point_2_line_distance(P, A, B)` for one row and `A = 0`: the *squared* distance. -/
def pointLine (P B : Fin n → K) : K :=
  let t := (∑ k, P k * B k) / ∑ k, B k * B k
  ∑ k, (P k - t * B k) ^ 2

/-- age.py:263: row `i` of `1e-6 + np.eye(n)`. -/
def ageAxis (i k : Fin n) : K := 1 / 1000000 + if i = k then 1 else 0

/-- age.py:267-273: the loop over the axes. A selected index has the distance infinity, so it is left out (there are more rows than axes). `none`: `argmin` of
no index. -/
def ageCornersFrom (m : ℕ) (front : ℕ → Fin n → K) : List (Fin n) → List ℕ → Option (List ℕ)
  | [], sel => some sel
  | i :: is, sel =>
    match npArgmin (fun j => pointLine (front j) (ageAxis i)) ((List.range m).filter fun j => decide (j ∉ sel)) with
    | none => none
    | some j => ageCornersFrom m front is (sel ++ [j])

/-- age.py:255-274 `find_corner_solutions(front)`. -/
def ageCorners (m : ℕ) (front : ℕ → Fin n → K) : Option (List ℕ) := if m ≤ n then some (List.range m) else ageCornersFrom m front (List.finRange n) []

/-- `np.max(front, axis=0)` of `m` rows; no row: an exception, here `0`. -/
def ageMax (m : ℕ) (front : ℕ → Fin n → K) (k : Fin n) : K := ((ctaArgmax (fun j => front j k) (List.range m)).map fun j => front j k).getD 0

/-- age.py:294-321 `normalize(front, extreme)`: the normalisation. `hyper` is what `np.linalg.solve(front[extreme], np.ones(n))` returns, `none` an exception or a
value that is not finite. (The extreme points are different indices, so the first branch is not taken.) -/
def ageNormal (m : ℕ) (front : ℕ → Fin n → K) (hyper : Option (Fin n → K)) (k : Fin n) : K :=
  let v := match hyper with
    | none => ageMax m front k
    | some h => if ∀ j, 0 < h j then 1 / h k else ageMax m front k
  if v = 0 then 1 else v

/-- age.py:319: the normalised front. -/
def ageNormed (m : ℕ) (front : ℕ → Fin n → K) (hyper : Option (Fin n → K)) (j : ℕ) (k : Fin n) : K := front j k / ageNormal m front hyper k

end Field

section Loop
variable {K : Type*} [Field K] [LinearOrder K]

/-- age.py:177-184: the matrix of distances: tiny entries are replaced, rows are divided by the norm of the row's point. `D`, `nn` are `pairwise_distances` and
`np.linalg.norm(front, p, axis=1)`. -/
def ageScaled (D : ℕ → ℕ → K) (nn : ℕ → K) (i j : ℕ) : K :=
  (if D i j < 1 / 100000000 then 1 / 100000000 else D i j) / (if nn i < 1 / 100000000 then 1 else nn i)

/-- age.py:191-206: the value of a remaining one: `D_mg[r, s] = distances[selected[s], remaining[r]]`; the sum of the two smallest, or the only one. -/
def ageValue (W : ℕ → ℕ → K) (sel : List ℕ) (r : ℕ) : K :=
  if 1 < sel.length then (((sel.map fun s => W s r).insertionSort (· ≤ ·)).take 2).sum else ((sel.map fun s => W s r).head?).getD 0

/-- age.py:186-210: the loop; the indices in the order of their selection with their scores. -/
def ageLoop (W : ℕ → ℕ → K) : ℕ → List ℕ → List ℕ → List (ℕ × K)
  | 0, _, _ => []
  | fuel + 1, sel, rem =>
    match ctaArgmax (ageValue W sel) rem with
    | none => []
    | some b => (b, ageValue W sel b) :: ageLoop W fuel (sel ++ [b]) (rem.erase b)

/-- age.py:153-212 `survival_score`: the scores, infinite for the extreme points; all zero if there are less points than objectives. -/
def ageScore (m n : ℕ) (extreme : List ℕ) (W : ℕ → ℕ → K) (i : ℕ) : WithTop K :=
  if m < n then 0
  else if i ∈ extreme then ⊤
  else
    let rem := (List.range m).filter fun j => decide (j ∉ extreme)
    match (ageLoop W rem.length extreme rem).find? (fun e => e.1 == i) with
    | some e => (e.2 : K)
    | none => 0

end Loop

section Real
variable {n : ℕ}

/-- age.py:222-229 the exponent from the mean of the central point (`x / 0 = ∞` for `x > 0`: a mean of one gives `20`, a mean of zero gives `1`), limited to
`(0.1, 20]`. One objective: `log 1 = 0`; the logarithm of a negative number is NaN. -/
noncomputable def ageP (n : ℕ) (mean : ℝ) : ℝ :=
  if mean < 0 then 1
  else if mean = 1 ∧ 1 < n then 20
  else
    let p := Real.log n / Real.log (1 / mean)
    if p ≤ 1 / 10 then 1 else if 20 < p then 20 else p

/-- age.py:233-251: the Minkowski distance of two points. -/
noncomputable def minkDist (p : ℝ) (a b : Fin n → ℝ) : ℝ := (∑ k, |a k - b k| ^ p) ^ (1 / p)

/-- age2.py:74-76 `project_on_manifold(point, p)`; `none` = division by zero. -/
noncomputable def ageProject (p : ℝ) (v : Fin n → ℝ) : Option (Fin n → ℝ) :=
  let dist := (∑ k, if 0 < v k then v k ^ p else 0) ^ (1 / p)
  if dist = 0 then none else some fun k => v k * (1 / dist)

/-- age2.py:161-166: limits of the exponent. -/
noncomputable def age2P (root : ℝ) : ℝ := if root ≤ 1 / 10 then 1 else if 20 < root then 20 else root

/-- age2.py:179-193: the distance of two points, via the projected midpoint unless the front is flat. -/
noncomputable def age2Dist (p : ℝ) (a b : Fin n → ℝ) : Option ℝ :=
  let len := fun v : Fin n → ℝ => (∑ k, |v k| ^ (2 : ℝ)) ^ (1 / 2 : ℝ)
  (ageProject p a).bind fun a' => (ageProject p b).bind fun b' =>
    if 95 / 100 < p ∧ p < 105 / 100 then some (len fun k => a' k - b' k)
    else (ageProject p fun k => a' k * (1 / 2) + b' k * (1 / 2)).map fun c => (len fun k => a' k - c k) + len fun k => b' k - c k

/-- age2.py:170-195 `pairwise_distances(front, p)`: the entries above the diagonal are computed, and `distances + distances.T` is returned. -/
noncomputable def age2Pair (p : ℝ) (front : ℕ → Fin n → ℝ) (i j : ℕ) : Option ℝ :=
  if i = j then some 0 else if i < j then age2Dist p (front i) (front j) else age2Dist p (front j) (front i)

/-- age2.py:88-133: one Newton step of `find_zero` for the logarithm of `∑ (point + ε) ^ x` over the positive entries; without the guards for overflow. -/
noncomputable def age2Newton (v : Fin n → ℝ) (x : ℝ) : ℝ :=
  let e := fun k => Real.exp (x * Real.log (v k + 1 / 10000000000))
  let f := Real.log (∑ k, if 0 < v k then e k else 0)
  let num := ∑ k, if 0 < v k then e k * Real.log (v k + 1 / 10000000000) else 0
  let den := ∑ k, if 0 < v k then e k else 0
  x - f / (num / den)

end Real

end Model
