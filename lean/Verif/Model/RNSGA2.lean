import Verif.Model.CTAEA
import Mathlib.Analysis.Real.Sqrt
import Mathlib.Algebra.BigOperators.Group.Finset.Defs

/-!
# Model of `pymoo/algorithms/moo/rnsga2.py`: the survival of R-NSGA-II

Positions in the front that is split are `0 .. len - 1`. `np.argsort` is a function `argsort` (any ascending order of equal values, the default sort is not stable).
-/

namespace Model

open scoped BigOperators

/-- `calc_norm_pref_distance` (rnsga2.py 185-189), one entry of the matrix. -/
noncomputable def rnsDistance {m : ℕ} (weights ideal nadir a b : Fin m → ℝ) : ℝ :=
  √((∑ j, ((a j - b j) / (nadir j - ideal j)) ^ 2 * weights j) * m)

/-- The values of the attribute `normalization`. -/
inductive RnsNormalization | no | front | ever
  deriving DecidableEq, Repr

/-- rnsga2.py 88-101: ideal and nadir point (`none` = the initial `inf`/`-inf`); `F` are the objectives of the population, `first` those of the first front. -/
def rnsBounds {m : ℕ} {K : Type*} [Field K] [LinearOrder K] (mode : RnsNormalization) (old : Option ((Fin m → K) × (Fin m → K))) (F first : List (Fin m → K)) : Option ((Fin m → K) × (Fin m → K)) :=
  let lo : List (Fin m → K) → Option (Fin m → K) := fun L => match L with | [] => none | f :: L => some (L.foldl (fun a f => fun j => min (a j) (f j)) f)
  let hi : List (Fin m → K) → Option (Fin m → K) := fun L => match L with | [] => none | f :: L => some (L.foldl (fun a f => fun j => max (a j) (f j)) f)
  match mode with
  | .no => some (fun _ => 0, fun _ => 1)
  | .front => if 1 < first.length then (lo first).bind fun a => (hi first).map fun b => (a, b) else old
  | .ever => match old with
    | none => (lo F).bind fun a => (hi F).map fun b => (a, b)
    | some (a, b) => (lo (a :: F)).bind fun a' => (hi (b :: F)).map fun b' => (a', b')

/-- rnsga2.py 103-104: the reference points after one generation. -/
def rnsRefPoints {ρ : Type*} (asRef : Bool) (refs extreme : List ρ) : List ρ := if asRef then refs ++ extreme else refs

/-- rnsga2.py 119: `np.argsort(np.argsort(...))` in one column is the place of position `i` in the ascending order. -/
def rnsPlace (order : List ℕ) (i : ℕ) : ℕ := order.idxOf i

/-- rnsga2.py 119-125: the best place over all reference points; `orders` has the order of the front for every reference point. -/
def rnsRanking (orders : List (List ℕ)) (i : ℕ) : ℕ :=
  match orders.map fun o => rnsPlace o i with
  | [] => 0
  | p :: ps => ps.foldl min p

/-- `np.round(len(front) / 2)`: half to even. -/
def rnsHalf (len : ℕ) : ℕ := if len % 4 = 3 then len / 2 + 1 else len / 2

/-- rnsga2.py 146-168: the `while` loop; `dist` is `dist_to_others` off its infinite diagonal. The result is the crowding of every position. -/
def rnsClear {K : Type*} [LinearOrder K] (dist : ℕ → ℕ → K) (eps : K) (ranking : ℕ → ℕ) (half : ℕ) : ℕ → List ℕ → (ℕ → Option ℕ) → (ℕ → Option ℕ)
  | 0, _, crowd => crowd
  | _, [], crowd => crowd
  | f + 1, idx :: rest, crowd =>
    let group := (idx :: rest).filter fun j => decide (j ≠ idx) && decide (dist idx j < eps)
    let crowd1 := fun j => if j = idx then some (ranking j) else crowd j
    let crowd2 := fun j => if j ∈ group then some (ranking j + half) else crowd1 j
    rnsClear dist eps ranking half f ((idx :: rest).filter fun j => !(decide (j = idx) || decide (j ∈ group))) crowd2

/-- rnsga2.py 133-171: the positions of the splitting front that survive. -/
def rnsSelect {K : Type*} [LinearOrder K] (argsort : (ℕ → ℕ) → List ℕ → List ℕ) (dist : ℕ → ℕ → K) (eps : K) (orders : List (List ℕ)) (len remaining : ℕ) : List ℕ :=
  let ranking := rnsRanking orders
  let crowd := rnsClear dist eps ranking (rnsHalf len) len (argsort ranking (List.range len)) (fun _ => none)
  (argsort (fun i => (crowd i).getD 0) (List.range len)).take remaining

/-- `_do` (rnsga2.py 111-182): the loop over the fronts; `select front remaining` are the positions of a front that does not fit. -/
def rnsSurvivors {ι : Type*} (select : List ι → ℕ → List ℕ) (n : ℕ) (fronts : List (List ι)) : List ι :=
  fronts.foldl (fun surv front => if front.length ≤ n - surv.length then surv ++ front else surv ++ (select front (n - surv.length)).filterMap fun p => front[p]?) []

end Model
