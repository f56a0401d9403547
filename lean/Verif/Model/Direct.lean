import Mathlib.Algebra.Order.Field.Basic
import Mathlib.Algebra.BigOperators.Fin
import Mathlib.Data.List.FinRange
import Mathlib.Logic.Function.Basic

/-!
# Model of `pymoo/algorithms/soo/nonconvex/direct.py` (DIRECT)

An individual is its point and its box: the attributes `X`, `xl` and `xu`. Numbers are elements of an ordered field.
-/

namespace Model

/-- An individual of DIRECT (`direct.py:53-56`). -/
structure DBox (n : ℕ) (K : Type*) where
  x : Fin n → K
  lo : Fin n → K
  hi : Fin n → K

section
variable {n : ℕ} {K : Type*} [Field K] [LinearOrder K]

/-- `direct.py:48-58` `_setup`: the centre of the search space (`denormalize(0.5 * ones, xl, xu)`; `normalization.py:174`, for equal
bounds `0.5 + xl`) and the whole space as its box. -/
def dirInit (xl xu : Fin n → K) : DBox n K := ⟨fun k => if xl k = xu k then 1 / 2 + xl k else xl k + 1 / 2 * (xu k - xl k), xl, xu⟩

/-- `normalization.py:78-83` one coordinate: with equal bounds only the lower bound is subtracted. -/
def dirNorm (l u x : K) : K := if l = u then x - l else (x - l) / (u - l)

/-- `direct.py:14-17` `norm_bounds` and `nxu - nxl`: the length of the box in the units of the search space. -/
def dirWidth (xl xu : Fin n → K) (b : DBox n K) (k : Fin n) : K := dirNorm (xl k) (xu k) (b.hi k) - dirNorm (xl k) (xu k) (b.lo k)

/-- `direct.py:128-129` `k = np.argmax(nxu - nxl)`: the first longest side. -/
def dirAxis [NeZero n] (xl xu : Fin n → K) (b : DBox n K) : Fin n :=
  (List.finRange n).foldl (fun best k => if dirWidth xl xu b best < dirWidth xl xu b k then k else best) 0

/-- `direct.py:20-27` `update_bounds(ind, xl, xu, k, delta)` for the individual with point `x`. -/
def dirUpdate (x lo hi : Fin n → K) (k : Fin n) (delta : K) : DBox n K :=
  ⟨x, Function.update lo k (x k - delta), Function.update hi k (x k + delta)⟩

/-- `direct.py:131-148`: the individual `current` after the division, and the individuals `left` and `right`. -/
def dirSplit (b : DBox n K) (k : Fin n) : DBox n K × DBox n K × DBox n K :=
  let delta := (b.hi k - b.lo k) / 6
  let leftX := Function.update b.x k (b.lo k + delta)
  let rightX := Function.update b.x k (b.hi k - delta)
  (dirUpdate b.x b.lo b.hi k delta, dirUpdate leftX b.lo b.hi k delta, dirUpdate rightX b.lo b.hi k delta)

/-- `direct.py:125-154`: one turn of the loop of `_infill` for the individual with index `i` (its box is changed in place), and its
effect after `_advance` (`direct.py:158-160`): the new individuals are appended to the population. -/
def dirDivide [NeZero n] (xl xu : Fin n → K) (pop : List (DBox n K)) (i : ℕ) : List (DBox n K) :=
  match pop[i]? with
  | none => pop
  | some b =>
    let s := dirSplit b (dirAxis xl xu b)
    pop.set i s.1 ++ [s.2.1, s.2.2]

/-- `direct.py:117-156` `_infill` and `_advance` for the individuals `sel` returned by `_potential_optimal`. -/
def dirStep [NeZero n] (xl xu : Fin n → K) (pop : List (DBox n K)) (sel : List ℕ) : List (DBox n K) :=
  sel.foldl (dirDivide xl xu) pop

/-- A run without truncation of the archive: `choose` gives the individuals selected in each iteration, which may depend on all
objective values. -/
def dirRun [NeZero n] (xl xu : Fin n → K) (choose : ℕ → List (DBox n K) → List ℕ) : ℕ → List (DBox n K)
  | 0 => [dirInit xl xu]
  | t + 1 => dirStep xl xu (dirRun xl xu choose t) (choose t (dirRun xl xu choose t))

/-- `direct.py:82-104`: the truncation of the archive to the individuals `I` (`pop[I]`), and the individuals dropped. -/
def dirTruncate (I : List ℕ) (pop : List (DBox n K)) : List (DBox n K) × List (DBox n K) :=
  (I.filterMap fun i => pop[i]?, ((List.range pop.length).filter fun i => decide (i ∉ I)).filterMap fun i => pop[i]?)

/-- A run with truncation: the population and all individuals dropped so far. `trunc` gives the individuals kept in each iteration
(`none`: no truncation). -/
def dirRunT [NeZero n] (xl xu : Fin n → K) (trunc : ℕ → List (DBox n K) → Option (List ℕ)) (choose : ℕ → List (DBox n K) → List ℕ) :
    ℕ → List (DBox n K) × List (DBox n K)
  | 0 => ([dirInit xl xu], [])
  | t + 1 =>
    let s := dirRunT xl xu trunc choose t
    let r := ((trunc t s.1).map fun I => dirTruncate I s.1).getD (s.1, [])
    (dirStep xl xu r.1 (choose t r.1), s.2 ++ r.2)

/-- `direct.py:74-77` the size of a box: the mean of the half lengths. -/
def dirSize (xl xu : Fin n → K) (b : DBox n K) : K := (∑ k, dirWidth xl xu b k / 2) / n

/-- `direct.py:69-72`: `normalize(F) + penalty * CV` over the population; `normalize` with the bounds of the column, equal bounds as in
`dirNorm`. -/
def dirValue (penalty : K) (fs : List (K × K)) (e : K × K) : K :=
  let F := fs.map Prod.fst
  dirNorm (F.foldl min (F.headD 0)) (F.foldl max (F.headD 0)) e.1 + penalty * e.2

/-- `direct.py:79-80`: the objectives minimised by the selection: `(-val, F)`. -/
def dirObj (xl xu : Fin n → K) (penalty : K) (eval : (Fin n → K) → K × K) (pop : List (DBox n K)) (b : DBox n K) : K × K :=
  (- dirSize xl xu b, dirValue penalty (pop.map fun c => eval c.x) (eval b.x))

/-- Pareto dominance of two objectives (the dominator of C01). -/
def dirDom (a b : K × K) : Bool := decide (a.1 ≤ b.1 ∧ a.2 ≤ b.2 ∧ (a.1 < b.1 ∨ a.2 < b.2))

/-- `direct.py:63-115` `_potential_optimal`, below the limits `n_max_archive` and `n_max_candidates`: the indices of the
non-dominated individuals (`NonDominatedSorting` with `only_non_dominated_front`: C10). -/
def dirPotential (xl xu : Fin n → K) (penalty : K) (eval : (Fin n → K) → K × K) (pop : List (DBox n K)) : List ℕ :=
  if pop.length = 1 then [0]
  else
    let obj := pop.map (dirObj xl xu penalty eval pop)
    (List.range pop.length).filter fun i => (obj[i]?).elim false fun a => !(obj.any fun c => dirDom c a)

end

end Model
