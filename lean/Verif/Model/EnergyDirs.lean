import Mathlib.Analysis.SpecialFunctions.Log.Basic
import Mathlib.Analysis.SpecialFunctions.Sqrt
import Mathlib.Algebra.BigOperators.Field
import Mathlib.Data.Fintype.Basic
import Mathlib.Data.Fin.VecNotation
import Mathlib.Data.Finset.Max

/-!
# Model: reference directions by k-means and by minimising the Riesz energy

`pymoo/util/ref_dirs/{misc,optimizer,energy,reduction,construction,genetic_algorithm,energy_layer}.py`, over the reals. A row of an array is a function
`Fin d → ℝ`; the selection of some columns (`X[j][subspace]`) is a set of columns. `none` is an exception or an array with NaN (which of the two is said
where it occurs).
-/

namespace Model
open Finset

section Projection
variable {d : ℕ}

/-- `ref_dirs/misc.py:7-32` `project_onto` of one row, restricted to the columns `S`. -/
noncomputable def prjOnto (S : Finset (Fin d)) (y p n : Fin d → ℝ) (i : Fin d) : ℝ :=
  let norm := √(∑ j ∈ S, n j ^ (2 : ℕ))
  y i - n i / norm * ∑ j ∈ S, (y j - p j) * (n j / norm)

/-- `ref_dirs/misc.py:35-45` `project_onto_sum_equals_one_plane`; `np.eye(0)[0]` raises an `IndexError` if there is no column. -/
noncomputable def prjOne (S : Finset (Fin d)) (y : Fin d → ℝ) : Option (Fin d → ℝ) :=
  if h : S.Nonempty then some (prjOnto S y (Pi.single (S.min' h) 1) fun _ => 1) else none

/-- `ref_dirs/misc.py:48-58` `project_onto_sum_equals_zero_plane`. -/
noncomputable def prjZero (y : Fin d → ℝ) : Fin d → ℝ := prjOnto univ y (fun _ => 0) fun _ => 1

open Classical in
/-- The loop of `project_onto_unit_simplex_recursive` for one row (`ref_dirs/misc.py:110-120`). The first argument bounds the iterations: `none` = it is
exhausted, `some none` = an exception. -/
noncomputable def spxLoop : ℕ → (Fin d → ℝ) → Option (Option (Fin d → ℝ))
  | 0, _ => none
  | k + 1, x =>
    let c : Fin d → ℝ := fun i => if x i < 0 then 0 else x i
    let S := univ.filter fun i => 0 < c i
    match prjOne S c with
    | none => some none
    | some q =>
      let x' : Fin d → ℝ := fun i => if i ∈ S then q i else c i
      if ∀ i, 0 ≤ x' i then some (some x') else spxLoop k x'

open Classical in
/-- `ref_dirs/misc.py:96-122` `project_onto_unit_simplex_recursive` of one row (`none` = an exception; `C118_terminates` shows that the bound on the
iterations is never reached). -/
noncomputable def spxProject (x : Fin d → ℝ) : Option (Fin d → ℝ) :=
  if ∃ i, x i < 0 then (spxLoop (d + 1) x).join else some x

end Projection

section Optimizer
variable {p d : ℕ}

/-- `ref_dirs/optimizer.py:96-105` the state of `Adam` (the moments are arrays after the first step; zero before). -/
structure AdamSt (p d : ℕ) where
  m : Fin p → Fin d → ℝ
  v : Fin p → Fin d → ℝ
  t : ℕ
  alpha : ℝ

/-- `Adam(alpha=...)` (`optimizer.py:79-105`), default decay rates. -/
noncomputable def adamNew (alpha : ℝ) : AdamSt p d := { m := fun _ _ => 0, v := fun _ _ => 0, t := 0, alpha := alpha }

/-- `ref_dirs/optimizer.py:107-131` `Adam._next`. -/
noncomputable def adamNext (st : AdamSt p d) (X dX : Fin p → Fin d → ℝ) : AdamSt p d × (Fin p → Fin d → ℝ) :=
  let t := st.t + 1
  let m : Fin p → Fin d → ℝ := fun i k => 0.9 * st.m i k + (1 - 0.9) * dX i k
  let v : Fin p → Fin d → ℝ := fun i k => 0.999 * st.v i k + (1 - 0.999) * (dX i k * dX i k)
  ({ m := m, v := v, t := t, alpha := st.alpha },
    fun i k => X i k - st.alpha * (m i k / (1 - 0.9 ^ t)) / (√(v i k / (1 - 0.999 ^ t)) + 1e-8))

end Optimizer

section Energy
variable {p d : ℕ}

/-- The euclidean distance of two rows (`energy.py:293-295`). -/
noncomputable def rowDist (X : Fin p → Fin d → ℝ) (i j : Fin p) : ℝ := √(∑ k, (X i k - X j k) ^ (2 : ℕ))

/-- The distance, not smaller than `eps` (`energy.py:305-309`). -/
noncomputable def enDist (eps : ℝ) (X : Fin p → Fin d → ℝ) (i j : Fin p) : ℝ := if rowDist X i j < eps then eps else rowDist X i j

/-- `energy.py:305-309`: the sum over all pairs. -/
noncomputable def enSum (eps : ℝ) (e : ℕ) (X : Fin p → Fin d → ℝ) : ℝ :=
  ∑ i, ∑ j, if i < j then 1 / enDist eps X i j ^ e else 0

/-- `energy.py:310`: the logarithm of the mean energy. -/
noncomputable def enLog (eps : ℝ) (e : ℕ) (X : Fin p → Fin d → ℝ) : ℝ :=
  -Real.log (p * (p - 1) / 2 : ℕ) + Real.log (enSum eps e X)

/-- `energy.py:312-315`: the gradient; the diagonal is infinite, so a row does not act on itself. -/
noncomputable def enGrad (eps : ℝ) (e : ℕ) (X : Fin p → Fin d → ℝ) (i : Fin p) (k : Fin d) : ℝ :=
  (∑ j, if i = j then 0 else (-(e : ℝ) * (X i k - X j k)) / enDist eps X i j ^ (e + 2)) / enSum eps e X

/-- The settings of `RieszEnergyReferenceDirectionFactory` (`energy.py:20-59`); `eps` is `10 ** (-320 / (d + 2))` (line 301), `e` the exponent `d`. -/
structure EnCfg where
  e : ℕ
  eps : ℝ
  normGrad : Bool
  restarts : Bool
  maxNot : ℕ
  precision : ℝ

/-- The projected (and normalised) gradient of `_step` (`energy.py:75-85`). -/
noncomputable def enDir (cfg : EnCfg) (freeze : Fin p → Bool) (X : Fin p → Fin d → ℝ) : Fin p → Fin d → ℝ :=
  let grad : Fin p → Fin d → ℝ := fun i k => if freeze i then 0 else enGrad cfg.eps cfg.e X i k
  let proj : Fin p → Fin d → ℝ := fun i => prjZero (grad i)
  let norm : Fin p → ℝ := fun i => √(∑ k, proj i k ^ (2 : ℕ))
  if cfg.normGrad then fun i k => proj i k / max ((insert 0 (univ.image norm)).max' (insert_nonempty _ _)) 1e-24 else proj

open Classical in
/-- All rows, or `none` if one of them is missing. -/
noncomputable def allRows {α : Type*} (f : Fin p → Option α) : Option (Fin p → α) :=
  if h : ∀ i, (f i).isSome then some fun i => (f i).get (h i) else none

open Classical in
/-- `X /= X.sum(axis=1)` for one row; a row with sum zero becomes NaN (`none`). -/
noncomputable def rowNorm (y : Fin d → ℝ) : Option (Fin d → ℝ) := if ∑ i, y i = 0 then none else some fun i => y i / ∑ j, y j

/-- `energy.py:61-96` `_step` without `verify_gradient` (a check that prints); `none` = an exception or NaN. -/
noncomputable def enStep (cfg : EnCfg) (freeze : Fin p → Bool) (st : AdamSt p d) (X : Fin p → Fin d → ℝ) : Option (AdamSt p d × (Fin p → Fin d → ℝ)) :=
  let r := adamNext st X (enDir cfg freeze X)
  (allRows fun i => (if freeze i then some (r.2 i) else spxProject (r.2 i)).bind rowNorm).map fun X' => (r.1, X')

/-- The variables of the loop of `_solve` (`energy.py:98-157`): `best` is `none` for `np.inf`. -/
structure EnSt (p d : ℕ) where
  X : Fin p → Fin d → ℝ
  ret : Fin p → Fin d → ℝ
  best : Option ℝ
  nNot : ℕ
  adam : AdamSt p d

/-- `energy.py:136`: the mean movement of the first `nPts` rows. -/
noncomputable def enDelta (nPts : ℕ) (X Y : Fin p → Fin d → ℝ) : ℝ :=
  (∑ i, if i.val < nPts then (∑ k, √((Y i k - X i k) ^ (2 : ℕ))) / d else 0) / nPts

open Classical in
/-- `energy.py:124-155`: the loop of `_solve` for at most the given number of iterations (`n_max_iter`), without callback. The energy of fewer than two
rows is NaN, which ends the loop. -/
noncomputable def enLoop (cfg : EnCfg) (nPts : ℕ) (freeze : Fin p → Bool) : ℕ → EnSt p d → Option (Fin p → Fin d → ℝ)
  | 0, s => some s.ret
  | k + 1, s =>
    (enStep cfg freeze s.adam s.X).bind fun r =>
      let obj := enLog cfg.eps cfg.e s.X
      let better := 2 ≤ p ∧ (s.best.all fun b => decide (obj < b)) = true
      let ret := if better then r.2 else s.ret
      let best := if better then some obj else s.best
      let nNot := if better then 0 else s.nNot + 1
      if enDelta nPts s.X r.2 < cfg.precision ∨ p < 2 then some ret
      else if cfg.restarts = true ∧ nNot > cfg.maxNot then
        enLoop cfg nPts freeze k { X := ret, ret := ret, best := best, nNot := 0, adam := adamNew (r.1.alpha / 2) }
      else enLoop cfg nPts freeze k { X := r.2, ret := ret, best := best, nNot := nNot, adam := r.1 }

open Classical in
/-- `energy.py:98-157` `_solve` of the rows `X`, of which the first `nPts` are the own ones and the others the additional `F` (frozen); `ret[:n_points]`
is the restriction of the result to the own rows. -/
noncomputable def enSolve (cfg : EnCfg) (nMaxIter nPts : ℕ) (freezeEdges : Bool) (X : Fin p → Fin d → ℝ) : Option (Fin p → Fin d → ℝ) :=
  let freeze : Fin p → Bool := fun i => if i.val < nPts then freezeEdges && decide (∃ k, X i k < 1e-16) else true
  if ∀ i, freeze i = true then some X
  else enLoop cfg nPts freeze nMaxIter { X := X, ret := X, best := none, nNot := 0, adam := adamNew 0.005 }

end Energy

section KMeans
variable {N k d : ℕ}

open Classical in
/-- One iteration of `kmeans` (`reduction.py:36-53`): `near` is `cdist(X, centroids).argmin(axis=1)`. `none` = a centroid without points becomes NaN. -/
noncomputable def kmStep (near : (Fin k → Fin d → ℝ) → Fin N → Fin k) (X : Fin N → Fin d → ℝ) (nIgnore : ℕ) (C : Fin k → Fin d → ℝ) :
    Option (Fin k → Fin d → ℝ) :=
  let members : Fin k → Finset (Fin N) := fun j => univ.filter fun i => near C i = j
  let mean : Fin k → Option (Fin d → ℝ) := fun j =>
    if j.val < nIgnore then some (C j)
    else if members j = ∅ then none
    else some fun c => (∑ i ∈ members j, X i c) / (members j).card
  allRows fun j => (mean j).bind fun x => (spxProject x).bind rowNorm

open Classical in
/-- `reduction.py:17-57` `kmeans`. -/
noncomputable def kmeansLoop (near : (Fin k → Fin d → ℝ) → Fin N → Fin k) (X : Fin N → Fin d → ℝ) (nIgnore : ℕ) (tol : ℝ) :
    ℕ → (Fin k → Fin d → ℝ) → Option (Fin k → Fin d → ℝ)
  | 0, C => some C
  | it + 1, C =>
    (kmStep near X nIgnore C).bind fun C' =>
      if (∑ j, ∑ c, |C' j c - C j c|) / k < tol then some C' else kmeansLoop near X nIgnore tol it C'

/-- `reduction.py:104-139` `_do` from the line that selects the points on: `X` are the edges and the sampled points, `sel` the selected indices. -/
noncomputable def redDo (near : (Fin k → Fin d → ℝ) → Fin N → Fin k) (X : Fin N → Fin d → ℝ) (nEdges : ℕ) (sel : Fin k → Fin N) (useKmeans : Bool)
    (maxIter : ℕ) (tol : ℝ) : Option (Fin k → Fin d → ℝ) :=
  if useKmeans then kmeansLoop near X nEdges tol maxIter fun j => X (sel j) else some fun j => X (sel j)

end KMeans

section Construction
variable {d : ℕ}

/-- `construction.py:21-30`: the gradient of the negated distance to the closest of the rows `X` (`near` is `D.argmin()`). -/
noncomputable def conGrad {q : ℕ} (near : (Fin d → ℝ) → Fin q) (X : Fin q → Fin d → ℝ) (x : Fin d → ℝ) : Fin d → ℝ :=
  fun c => -(x c - X (near x) c) / √(∑ k, (x k - X (near x) k) ^ (2 : ℕ))

open Classical in
/-- `construction.py:71-96`: the gradient descent for the next point; `Adam(precision=1e-4)`. -/
noncomputable def conDescent {q : ℕ} (near : (Fin d → ℝ) → Fin q) (X : Fin q → Fin d → ℝ) : ℕ → AdamSt 1 d → (Fin d → ℝ) → Option (Fin d → ℝ)
  | 0, _, x => some x
  | it + 1, st, x =>
    let r := adamNext st (fun _ => x) fun _ => prjZero (conGrad near X x)
    ((spxProject (r.2 0)).bind rowNorm).bind fun x' =>
      if (∑ c, |r.2 0 c - x c|) / d < 1e-4 then some x' else conDescent near X it r.1 x'

/-- `construction.py:51-96` `_do` and `next`: `cand` is the candidate of `next` (the sampled point farthest from the rows so far), `near` the row that is
closest. The first argument bounds the iterations of the while loop. -/
noncomputable def conLoop (cand : List (Fin d → ℝ) → Fin d → ℝ) (near : (X : List (Fin d → ℝ)) → (Fin d → ℝ) → Fin X.length) (gd : Bool) (nPoints : ℕ) :
    ℕ → List (Fin d → ℝ) → Option (List (Fin d → ℝ))
  | 0, X => if X.length < nPoints then none else some X
  | fuel + 1, X =>
    if X.length < nPoints then
      (if gd then conDescent (near X) X.get 1000 (adamNew 0.01) (cand X) else some (cand X)).bind fun x => conLoop cand near gd nPoints fuel (X ++ [x])
    else some X

/-- `construction.py:51-63`: starts with the unit vectors. -/
noncomputable def conDo (cand : List (Fin d → ℝ) → Fin d → ℝ) (near : (X : List (Fin d → ℝ)) → (Fin d → ℝ) → Fin X.length) (gd : Bool) (nPoints : ℕ) :
    Option (List (Fin d → ℝ)) :=
  conLoop cand near gd nPoints nPoints ((List.finRange d).map fun i => Pi.single i 1)

end Construction

section Others
variable {d : ℕ}

/-- `reference_direction.py:392-402` `scale_reference_directions`, one row. -/
noncomputable def scaleRow (s : ℝ) (x : Fin d → ℝ) : Fin d → ℝ := fun i => x i * s + (1 - s) / d

/-- `genetic_algorithm.py:46-49` `get_points`, one row. -/
noncomputable def gaPoint (x : Fin d → ℝ) : Fin d → ℝ := fun i => x i ^ (2 : ℕ) / ∑ j, x j ^ (2 : ℕ)

/-- `energy_layer.py:70-87`: the rows of one layer with `q` partitions. -/
noncomputable def layerRows (q : ℕ) : List (Fin d → ℝ) :=
  if q > 1 then
    ((List.finRange d).flatMap fun i => ((List.finRange d).filter fun j => decide (i < j)).flatMap fun j =>
      (List.range (q - 1)).map fun (a : ℕ) (c : Fin d) =>
        if c = j then 1 - ((a : ℝ) + 1) / q else if c = i then ((a : ℝ) + 1) / q else 0) ++ (List.finRange d).map fun i => Pi.single i 1
  else if q = 1 then (List.finRange d).map fun i => Pi.single i 1
  else [fun _ => 1 / (d : ℝ)]

/-- `energy_layer.py:104-109` `get_points`: every layer is scaled by its factor. -/
noncomputable def layerPoints (layers : List (List (Fin d → ℝ))) (scalings : List ℝ) : List (Fin d → ℝ) :=
  (layers.zip scalings).flatMap fun e => e.1.map (scaleRow e.2)

/-- `energy_layer.py:37-38`, the last step of `_step`: `normalize(scalings, xl=0, xu=scalings.max())`. -/
noncomputable def layerNorm (scalings : List ℝ) (mx : ℝ) : List ℝ := scalings.map fun s => s / mx

/-- `energy.py:208-211, 241-243`: a row is translated to the centre and enlarged, and back. -/
noncomputable def refIn (scale : ℝ) (ref x : Fin d → ℝ) : Fin d → ℝ := scaleRow (1 / scale) fun i => x i + (1 / d - ref i)

/-- `energy.py:241-243`. -/
noncomputable def refOut (scale : ℝ) (ref x : Fin d → ℝ) : Fin d → ℝ := fun i => scaleRow scale x i - (1 / d - ref i)

end Others
end Model
