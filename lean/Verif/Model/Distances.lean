import Verif.Model.Sorting
import Mathlib.Analysis.Real.Sqrt
import Mathlib.Algebra.BigOperators.Fin

/-!
# Model: distances to directions, niches, compiled stochastic ranking and the function loader
(`pymoo/functions/standard/*.py`, `pymoo/functions/compiled/*.pyx`, `pymoo/functions/__init__.py`, `algorithms/moo/nsga3.py`)

Reals instead of doubles. A division by zero (a direction without length) gives NaN in the code and zero here; the theorems assume directions with
some entry that is not zero.
-/

namespace Model
open Finset

variable {M : ℕ}

/-- `np.linalg.norm` of a row. -/
noncomputable def rowLen (v : Fin M → ℝ) : ℝ := √(∑ k, v k ^ (2 : ℕ))

/-- `standard/calc_perpendicular_distance.py:19-23`, one row: `u` a direction, `v` a point. -/
noncomputable def perpEntry (u v : Fin M → ℝ) : ℝ :=
  let norm := rowLen u
  let scalarProj := (∑ k, v k * u k) / norm
  rowLen fun k => scalarProj * u k / norm - v k

/-- `standard/calc_perpendicular_distance.py:6-26` `calc_perpendicular_distance(N, ref_dirs)`: `np.tile`, `np.repeat`, the rows together, `np.reshape`.
The result is the entry in row `i` and column `j`. -/
noncomputable def calcPerp (N dirs : List (Fin M → ℝ)) (i j : ℕ) : Option ℝ :=
  let u := (List.replicate N.length dirs).flatten
  let v := N.flatMap fun p => List.replicate dirs.length p
  let val := List.zipWith perpEntry u v
  if i < N.length ∧ j < dirs.length then val[i * dirs.length + j]? else none

/-- `compiled/calc_perpendicular_distance.pyx:19-27` `c_norm`. -/
noncomputable def cNorm (v : Fin M → ℝ) : ℝ := √((List.finRange M).foldl (fun val k => val + v k ^ (2 : ℕ)) 0)

/-- `calc_perpendicular_distance.pyx:44-60`: the body of the loops for the direction `L` and the point `P`. -/
noncomputable def cPerpEntry (L P : Fin M → ℝ) : ℝ :=
  let norm := cNorm L
  let N := fun k => L k / norm
  let dot := (List.finRange M).foldl (fun dot k => dot + L k * P k) 0
  let normScalarProj := dot / norm
  √((List.finRange M).foldl (fun acc k => acc + (normScalarProj * N k - P k) ^ (2 : ℕ)) 0)

/-- `calc_perpendicular_distance.pyx:30-64` `c_calc_perpendicular_distance`: a matrix of zeros, filled column by column. -/
noncomputable def cCalcPerp (P L : List (Fin M → ℝ)) : ℕ → ℕ → ℝ :=
  (L.zipIdx).foldl (fun m (l, i) => (P.zipIdx).foldl (fun m (p, j) => fun a b => if a = j ∧ b = i then cPerpEntry l p else m a b) m) fun _ _ => 0

/-- `standard/decomposition.py:6-25` `calc_distance_to_weights`, one row. -/
noncomputable def weightDists (utopian : Option (Fin M → ℝ)) (F w : Fin M → ℝ) : ℝ × ℝ :=
  let norm := rowLen w
  let F := match utopian with
    | none => F
    | some u => fun k => F k - u k
  let d1 := (∑ k, F k * w k) / norm
  (d1, rowLen fun k => F k - d1 * w k / norm)

/-- `compiled/decomposition.pyx:21-35, 130-163` `calc_distance_to_weights` with `c_d1` and `c_d2`, one row. -/
noncomputable def cWeightDists (utopian : Option (Fin M → ℝ)) (F w : Fin M → ℝ) : ℝ × ℝ :=
  let u := utopian.getD fun _ => 0
  let norm := rowLen w
  let F := fun k => F k - u k
  let d1 := ((List.finRange M).foldl (fun val k => val + F k * w k) 0) / norm
  (d1, √((List.finRange M).foldl (fun val k => val + (F k - d1 * w k / norm) ^ (2 : ℕ)) 0))

/-- `compiled/decomposition.pyx:99-127` `c_pbi`, one row. -/
noncomputable def cPbi (ideal : Fin M → ℝ) (theta eps : ℝ) (F w : Fin M → ℝ) : ℝ :=
  let norm := cNorm w
  let d1 := ((List.finRange M).foldl (fun val k => val + (F k - ideal k + eps) * w k) 0) / norm
  let d2 := √((List.finRange M).foldl (fun val k => val + (F k - ideal k + eps - d1 * w k / norm) ^ (2 : ℕ)) 0)
  d1 + theta * d2

/-- `nsga3.py:264-271`: the normalised point. -/
noncomputable def nicheNorm (ideal nadir : Fin M → ℝ) (eps : ℝ) (F : Fin M → ℝ) : Fin M → ℝ := fun k =>
  let utopian := ideal k - eps
  let denom := nadir k - utopian
  (F k - utopian) / (if denom = 0 then 1e-12 else denom)

open Classical in
/-- `np.argmin` of `0 … r - 1`: the first index with the least value. -/
noncomputable def firstMin (D : ℕ → ℝ) (r : ℕ) : ℕ := ((List.range r).find? fun j => decide (∀ k < r, D j ≤ D k)).getD 0

/-- `nsga3.py:264-277` `associate_to_niches`: the niche and the distance of individual `i` and its row of the matrix. -/
noncomputable def associateToNiches (F niches : List (Fin M → ℝ)) (ideal nadir : Fin M → ℝ) (eps : ℝ) (i : ℕ) : ℕ × ℝ × (ℕ → ℝ) :=
  let N := F.map (nicheNorm ideal nadir eps)
  let row := fun j => (calcPerp N niches i j).getD 0
  let k := firstMin row niches.length
  (k, row k, row)

/-! ### Stochastic ranking -/

section Ranking
variable {ι α : Type*} [LinearOrder α] {β : Type*} [LinearOrder β] [Zero β] {κ : Type*} [LinearOrder κ]

/-- `compiled/stochastic_ranking.pyx:47-51` `c_swap(x, a, b)`. -/
def cSwap [Inhabited ι] (x : List ι) (a b : ℕ) : List ι := (x.set a (x.getD b default)).set b (x.getD a default)

/-- `stochastic_ranking.pyx:25-41`: one pass, in place, with the random numbers `uu`. -/
def cSrPass [Inhabited ι] (f : ι → α) (phi : ι → β) (pr : κ) (uu : ℕ → κ) (lam : ℕ) (I : List ι) : List ι × Bool :=
  (List.range (lam - 1)).foldl (fun (I, swapped) j =>
    let a := I.getD j default
    let b := I.getD (j + 1) default
    if uu j < pr ∨ (phi a = 0 ∧ phi b = 0) then
      if f a > f b then (cSwap I j (j + 1), true) else (I, swapped)
    else if phi a > phi b then (cSwap I j (j + 1), true) else (I, swapped)) (I, false)

/-- `stochastic_ranking.pyx:17-44`: at most `rounds` passes; the `i`-th draws `lam` numbers of the stream `u`. -/
def cSrLoop [Inhabited ι] (f : ι → α) (phi : ι → β) (pr : κ) (u : ℕ → κ) (lam : ℕ) : ℕ → ℕ → List ι → List ι
  | 0, _, I => I
  | rounds + 1, i, I =>
    let r := cSrPass f phi pr (fun j => u (i * lam + j)) lam I
    if r.2 then cSrLoop f phi pr u lam rounds (i + 1) r.1 else r.1

/-- `stochastic_ranking.pyx:9-44` `stochastic_ranking(f, phi, pr, I)` compiled; `u` is the stream of numbers of `random_state`. -/
def cStochasticRanking [Inhabited ι] (f : ι → α) (phi : ι → β) (pr : κ) (u : ℕ → κ) (I : List ι) : List ι := cSrLoop f phi pr u I.length I.length 0 I

/-- `standard/stochastic_ranking.py:19-56` with the stream `u`: pass `i` draws one number per comparison, `I.length - 1` in all. -/
def pyStochasticRanking (f : ι → α) (phi : ι → β) (pr : κ) (u : ℕ → κ) (I : List ι) : List ι :=
  stochasticRanking f phi (fun i j => decide (u (i * (I.length - 1) + j) < pr)) I

end Ranking

/-! ### The function loader -/

/-- What `load_function` gives: a Python function, an attribute of a compiled module, or an exception. -/
inductive Loaded
  | python (name : String)
  | compiled (module name : String)
  | notFound
  | noMode
  | attributeError
  | importError
  deriving DecidableEq, Repr

def ndsModule : String := "pymoo.functions.compiled.non_dominated_sorting"

/-- `functions/__init__.py:26-71` `get_functions()`: the compiled module of each function (every function has a Python version). -/
def registry : List (String × String) :=
  [("fast_non_dominated_sort", ndsModule), ("find_non_dominated", ndsModule), ("efficient_non_dominated_sort", ndsModule), ("fast_best_order_sort", ndsModule),
   ("tree_based_non_dominated_sort", ndsModule), ("dominance_degree_non_dominated_sort", ndsModule),
   ("calc_distance_to_weights", "pymoo.functions.compiled.decomposition"),
   ("calc_perpendicular_distance", "pymoo.functions.compiled.calc_perpendicular_distance"),
   ("stochastic_ranking", "pymoo.functions.compiled.stochastic_ranking"), ("calc_mnn", "pymoo.functions.compiled.mnn"),
   ("calc_2nn", "pymoo.functions.compiled.mnn"), ("calc_pcd", "pymoo.functions.compiled.pruning_cd")]

/-- The `def` functions of the compiled modules (`compiled/*.pyx`; `cdef` functions are not attributes). -/
def compiledDefs : List (String × List String) :=
  [(ndsModule, ["fast_non_dominated_sort", "find_non_dominated", "best_order_sort", "get_relation", "fast_best_order_sort", "efficient_non_dominated_sort",
      "dominance_degree_non_dominated_sort"]),
   ("pymoo.functions.compiled.decomposition", ["calc_perpendicular_distance", "pbi", "calc_distance_to_weights"]),
   ("pymoo.functions.compiled.calc_perpendicular_distance", ["calc_perpendicular_distance"]),
   ("pymoo.functions.compiled.stochastic_ranking", ["stochastic_ranking", "c_stochastic_ranking"]),
   ("pymoo.functions.compiled.mnn", ["calc_mnn", "calc_2nn"]), ("pymoo.functions.compiled.pruning_cd", ["calc_pcd"])]

/-- The Python versions that only raise `NotImplementedError` (`standard/non_dominated_sorting.py:565-571`). -/
def pythonStubs : List String := ["fast_best_order_sort"]

/-- `functions/__init__.py:103-126` `FunctionLoader.load(func_name, mode)`; `self.is_compiled` and `self.mode` are the first two arguments. Asking for the
compiled module where none was built is an `ImportError`. -/
def loaderLoad (isCompiled : Bool) (selfMode : String) (name : String) (mode : Option String) : Loaded :=
  let mode := mode.getD selfMode
  let mode := if mode = "auto" then (if isCompiled then "cython" else "python") else mode
  match registry.lookup name with
  | none => .notFound
  | some module =>
    if mode = "python" then .python name
    else if mode = "cython" then
      if isCompiled then
        if name ∈ (compiledDefs.lookup module).getD [] then .compiled module name else .attributeError
      else .importError
    else .noMode

/-- `functions/__init__.py:129-130` `load_function(func_name, _type="auto")`. -/
def loadFunction (isCompiled : Bool) (selfMode : String) (name : String) (type : String := "auto") : Loaded := loaderLoad isCompiled selfMode name (some type)

end Model
