import Mathlib.Analysis.SpecialFunctions.Trigonometric.Basic
import Mathlib.Algebra.BigOperators.Fin
import Mathlib.Data.List.Sort
import Mathlib.Algebra.Order.Floor.Ring

/-!
# Model: where the plots draw solutions

`pymoo/core/plot.py`, `pymoo/visualization/{util,pcp,radviz,star_coordinate,radar,petal,heatmap,scatter}.py`. Numbers are reals (arrays of floats); matplotlib is left out: the result of a
model is what is handed to it. `none` = an exception (for `radviz`: NaN coordinates). A set of solutions with `n` objectives is a list of vectors; the flag says that it is an array of integers.
-/

namespace Model

abbrev PlotSet (n : ℕ) := List (Fin n → ℝ)

/-- What `add` keeps: sets of solutions, each with the information whether it is an array of integers. -/
abbrev PlotData (n : ℕ) := List (Bool × PlotSet n)

/-- All solutions that were added (`np.vstack`). -/
def stacked {n : ℕ} (data : PlotData n) : PlotSet n := (data.map (·.2)).flatten

/-- core/plot.py:110-115: the common number of objectives of everything that was added; `some none` = nothing was added. -/
def plotDim : List ℕ → Option (Option ℕ)
  | [] => some none
  | d :: l => if l.all (· == d) then some (some d) else none

/-- Lower and upper bounds of every axis. -/
abbrev AxisBounds (n : ℕ) := (Fin n → ℝ) × (Fin n → ℝ)

/-- The argument `bounds`: a pair of numbers or a pair of vectors. -/
inductive UserBounds (n : ℕ)
  | flat (lo up : ℝ)
  | full (b : AxisBounds n)

/-- visualization/util.py:119-124 `parse_bounds`. -/
def parseBounds {n : ℕ} : UserBounds n → AxisBounds n
  | .flat lo up => (fun _ => lo, fun _ => up)
  | .full b => b

/-- util/normalization.py:76-83 for one entry and given bounds: a bound that equals the other one is ignored (line 51). The result is stored in a copy of the array (line 76): in an array of integers
without its fractional part. -/
noncomputable def axisHeight (isInt : Bool) (lo up x : ℝ) : ℝ :=
  let h := if lo = up then x - lo else (x - lo) / (up - lo)
  if isInt then (if 0 ≤ h then ⌊h⌋ else ⌈h⌉) else h

/-- Smallest and largest entry of a column, starting from the first row (`min(axis=0)`, `max(axis=0)`). -/
noncomputable def colRange {n : ℕ} (r : Fin n → ℝ) (l : PlotSet n) : AxisBounds n :=
  (fun j => l.foldl (fun m x => min m (x j)) (r j), fun j => l.foldl (fun m x => max m (x j)) (r j))

open Classical in
/-- visualization/util.py:97-116 `normalize`, with the bounds that were used; util/normalization.py:69 raises if a lower bound is above the upper one. -/
noncomputable def plotNormalize {n : ℕ} (b : Option (AxisBounds n)) (reverse : Bool) (data : PlotData n) : Option (List (PlotSet n) × AxisBounds n) :=
  if data = [] then none else do
    let b ← match b, stacked data with
      | some b, _ => some b
      | none, [] => none
      | none, r :: l => some (colRange r l)
    if ∀ j, b.1 j ≤ b.2 j then
      some (data.map fun F => F.2.map fun x j => if reverse then 1 - axisHeight F.1 (b.1 j) (b.2 j) (x j) else axisHeight F.1 (b.1 j) (b.2 j) (x j), b)
    else none

/-- The parts of a parallel coordinate plot that matter here: `bounds`, `to_plot`. -/
structure PcpState (n : ℕ) where
  bounds : Option (UserBounds n)
  data : PlotData n

/-- All entries of a set of vectors, row by row. -/
def allEntries {n : ℕ} (l : PlotSet n) : List ℝ := l.flatMap fun x => List.ofFn x

/-- pcp.py:42-62 `PCP._do`: the heights of the polylines and the bounds written at the axes; the object keeps the bounds it computes (line 50). -/
noncomputable def pcpDo {n : ℕ} (eachAxis : Bool) (s : PcpState n) : Option ((List (PlotSet n) × AxisBounds n) × PcpState n) := do
  let b ← match eachAxis, s.bounds with
    | true, b => some b
    | false, some b => some (some b)
    | false, none =>
      match allEntries (stacked s.data) with
      | [] => none
      | v :: l => some (some (.flat (l.foldl min v) (l.foldl max v)))
  let r ← plotNormalize (b.map parseBounds) false s.data
  some (r, { s with bounds := b })

/-- visualization/util.py:15-17, 31-34 `get_circle_points`, `get_uniform_points_around_circle`: point `i` of `n`. -/
noncomputable def circlePoint (n : ℕ) (i : ℕ) : ℝ × ℝ := (Real.cos (2 * Real.pi * i / n), Real.sin (2 * Real.pi * i / n))

/-- radviz.py:62, for one solution. -/
noncomputable def radvizPoint {n : ℕ} (F : Fin n → ℝ) : Option (ℝ × ℝ) :=
  if ∑ i, F i = 0 then none else some ((∑ i, F i * (circlePoint n i).1) / ∑ i, F i, (∑ i, F i * (circlePoint n i).2) / ∑ i, F i)

/-- star_coordinate.py:70, for one solution (normalised before). -/
noncomputable def starPoint {n : ℕ} (F : Fin n → ℝ) : ℝ × ℝ := (∑ i, F i * (circlePoint n i).1, ∑ i, F i * (circlePoint n i).2)

/-- star_coordinate.py:66-71 `StarCoordinate._do`. -/
noncomputable def starDo {n : ℕ} (b : Option (UserBounds n)) (data : PlotData n) : Option (List (List (ℝ × ℝ))) := do
  let r ← plotNormalize (b.map parseBounds) false data
  some (r.1.map fun F => F.map starPoint)

/-- radar.py:99-104: distance from the centre of the inner and of the outer end of axis `i`; both lie in the direction of `circlePoint n i`. `top` is `bounds[1].max()`. -/
noncomputable def radarAxis {n : ℕ} (each : Bool) (b : AxisBounds n) (top : ℝ) (i : Fin n) : ℝ × ℝ :=
  if each then (0, 1) else (b.1 i, b.2 i / top)

/-- `bounds[1].max()`. -/
noncomputable def topBound {n : ℕ} (b : AxisBounds (n + 1)) : ℝ := (List.ofFn fun i : Fin n => b.2 i.succ).foldl max (b.2 0)

open Classical in
/-- radar.py:78-108 `Radar._do`: for every solution and axis the distance of its corner from the centre, in the direction of `circlePoint n i`. -/
noncomputable def radarDo {n : ℕ} (each reverse : Bool) (b : Option (UserBounds (n + 1))) (data : PlotData (n + 1)) : Option (List (PlotSet (n + 1))) := do
  let b ← b
  let p := parseBounds b
  if ∃ x ∈ stacked data, ∃ j, x j < p.1 j ∨ p.2 j < x j then none
  else
    let r ← plotNormalize (some p) reverse data
    some (r.1.map fun F => F.map fun x i => (radarAxis each p (topBound p) i).1 + x i * ((radarAxis each p (topBound p) i).2 - (radarAxis each p (topBound p) i).1))

/-- petal.py:60-65: the angles and the radius of the petals of one solution and the index of its colour; `colors` is the number of colours of the map. -/
noncomputable def petals {n : ℕ} (colors : ℕ) (F : Fin n → ℝ) : Option (List ((ℝ × ℝ) × ℝ)) :=
  if n ≤ colors then some (List.ofFn fun i : Fin n => ((2 * Real.pi * (i : ℕ) / n, 2 * Real.pi * ((i : ℕ) + 1) / n), F i)) else none

/-! ### Heatmap -/

/-- `order_by_objectives`: False or None, a list of objectives, one objective, anything else. Only valid numbers of objectives are covered. -/
inductive HeatOrder (n : ℕ) | off | list (L : List (Fin n)) | one (k : Fin n) | other

/-- heatmap.py:55-62: the objectives in the order of their priority; `none` = no sorting. -/
def heatKeys {n : ℕ} : HeatOrder n → Option (List (Fin n))
  | .off => none
  | .list L => if L.length = n then some L else some (List.finRange n)
  | .one k => some (k :: (List.finRange n).filter (· ≠ k))
  | .other => some (List.finRange n)

/-- Comparison of two rows by the objectives of a list, most important first. -/
def heatLE {n : ℕ} : List (Fin n) → (Fin n → ℝ) → (Fin n → ℝ) → Prop
  | [], _, _ => True
  | k :: L, a, b => a k < b k ∨ (a k = b k ∧ heatLE L a b)

open Classical in
/-- heatmap.py:64-67: `np.lexsort` of the columns, the most important one last, is a stable sort of the row numbers. -/
noncomputable def heatIndices {n : ℕ} (o : HeatOrder n) (F : PlotSet n) : List ℕ :=
  match heatKeys o with
  | none => List.range F.length
  | some L => (List.range F.length).insertionSort fun i j => heatLE L (F.getD i fun _ => 0) (F.getD j fun _ => 0)

/-- `solution_labels`: None, a boolean, or labels. -/
inductive HeatLabels (Lab : Type) | none | bool (b : Bool) | given (L : List Lab)

/-- heatmap.py:77-100: the labels at the rows and `solution_labels` afterwards; `num` is the label of a number. The result `some (none, _)` = no labels. `len(False)` raises. -/
def heatLabels {Lab : Type} (num : ℕ → Lab) (lab : HeatLabels Lab) (indices : List ℕ) : Option (Option (List Lab) × HeatLabels Lab) :=
  match lab with
  | .none => some (none, .none)
  | .bool true =>
    let L := (List.range indices.length).map fun i => num (i + 1)
    some (some (indices.filterMap (L[·]?)), .given (indices.filterMap (L[·]?)))
  | .bool false => none
  | .given L => if L.length = indices.length then some (some (indices.filterMap (L[·]?)), .given (indices.filterMap (L[·]?))) else none

/-- heatmap.py:41-100 `Heatmap._do`: the rows of the picture from top to bottom, their labels, and `solution_labels` afterwards. -/
noncomputable def heatDo {n : ℕ} {Lab : Type} (num : ℕ → Lab) (b : Option (UserBounds n)) (reverse : Bool) (o : HeatOrder n) (lab : HeatLabels Lab) (data : PlotData n) :
    Option ((PlotSet n × Option (List Lab)) × HeatLabels Lab) :=
  if data.length ≠ 1 then none else do
    let r ← plotNormalize (b.map parseBounds) reverse data
    let F := r.1.headD []
    let l ← heatLabels num lab (heatIndices o F)
    some (((heatIndices o F).filterMap (F[·]?), l.1), l.2)

/-! ### Scatter plot -/

/-- The keywords `mode` and `plot_type` that were given with a set. -/
structure ScatterOpts where
  mode : Option String
  plotType : Option String

/-- scatter.py:110-119: the method of matplotlib that draws the set; `plot_type` is taken out of the dictionary that is kept (line 123) and comes before `mode`, which is taken out by the drawing
functions (lines 16, 27, 42, 63). -/
def scatterDo (o : ScatterOpts) : String × ScatterOpts :=
  let m := match o.plotType with
    | some p => some (if p = "line" then "plot" else if p = "surface" then "plot_trisurf" else p)
    | none => o.mode
  (m.getD "scatter", { mode := none, plotType := none })

end Model
