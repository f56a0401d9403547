import Verif.Spec.MoTable
import Mathlib.Algebra.BigOperators.Group.List.Basic

/-!
The table of multi-objective runs: `util/display/multi.py`, `util/display/output.py`, `util/display/single.py:9-36`.
The indicators are functions of the front and the objective values (their own properties: C59-C61); the changes between two generations are a
function `delta` of the two sets of feasible objective values (`ftol.py:62-95`, C108). Real numbers instead of floats. Formatting is C125.
-/

namespace Model
open Spec

variable {P : Type*} {V : Type*}

/-- A cell of the table. -/
inductive MoCell
  | none
  | num (v : ℝ)
  | nat (n : ℕ)
  | name (s : String)

/-- What the table reads from the algorithm in one generation: counters, `opt` (objective values, feasibility, violation), the violations of
`pop`, and what `problem.pareto_front()` returns at that time (`none`: no front, or an exception, output.py:18-21). -/
structure MoGen (P V : Type*) where
  nGen : ℕ
  nEval : ℕ
  opt : List (V × Bool × ℝ)
  popCv : List ℝ
  pf : Option P

/-- The functions the table uses. -/
structure MoFuns (P V : Type*) where
  igd : P → List V → ℝ
  gd : P → List V → ℝ
  hv : P → List V → ℝ
  delta : List V → List V → Deltas

/-- The state of `MultiObjectiveOutput`: the columns, `self.pf`, `self.indicator_no_pf` (its `data` and the three `delta_*` fields). -/
structure MoState (P V : Type*) where
  columns : List String
  pf : Option P
  ind : Option (Option (List V) × Option Deltas)

/-- multi.py:37-50 with output.py:57-61: before the first call. -/
def moFresh : MoState P V := ⟨["n_gen", "n_eval"], none, none⟩

/-- multi.py:52-74 `initialize`. -/
def moInit (hasConstr : Bool) (nObj : ℕ) (pf : Option P) (s : MoState P V) : MoState P V :=
  let c := s.columns ++ ["n_nds"]
  let c := if hasConstr then c ++ ["cv_min", "cv_avg"] else c
  match pf with
  | some p =>
    let c := c ++ ["igd", "gd"]
    ⟨if nObj = 2 then c ++ ["hv"] else c, some p, s.ind⟩
  | none => ⟨c ++ ["eps", "indicator"], none, some (none, none)⟩

/-- ftol.py:43-60, delta.py:25-56 with `n_skip = 0` and only called with a feasible optimum: the new `data` and `delta_*`. -/
noncomputable def indUpdate (delta : List V → List V → Deltas) (tol : ℝ) (s : Option (List V) × Option Deltas) (F : List V) :
    Option (List V) × Option Deltas := by
  classical exact
    match s.1 with
    | none => (some F, s.2)
    | some prev =>
      let d := delta prev F
      if max (max d.ideal d.nadir) d.f ≤ tol then (s.1, some d) else (some F, some d)

/-- multi.py:107-121. -/
noncomputable def epsCells (tol : ℝ) (d : Option Deltas) : MoCell × MoCell := by
  classical exact
    match d with
    | none => (.none, .none)
    | some d =>
      if tol < d.ideal then (.num d.ideal, .name "ideal")
      else if tol < d.nadir then (.num d.nadir, .name "nadir")
      else (.num d.f, .name "f")

/-- The cells that do not depend on the feasible optimum, all indicators empty (multi.py:82-85, output.py:24-51, single.py:9-36,
multi.py:18-31). An empty optimum, for which `cv_min` raises, does not occur. -/
noncomputable def moBase (g : MoGen P V) (c : String) : MoCell :=
  if c = "n_gen" then .nat g.nGen
  else if c = "n_eval" then .nat g.nEval
  else if c = "n_nds" then .nat g.opt.length
  else if c = "cv_min" then (match (g.opt.map fun e => e.2.2).min? with | some v => .num v | none => .none)
  else if c = "cv_avg" then .num (g.popCv.sum / g.popCv.length)
  else .none

/-- multi.py:95-101: the indicators relative to a front. -/
noncomputable def moFront (fs : MoFuns P V) (columns : List String) (pf : Option P) (F : List V) (base : String → MoCell) (c : String) : MoCell :=
  match pf with
  | some p =>
    if c = "igd" then .num (fs.igd p F)
    else if c = "gd" then .num (fs.gd p F)
    else if c = "hv" ∧ "hv" ∈ columns then .num (fs.hv p F)
    else base c
  | none => base c

/-- multi.py:87-88. -/
def moFeasible (g : MoGen P V) : List V := (g.opt.filter fun e => e.2.1).map fun e => e.1

/-- multi.py:76-121 `update`: the new state and the cells. `dynamic` is `hasattr(problem, "time")`; `tol` is
`MultiObjectiveSpaceTermination().tol`. -/
noncomputable def moUpdate (fs : MoFuns P V) (tol : ℝ) (dynamic : Bool) (s : MoState P V) (g : MoGen P V) : MoState P V × (String → MoCell) :=
  let F := moFeasible g
  if F = [] then (s, moBase g)
  else
    let pf := if dynamic then g.pf else s.pf
    let cells := moFront fs s.columns pf F (moBase g)
    match s.ind with
    | none => (⟨s.columns, pf, none⟩, cells)
    | some i =>
      let i := indUpdate fs.delta tol i F
      let e := epsCells tol i.2
      (⟨s.columns, pf, some i⟩, fun c => if c = "eps" then e.1 else if c = "indicator" then e.2 else cells c)

/-- The rows printed in a run: the column names and the cells of each generation (callback.py:28-35: initialised at the first call). -/
noncomputable def moRows (fs : MoFuns P V) (tol : ℝ) (dynamic : Bool) : MoState P V → List (MoGen P V) → List (List (String × MoCell))
  | _, [] => []
  | s, g :: gs =>
    let r := moUpdate fs tol dynamic s g
    (r.1.columns.map fun c => (c, r.2 c)) :: moRows fs tol dynamic r.1 gs

/-- A run of the table. -/
noncomputable def moTable (fs : MoFuns P V) (tol : ℝ) (dynamic hasConstr : Bool) (nObj : ℕ) (gens : List (MoGen P V)) : List (List (String × MoCell)) :=
  match gens with
  | [] => []
  | g :: gs => moRows fs tol dynamic (moInit hasConstr nObj g.pf moFresh) (g :: gs)

end Model
