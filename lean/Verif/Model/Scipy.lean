import Verif.Model.Algorithm
import Verif.Model.Optimum
import Mathlib.Data.Real.Basic
import Mathlib.Algebra.BigOperators.Group.List.Basic

/-!
# Model of `pymoo/vendor/vendor_scipy.py`

`scipy.optimize.minimize` is an arbitrary function of the starting point: the points at which it called the objective, and its answer. The gradient options only change what the objective returns.
-/

namespace Model

/-! ### Options -/

/-- The flags of a wrapper (vendor_scipy.py:31-40). -/
structure ScipyOpts where
  withBounds : Bool
  withConstr : Bool
  useBounds : Bool := true
  useConstr : Bool := true

/-- vendor_scipy.py:147-234: the classes with `with_bounds` and `with_constr`. -/
def scipyClasses : List (String × Bool × Bool) :=
  [("NelderMead", false, false), ("CG", false, false), ("NewtonCG", false, false), ("BFGS", false, false), ("Powell", false, false), ("Dogleg", false, false),
    ("TrustNCG", false, false), ("TrustExact", false, false), ("TrustKrylov", false, false), ("LBFGSB", true, false), ("TNC", true, false),
    ("COBYLA", false, true), ("SLSQP", true, true), ("TrustConstr", true, true)]

/-- The problem as the wrapper sees it: bounds (or none), the numbers of inequality and equality constraints. -/
structure ScipyProblem (n : ℕ) where
  xl : Option (Fin n → ℝ)
  xu : Option (Fin n → ℝ)
  G : (Fin n → ℝ) → List ℝ
  H : (Fin n → ℝ) → List ℝ
  nIeq : ℕ
  nEq : ℕ

/-- individual.py:600-633 `constr_to_cv` with the defaults: the mean of the violations. -/
noncomputable def meanViolation (g : List ℝ) : ℝ := if g.length = 0 then 0 else (g.map (max 0)).sum / g.length

/-- The restrictions handed to SciPy. -/
structure ScipyTask (n : ℕ) where
  box : Bool
  linear : Bool
  nonlinear : Bool

/-- vendor_scipy.py:59-89: `none` = an exception before SciPy is called (line 74 uses `xl` and `xu`, which exist only with `use_bounds`). -/
def scipyTask {n : ℕ} (o : ScipyOpts) (p : ScipyProblem n) : Option (ScipyTask n) :=
  if o.useBounds && !o.withBounds && (p.xl.isSome || p.xu.isSome) then none
  else if o.useConstr && !o.useBounds then none
  else if o.useConstr && decide (0 < p.nIeq + p.nEq) && !o.withConstr then none
  else some { box := o.useBounds && o.withBounds, linear := o.useConstr, nonlinear := o.useConstr && decide (0 < p.nIeq + p.nEq) }

/-- The points SciPy regards as admissible: line 65 / line 74 for the bounds, lines 79-84 for the constraints. -/
def scipyAdmissible {n : ℕ} (t : ScipyTask n) (p : ScipyProblem n) (x : Fin n → ℝ) : Prop :=
  ((t.box = true ∨ t.linear = true) → (∀ l, p.xl = some l → ∀ i, l i ≤ x i) ∧ ∀ u, p.xu = some u → ∀ i, x i ≤ u i) ∧ (t.nonlinear = true → meanViolation (p.G x) ≤ 0)

/-! ### The run -/

variable {X : Type}

/-- The attributes of the algorithm that matter: `pop`, `opt`; `calls` (a ghost) are the points for which `evaluator.n_eval` was increased inside `_advance`, `runs` (a ghost) counts the calls of SciPy;
`forced` is `termination.force_termination`. -/
structure ScipyState (X : Type) where
  pop : List X
  opt : Option (List X)
  calls : List X
  runs : ℕ
  forced : Bool

/-- vendor_scipy.py:116-129 `_advance`: SciPy starts at `self.opt[0]`; its answer is evaluated and becomes the population. Nothing is returned (line 131 asks for an attribute of a string). Without an optimum the
code raises; it does not happen after the initialisation. -/
def scipyAdvance (solve : X → List X × X) (s : ScipyState X) : ScipyState X :=
  match s.opt.bind List.head? with
  | none => s
  | some x0 => { s with pop := [(solve x0).2], calls := s.calls ++ (solve x0).1 ++ [(solve x0).2], runs := s.runs + 1, forced := true }

/-- The wrapper as an algorithm: `_initialize_infill` samples (base/local.py:38-44), `_initialize_advance` (46-47) has no further effect, `_infill` is that of `LoopwiseAlgorithm` (algorithm.py:380-383): `state` is
never set, so it calls `_advance` and returns `None`. -/
noncomputable def scipyHooks (pr : ∀ n, (Fin n → Fin 1 → ℝ) → Fin n → ℕ) (at' : Attrs X ℝ ℝ 1) (sample : List X) (solve : X → List X × X) : AlgHooks (ScipyState X) (List X) where
  initInfill s := (some sample, s)
  infill s := (none, scipyAdvance solve s)
  eval p s := (s, p.length)
  initAdvance i s := { s with pop := i.getD [] }
  advance _ s := (none, scipyAdvance solve s)
  setOptimum s := { s with opt := (filterOptimum pr at' true (some s.pop)).getD none }

/-- `NoTermination` (core/termination.py:50-55, 26-31): progress 1 once `force_termination` is set, else 0. -/
def scipyProgress : Unit → ℚ → AlgView (ScipyState X) → Option (ℚ × Unit) := fun _ _ v => some (if v.st.forced then 1 else 0, ())

/-- The state after `setup`. -/
def scipyFresh : AlgState (ScipyState X) (List X) Unit ℚ := algFresh ⟨[], none, [], 0, false⟩ (.prim false 0 ())

/-- `evaluator.n_eval` at the end. -/
def scipyEvals (s : AlgState (ScipyState X) (List X) Unit ℚ) : ℕ := s.nEval + s.st.calls.length

end Model
