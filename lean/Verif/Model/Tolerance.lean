import Verif.Model.Termination
import Verif.Model.Indicators
import Mathlib.Data.Real.Archimedean
import Mathlib.Algebra.Order.Floor.Ring

/-!
# Model: tolerance based termination and the default terminations
(pymoo/termination/{ftol,xtol,cv,default}.py)

Floats are real numbers; objective values and violations are finite. `m + 1` objectives, `n` variables.
-/

namespace Model

variable {m n : ℕ}

/-- ftol.py:30-40 `SingleObjectiveSpaceTermination._data`: the least objective value of the (feasible) individuals of `opt`; `⊤` is
`np.inf`. -/
noncomputable def soData (onlyFeas : Bool) (opt : List (ℝ × Bool)) : WithTop ℝ :=
  let f := (if onlyFeas then opt.filter Prod.snd else opt).map Prod.fst
  match f.min? with
  | none => ⊤
  | some v => v

/-- ftol.py:24-28 `SingleObjectiveSpaceTermination._delta`. -/
noncomputable def soDelta : WithTop ℝ → WithTop ℝ → WithTop ℝ
  | (p : ℝ), (c : ℝ) => ((max 0 (p - c) : ℝ) : WithTop ℝ)
  | _, _ => ⊤

/-- The dictionary of ftol.py:57-60 if there is a (feasible) individual. -/
structure MoSnap (m : ℕ) where
  ideal : Fin (m + 1) → ℝ
  nadir : Fin (m + 1) → ℝ
  F : List (Fin (m + 1) → ℝ)

/-- ftol.py:51-60 `MultiObjectiveSpaceTermination._data`; `none` is `feas=False`. -/
noncomputable def moData (onlyFeas : Bool) (opt : List ((Fin (m + 1) → ℝ) × Bool)) : Option (MoSnap m) :=
  let F := (if onlyFeas then opt.filter Prod.snd else opt).map Prod.fst
  (ptMin F).bind fun ideal => (ptMax F).map fun nadir => ⟨ideal, nadir, F⟩

/-- ftol.py:67-71: the range, 1 if it is degenerate. -/
noncomputable def moRange (c : MoSnap m) : Fin (m + 1) → ℝ := fun k => if c.nadir k - c.ideal k < 1 / 10 ^ 32 then 1 else c.nadir k - c.ideal k

/-- ftol.py:15-16 `calc_delta_norm(a, b, norm)`. -/
noncomputable def calcDeltaNorm (a b norm : Fin (m + 1) → ℝ) : ℝ := Finset.univ.sup' Finset.univ_nonempty fun k => |(a k - b k) / norm k|

/-- `IGD(pf).do(F)`; `⊤` if it raises (which is what xtol.py:20-23 makes of an exception; in ftol.py:86 it cannot happen, since `pf` is
never empty there). -/
noncomputable def igdOf {d : ℕ} (moo : Moocore d) (pf F : List (Fin d → ℝ)) : WithTop ℝ :=
  match (distInit { pf := pf }).bind fun I => distDo moo .igd I F with
  | none => ⊤
  | some v => v

/-- ftol.py:62-95 `MultiObjectiveSpaceTermination._delta`. -/
noncomputable def moDelta (moo : Moocore (m + 1)) : Option (MoSnap m) → Option (MoSnap m) → WithTop ℝ
  | some p, some c =>
    max (max ((calcDeltaNorm c.ideal p.ideal (moRange c) : ℝ) : WithTop ℝ) (calcDeltaNorm c.nadir p.nadir (moRange c) : ℝ))
      (igdOf moo (c.F.map (indForward (some (c.ideal, c.nadir)))) (p.F.map (indForward (some (c.ideal, c.nadir)))))
  | _, _ => ⊤

/-- A real number assigned into an integer array: truncation towards zero. -/
noncomputable def truncReal (q : ℝ) : ℝ := if 0 ≤ q then (⌊q⌋ : ℝ) else (⌈q⌉ : ℝ)

/-- xtol.py:25-34 `DesignSpaceTermination._data`: `X` normalised by the bounds, if there are any. The normalised values are written
into a copy of `X` (normalization.py:76-81), so for an integer array (`isInt`) they are truncated. `none`: the variables are no numbers. -/
noncomputable def xData (isInt : Bool) (bounds : Option ((Fin n → ℝ) × (Fin n → ℝ))) (X : Option (List (Fin n → ℝ))) :
    Option (List (Fin n → ℝ)) :=
  X.map fun l => l.map fun x => if isInt && bounds.isSome then fun k => truncReal (indForward bounds x k) else indForward bounds x

/-- xtol.py:19-23 `DesignSpaceTermination._delta`; variables that are no numbers raise inside the `try`. -/
noncomputable def xDelta (moo : Moocore n) : Option (List (Fin n → ℝ)) → Option (List (Fin n → ℝ)) → WithTop ℝ
  | some p, some c => igdOf moo c p
  | _, _ => ⊤

/-- cv.py:12-31 `ConstraintViolationTermination._update`: `cv` is the least violation in `opt`. -/
noncomputable def cvUpdate (whenFeasible hasConstr feasFound : Bool) (s : DeltaState ℝ ℝ) (perc cv : ℝ) : ℝ × DeltaState ℝ ℝ :=
  if hasConstr then
    if feasFound then (if whenFeasible then 1 else 0, s)
    else deltaUpdate (fun p c => ((max 0 (p - c) : ℝ) : WithTop ℝ)) s perc cv
  else (0, s)

/-- What the criteria read from the algorithm: objective values and feasibility of `opt`, its variables, its least violation, whether
the problem has constraints, and the two counters. -/
structure Snap (m n : ℕ) where
  F : List ((Fin (m + 1) → ℝ) × Bool)
  X : Option (List (Fin n → ℝ))
  cv : ℝ
  hasConstr : Bool
  nGen : ℕ
  nEval : ℕ

/-- The states of the criteria used by the default terminations. -/
inductive DefState (m n : ℕ)
  | x (s : DeltaState (Option (List (Fin n → ℝ))) ℝ)
  | cv (s : DeltaState ℝ ℝ)
  | f (s : DeltaState (WithTop ℝ) ℝ)
  | fm (s : DeltaState (Option (MoSnap m)) ℝ)
  | gen (l : Limit)
  | evals (l : Limit)

/-- `_update` of the criteria of default.py:32-51 (`only_feas=True`, `terminate_when_feasible=False`). -/
noncomputable def defRaw (mooF : Moocore (m + 1)) (mooX : Moocore n) (isInt : Bool) (bounds : Option ((Fin n → ℝ) × (Fin n → ℝ))) :
    DefState m n → ℝ → Snap m n → Option (ℝ × DefState m n)
  | .x s, perc, a => let r := deltaUpdate (xDelta mooX) s perc (xData isInt bounds a.X); some (r.1, .x r.2)
  | .cv s, perc, a => let r := cvUpdate false a.hasConstr (a.F.any Prod.snd) s perc a.cv; some (r.1, .cv r.2)
  | .f s, perc, a => let r := deltaUpdate soDelta s perc (soData true (a.F.map fun e => (e.1 0, e.2))); some (r.1, .f r.2)
  | .fm s, perc, a => let r := deltaUpdate (moDelta mooF) s perc (moData true a.F); some (r.1, .fm r.2)
  | .gen l, _, a => (limitProgress a.nGen l).map fun p => (p, .gen l)
  | .evals l, _, a => (limitProgress a.nEval l).map fun p => (p, .evals l)

/-- default.py:15-30: the collection of the five criteria, `x`, `cv` and `f` made robust. -/
noncomputable def defaultTermination (period : ℕ) (x cv f : DefState m n) (maxGen maxEvals : Limit) : Crit (DefState m n) ℝ :=
  .any false 0 [.robust false 0 (some period) [] (.prim false 0 x), .robust false 0 (some period) [] (.prim false 0 cv),
    .robust false 0 (some period) [] (.prim false 0 f), .prim false 0 (.gen maxGen), .prim false 0 (.evals maxEvals)]

/-- default.py:32-40 `DefaultSingleObjectiveTermination(xtol, cvtol, ftol, period, n_max_gen, n_max_evals)`. -/
noncomputable def defaultSingle (xtol cvtol ftol : ℝ) (period : ℕ) (maxGen maxEvals : Limit) : Crit (DefState m n) ℝ :=
  defaultTermination period (.x ⟨xtol, none, 0, 0⟩) (.cv ⟨cvtol, none, 0, 0⟩) (.f ⟨ftol, none, 0, 0⟩) maxGen maxEvals

/-- default.py:43-51 `DefaultMultiObjectiveTermination(xtol, cvtol, ftol, n_skip, period, n_max_gen, n_max_evals)`. -/
noncomputable def defaultMulti (xtol cvtol ftol : ℝ) (nSkip period : ℕ) (maxGen maxEvals : Limit) : Crit (DefState m n) ℝ :=
  defaultTermination period (.x ⟨xtol, none, 0, nSkip⟩) (.cv ⟨cvtol, none, 0, nSkip⟩) (.fm ⟨ftol, none, 0, nSkip⟩) maxGen maxEvals

/-- The data remembered by `MultiObjectiveSpaceTerminationWithRenormalization`: the list it starts with (ftol.py:107) or a dictionary. -/
inductive RenormData (m : ℕ)
  | list
  | dict (d : Option (MoSnap m))

/-- ftol.py:62-95 for the class of 98-141, which inherits it: indexing a list with a string raises. -/
noncomputable def renormDelta (moo : Moocore (m + 1)) : RenormData m → RenormData m → Option (WithTop ℝ)
  | .dict p, .dict c => some (moDelta moo p c)
  | _, _ => none

/-- delta.py:25-56 for this class, with a `_delta` that may raise. -/
noncomputable def renormUpdate (moo : Moocore (m + 1)) (s : DeltaState (RenormData m) ℝ) (perc : ℝ) (cur : RenormData m) :
    Option (ℝ × DeltaState (RenormData m) ℝ) :=
  match s.data with
  | none => some (deltaUpdate (fun _ _ => ⊤) s perc cur)
  | some prev =>
    if s.counter > 0 ∧ s.counter % (s.nSkip + 1) ≠ 0 then some (deltaUpdate (fun _ _ => ⊤) s perc cur)
    else (renormDelta moo prev cur).map fun d => deltaUpdate (fun _ _ => d) s perc cur

end Model
