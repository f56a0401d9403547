import Verif.Model.LocalSearch
import Mathlib.Analysis.Real.Sqrt
import Mathlib.Algebra.Order.Monoid.WithTop
import Mathlib.Algebra.BigOperators.Fin

/-!
# Model of the termination of Nelder–Mead

`pymoo/algorithms/soo/nonconvex/nelder.py` `NelderAndMeadTermination`, over the reals. Infinity (a division by zero in numpy) is `⊤`,
nan is `none`. The objective values are finite.
-/

namespace Model

variable {n : ℕ}

/-- `np.max` of absolute values (nelder.py:41, 46, 48); of no values, zero. -/
noncomputable def nmMax (l : List ℝ) : ℝ := l.foldr max 0

/-- `val.min()` (nelder.py:55). -/
noncomputable def nmMin (l : List ℝ) : ℝ := l.tail.foldr min (l.headD 0)

/-- nelder.py:42, 50: `1 / (1 + (delta - tol))`; `delta` is a numpy float, so that dividing by zero gives infinity. -/
noncomputable def nmPart (delta tol : ℝ) : WithTop ℝ := if 1 + (delta - tol) = 0 then ⊤ else ((1 / (1 + (delta - tol)) : ℝ) : WithTop ℝ)

/-- nelder.py:41. The first individual is compared with the others. -/
noncomputable def nmFDelta (f : (Fin n → ℝ) → ℝ) (pop : List (Fin n → ℝ)) : ℝ := nmMax (pop.tail.map fun x => |f x - f (pop.headD 0)|)

/-- nelder.py:44-48. `none`: a variable with equal bounds gives `0 / 0`, and the maximum is nan. -/
noncomputable def nmXDelta (bounds : Option ((Fin n → ℝ) × (Fin n → ℝ))) (pop : List (Fin n → ℝ)) : Option ℝ :=
  match bounds with
  | some (xl, xu) =>
    if ∃ j, xu j - xl j = 0 then none
    else some (nmMax (pop.tail.flatMap fun x => (List.finRange n).map fun j => |(x j - pop.headD 0 j) / (xu j - xl j)|))
  | none => some (nmMax (pop.tail.flatMap fun x => (List.finRange n).map fun j => |x j - pop.headD 0 j|))

/-- nelder.py:53-54: the lengths of the edges, the entries of the distance matrix above the diagonal row by row. -/
noncomputable def nmEdges : List (Fin n → ℝ) → List ℝ
  | [] => []
  | x :: l => (l.map fun y => √(∑ j, (x j - y j) ^ 2)) ++ nmEdges l

/-- nelder.py:55-58. -/
noncomputable def nmDegenerated (pop : List (Fin n → ℝ)) : Bool :=
  let val := nmEdges pop
  decide (nmMax val < 1e-16 ∨ nmMin val / nmMax val < 1e-16)

/-- nelder.py:24-31: the parameters, the defaults are `1e-6, 1e-6, 1e6, 1e6`. -/
structure NmTol where
  x : ℝ
  f : ℝ
  iter : ℝ
  evals : ℝ

/-- nelder.py:33-63 `_update`. Python's `max` with nan as its second argument ignores it. -/
noncomputable def nmProgress (tol : NmTol) (bounds : Option ((Fin n → ℝ) × (Fin n → ℝ))) (f : (Fin n → ℝ) → ℝ) (pop : List (Fin n → ℝ))
    (nIter nEval : ℕ) : WithTop ℝ :=
  if pop.length ≤ 1 then ((0 : ℝ) : WithTop ℝ)
  else
    let parts := [nmPart (nmFDelta f pop) tol.f] ++ ((nmXDelta bounds pop).map fun d => nmPart d tol.x).toList ++
      [((nIter / tol.iter : ℝ) : WithTop ℝ), ((nEval / tol.evals : ℝ) : WithTop ℝ), ((if nmDegenerated pop then 1 else 0 : ℝ) : WithTop ℝ)]
    parts.tail.foldl max (parts.headD ⊤)

/-- termination.py:33-35 with the progress just computed. -/
noncomputable def nmStops (tol : NmTol) (bounds : Option ((Fin n → ℝ) × (Fin n → ℝ))) (f : (Fin n → ℝ) → ℝ) (pop : List (Fin n → ℝ))
    (nIter nEval : ℕ) : Prop := ((1 : ℝ) : WithTop ℝ) ≤ nmProgress tol bounds f pop nIter nEval

end Model
