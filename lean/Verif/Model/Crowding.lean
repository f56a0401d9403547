import Mathlib.Algebra.Order.Field.Basic
import Mathlib.Algebra.Order.Monoid.WithTop
import Mathlib.Data.List.FinRange
import Mathlib.Algebra.BigOperators.Group.List.Basic
import Mathlib.Logic.Equiv.Defs

/-!
# Model of the crowding distance
`pymoo/operators/survival/rank_and_crowding/metrics.py`

Floats are an ordered field `α`; distances additionally take the value `⊤` for `np.inf`
(`WithTop α`). NaN occurs only for columns without spread and is replaced by `0` right away, as in the code.
-/

namespace Model

variable {α : Type*} [Field α] [LinearOrder α] {n m : ℕ}

/-- `metrics.py:94,102` `dist_to_last` before normalisation: entry `k` of the sorted column minus entry `k - 1`,
`np.inf` for the first (`F[0] - (-inf)`). -/
def distToLast (sorted : Fin n → α) (k : Fin n) : WithTop α :=
  if h : k.val = 0 then ⊤ else ((sorted k - sorted ⟨k.val - 1, by omega⟩ : α) : WithTop α)

/-- `metrics.py:94,102` `dist_to_next` before normalisation: `np.inf` for the last entry. -/
def distToNext (sorted : Fin n → α) (k : Fin n) : WithTop α :=
  if h : k.val + 1 < n then ((sorted ⟨k.val + 1, h⟩ - sorted k : α) : WithTop α) else ⊤

/-- `metrics.py:97` `np.max(F, axis=0) - np.min(F, axis=0)` for one column. -/
def columnNorm (col : Fin n → α) : α :=
  (((List.finRange n).map col).max?.getD 0) - (((List.finRange n).map col).min?.getD 0)

/-- `metrics.py:98,102,105-106`: division by the norm; a zero norm becomes NaN and the quotient then `0.0`.
(`inf / norm` is `inf` as norms are never negative.) -/
def divNorm (norm : α) (d : WithTop α) : WithTop α := if norm = 0 then 0 else d.map (· / norm)

/-- `metrics.py:85-118` `calc_crowding_distance(F)`; `I c` is the sorting permutation of column `c`
(`np.argsort(F, axis=0)`), and `J = np.argsort(I)` of line 109 its inverse. -/
def crowdingDistance (I : Fin m → Equiv.Perm (Fin n)) (F : Fin n → Fin m → α) (i : Fin n) : WithTop α :=
  let total := ((List.finRange m).map fun c =>
    let sorted := fun k => F (I c k) c
    let norm := columnNorm sorted
    divNorm norm (distToLast sorted ((I c).symm i)) + divNorm norm (distToNext sorted ((I c).symm i))).sum
  total.map (· / (m : α))

/-- `metrics.py:41-70` `FunctionalDiversity(calc_crowding_distance, filter_out_duplicates=False).do(F)`, the
metric named `"cd"`: fronts of at most two points get `np.inf` throughout. -/
def crowdingCd (I : Fin m → Equiv.Perm (Fin n)) (F : Fin n → Fin m → α) (i : Fin n) : WithTop α :=
  if n ≤ 2 then ⊤ else crowdingDistance I F i

end Model
