import Verif.Spec.Pareto
import Mathlib.Data.List.FinRange
import Mathlib.Algebra.Order.Group.Defs
import Mathlib.Algebra.BigOperators.Group.List.Basic

/-!
# Model of `pymoo/util/dominator.py`

An objective vector of a matrix with `m` columns is a function `Fin m → α`; floats are modelled by any
linearly ordered type `α` (no NaN, no rounding).
-/

namespace Model

variable {α : Type*} [LinearOrder α] {m n k : ℕ}

/-- `pymoo/util/dominator.py:43-53` — the `for i in range(len(a))` loop with its running verdict `val`
and its two early `return 0`. -/
def relLoop (a b : Fin m → α) : List (Fin m) → ℤ → ℤ
  | [], val => val
  | i :: is, val =>
    if a i < b i then
      if val = -1 then 0 else relLoop a b is 1
    else if b i < a i then
      if val = 1 then 0 else relLoop a b is (-1)
    else relLoop a b is val

/-- `pymoo/util/dominator.py:25-53` `Dominator.get_relation(a, b, cva=None, cvb=None)`. -/
def getRelation {β : Type*} [LinearOrder β] (a b : Fin m → α) (cva cvb : Option β) : ℤ :=
  match cva, cvb with
  | some x, some y =>
    if x < y then 1
    else if y < x then -1
    else relLoop a b (List.finRange m) 0
  | _, _ => relLoop a b (List.finRange m) 0

section Matrix
variable [AddCommGroup α]

/-- `pymoo/util/dominator.py:78-104` `Dominator.calc_domination_matrix(F, _F, epsilon)`; `L`/`R` of the
code are rows `i` of `F` and `j` of `_F` (`np.repeat`/`np.tile`), `np.any(..., axis=1)` is a search over
the columns, and the two products with `1` and `-1` are added up. -/
def dominationMatrix (F : Fin n → Fin m → α) (F' : Fin k → Fin m → α) (eps : α) (i : Fin n) (j : Fin k) : ℤ :=
  let smaller := (List.finRange m).any fun c => decide (F i c + eps < F' j c)
  let larger := (List.finRange m).any fun c => decide (F i c > F' j c + eps)
  (if smaller && !larger then 1 else 0) * 1 + (if larger && !smaller then 1 else 0) * (-1)

/-- `pymoo/util/dominator.py:68` `np.sum(G * (G > 0).astype(float), axis=1)` for one row of `G`. -/
def sumPositive (g : List α) : α := (g.map fun x => if 0 < x then x else 0).sum

/-- `pymoo/util/dominator.py:56-75` `Dominator.calc_domination_matrix_loop(F, G)`: entry `(i,j)` of the
result. Only `i < j` is computed with `get_relation`; `(j,i)` is its negative; the diagonal stays `0`. -/
def dominationMatrixLoop (F : Fin n → Fin m → α) (G : Fin n → List α) (i j : Fin n) : ℤ :=
  if i < j then getRelation (F i) (F j) (some (sumPositive (G i))) (some (sumPositive (G j)))
  else if j < i then - getRelation (F j) (F i) (some (sumPositive (G j))) (some (sumPositive (G i)))
  else 0

end Matrix

end Model
