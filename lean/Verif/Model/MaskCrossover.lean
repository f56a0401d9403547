import Mathlib.Data.List.Sort
import Mathlib.Data.List.FinRange
import Mathlib.Logic.Function.Basic

/-!
# Model of the mask crossovers

`pymoo/util/misc.py:885-915`, `pymoo/operators/crossover/{pntx,ux,hux,binx,expx}.py`. The rows of the matings are
independent of each other, so one mating is modelled: a parent is a vector `Fin n → α`, a mask `Fin n → Bool`. The random
draws are arguments.
-/

namespace Model

variable {α : Type*} {n : ℕ}

/-- numpy boolean-mask assignment `y[M] = z[M]`. -/
def assignMask (M : Fin n → Bool) (y z : Fin n → α) : Fin n → α := fun p => if M p then z p else y p

/-- `misc.py:885-898` `crossover_mask(X, M)`, one mating: `_X[0][M] = X[1][M]`, `_X[1][M] = X[0][M]` on a copy. -/
def crossoverMask (X : Fin 2 → Fin n → α) (M : Fin n → Bool) : Fin 2 → Fin n → α :=
  let Y := X
  let Y := Function.update Y 0 (assignMask M (Y 0) (X 1))
  let Y := Function.update Y 1 (assignMask M (Y 1) (X 0))
  Y

/-- `pntx.py:28-33`: the `while` loop over the row `r`, writing `M[a:b] = True` for the pairs of cut points. -/
def pointMaskLoop : List ℕ → (Fin n → Bool) → (Fin n → Bool)
  | a :: b :: rest, M => pointMaskLoop rest (fun p => if a ≤ p.1 ∧ p.1 < b then true else M p)
  | _, M => M

/-- `pntx.py:14-34` `PointCrossover._do`, the mask. `perm` is `random_state.permutation(n_var - 1)`. -/
def pointMask (nPoints : ℕ) (perm : List ℕ) : Fin n → Bool :=
  let r := (perm.map (· + 1)).take nPoints
  let r := r.insertionSort (· ≤ ·)
  let r := r ++ [n]
  pointMaskLoop r (fun _ => false)

/-- `pntx.py:14-37`. -/
def pointCrossover (nPoints : ℕ) (perm : List ℕ) (X : Fin 2 → Fin n → α) : Fin 2 → Fin n → α :=
  crossoverMask X (pointMask nPoints perm)

/-- `ux.py:11-15` `UniformCrossover._do`; `u p` is whether the random number for position `p` is below 0.5. -/
def uniformCrossover (u : Fin n → Bool) (X : Fin 2 → Fin n → α) : Fin 2 → Fin n → α := crossoverMask X u

/-- `hux.py:19-31`, the mask; `perm` is `random_state.permutation(len(I))`. `I[perm[:n]]` is read with `getElem?`; an
index outside `I` cannot occur, as `perm` is a permutation of the positions. -/
def huxMask [DecidableEq α] (X : Fin 2 → Fin n → α) (perm : List ℕ) : Fin n → Bool :=
  let I := (List.finRange n).filter fun p => decide (X 0 p ≠ X 1 p)
  let k := (I.length + 1) / 2
  if k > 0 then
    let I' := (perm.take k).filterMap fun q => I[q]?
    fun p => decide (p ∈ I')
  else fun _ => false

/-- `hux.py:16-34` `HalfUniformCrossover._do`. -/
def huxCrossover [DecidableEq α] (perm : List ℕ) (X : Fin 2 → Fin n → α) : Fin 2 → Fin n → α :=
  crossoverMask X (huxMask X perm)

/-- `misc.py:902-915` `row_at_least_once_true`, one row; `r` is `random_state.integers(d)`. -/
def rowAtLeastOnce (M : Fin n → Bool) (r : Fin n) : Fin n → Bool :=
  if (List.finRange n).any M then M else Function.update M r true

/-- `binx.py:12-19` `mut_binomial`, one row; `u p` is whether the random number for position `p` is below `prob`. -/
def mutBinomial (atLeastOnce : Bool) (u : Fin n → Bool) (r : Fin n) : Fin n → Bool :=
  if atLeastOnce then rowAtLeastOnce u r else u

/-- `binx.py:33-36`: one offspring. -/
def binomialOne (u : Fin n → Bool) (r : Fin n) (X : Fin 2 → Fin n → α) : Fin n → α :=
  let M := mutBinomial true u r
  assignMask (fun p => !M p) (X 0) (X 1)

/-- `binx.py:37-40`: two offspring. -/
def binomialTwo (u : Fin n → Bool) (r : Fin n) (X : Fin 2 → Fin n → α) : Fin 2 → Fin n → α :=
  let M := mutBinomial true u r
  let Y := X
  let Y := Function.update Y 0 (assignMask (fun p => !M p) (Y 0) (X 1))
  let Y := Function.update Y 1 (assignMask (fun p => !M p) (Y 1) (X 0))
  Y

/-- `expx.py:27-35`: the inner loop for one mating. `draws` are the outcomes of `random_state.random() <= prob`, in the
order of the draws, `j` the loop counter (`n_var - j` rounds to go). -/
def mutExpLoop (start : ℕ) : (fuel j : ℕ) → List Bool → (Fin n → Bool) → (Fin n → Bool)
  | 0, _, _, M => M
  | _ + 1, _, [], M => M
  | fuel + 1, j, d :: ds, M =>
    if d then mutExpLoop start fuel (j + 1) ds (fun p => if p.1 = (start + j) % n then true else M p) else M

/-- `expx.py:11-40` `mut_exp`, one mating. -/
def mutExp (atLeastOnce : Bool) (start : Fin n) (draws : List Bool) (r : Fin n) : Fin n → Bool :=
  let M := mutExpLoop start.1 n 0 draws (fun _ => false)
  if atLeastOnce then rowAtLeastOnce M r else M

/-- `expx.py:49-55` `ExponentialCrossover._do`. -/
def expCrossover (start : Fin n) (draws : List Bool) (r : Fin n) (X : Fin 2 → Fin n → α) : Fin 2 → Fin n → α :=
  crossoverMask X (mutExp true start draws r)

end Model
