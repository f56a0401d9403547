import Mathlib.Data.Complex.Basic
import Mathlib.Algebra.BigOperators.Group.Finset.Basic
import Mathlib.Algebra.BigOperators.Fin

/-!
# Model: gradients of problems (`pymoo/gradient/*.py`)

Complex step differentiation, the arrangement of the values obtained from reverse-mode differentiation, and the module state that says which numerical
library the problems use. The reverse pass of autograd and JAX is not modelled but taken as what it is documented to compute: for a cotangent `b` the sum of
the partial derivatives weighted with `b`.
-/

namespace Model

open Finset

/-! ### Complex steps (`grad_complex.py`) -/

/-- grad_complex.py:23 `x + np.eye(len(x)) * complex(0, eps)`: row `k` has its `k`-th entry moved. -/
noncomputable def complexRows {n : ℕ} (x : Fin n → ℝ) (eps : ℝ) (k l : Fin n) : ℂ := (x l : ℂ) + (if k = l then (1 : ℂ) else 0) * ⟨0, eps⟩

/-- grad_complex.py:24-28: `np.imag(value / eps).T` for the value of one name; `F` evaluates the rows of a matrix. -/
noncomputable def complexGrad {n m : ℕ} (F : (Fin n → Fin n → ℂ) → Fin n → Fin m → ℂ) (x : Fin n → ℝ) (eps : ℝ) (j : Fin m) (k : Fin n) : ℝ :=
  (F (complexRows x eps) k j / (eps : ℂ)).im

/-- `str.startswith("d")` (grad_complex.py:41, automatic.py:60). -/
def startsWithD (s : List Char) : Bool := s.head? == some 'd'

/-- A dictionary of values: `problem.do` with the names `ret` returns a value for each of them and for all others the problem sets (problem.py:256-305). -/
def doKeys (set ret : List (List Char)) : List (List Char) := set ++ ret.filter (fun k => decide (k ∉ set))

/-- grad_complex.py:38-49 `ComplexNumberGradient.do` for `N` points: the dictionary as a function on its keys; `none` = `KeyError`. `val k` is the value
`problem.do` returns for `k` and `grad k i` the gradient of `k` at the point `i`. -/
def cngDo {V : Type*} (N : ℕ) (set ret : List (List Char)) (val : List Char → List V) (grad : List Char → ℕ → V) : Option (List (List Char × List V)) :=
  let out := (doKeys set ret).map fun k => (k, val k)
  let names := doKeys set (ret.filter fun k => !startsWithD k)
  (List.range N).foldlM (fun out i => names.foldlM (fun out name =>
    if out.any (fun e => e.1 == 'd' :: name) then some (out.map fun e => if e.1 == 'd' :: name then (e.1, e.2.set i (grad name i)) else e) else none) out) out

/-! ### Reverse mode (`grad_autograd.py`, `grad_jax.py`) -/

section Reverse
variable {N n : ℕ}

/-- What the backward pass returns for the cotangent `b` of a value of shape `(N, m)` with partial derivatives `D i' j i q = ∂ value[i', j] / ∂ x[i, q]`. -/
noncomputable def pullback {m : ℕ} (D : Fin N → Fin m → Fin N → Fin n → ℝ) (b : Fin N → Fin m → ℝ) (i : Fin N) (q : Fin n) : ℝ := ∑ i', ∑ j, b i' j * D i' j i q

/-- grad_autograd.py:128-141: the cotangents are ones in column `j`; the results are stacked along the second axis. A value that does not depend on `x`
(`isbox` is false) has the derivative zero. -/
noncomputable def autogradJac {m : ℕ} (D : Option (Fin N → Fin m → Fin N → Fin n → ℝ)) (i : Fin N) (j : Fin m) (q : Fin n) : ℝ :=
  match D with
  | none => 0
  | some D => pullback D (fun _ j' => if j' = j then 1 else 0) i q

/-- grad_autograd.py:92-101: one point, the cotangents are the unit vectors. -/
noncomputable def autogradElem {m : ℕ} (D : Fin m → Fin n → ℝ) (j : Fin m) (q : Fin n) : ℝ := ∑ j', (if j' = j then 1 else 0) * D j' q

/-- grad_jax.py:48-61 the first column `cnt` of the `k`-th value: the widths of the values before. -/
def jaxStart (width : List ℕ) (k : ℕ) : ℕ := (width.take k).sum

/-- grad_jax.py:57-60 the cotangents of the `k`-th value: `a[cnt : cnt + m] = np.eye(m)[:, np.newaxis, :]`. -/
noncomputable def jaxCot (width : List ℕ) (k c r : ℕ) : ℝ :=
  if jaxStart width k ≤ c ∧ c < jaxStart width k + width.getD k 0 then (if c - jaxStart width k = r then 1 else 0) else 0

/-- grad_jax.py:65-66: the results of the backward pass for all cotangents; `D k` are the partial derivatives of the `k`-th value. -/
noncomputable def jaxAll (width : List ℕ) (D : ℕ → Fin N → ℕ → Fin N → Fin n → ℝ) (c : ℕ) (i : Fin N) (q : Fin n) : ℝ :=
  ∑ k ∈ range width.length, ∑ i', ∑ r ∈ range (width.getD k 0), jaxCot width k c r * D k i' r i q

/-- grad_jax.py:68 `np.swapaxes(jac[I], 0, 1)`: the gradient of the `k`-th value. -/
noncomputable def jaxJac (width : List ℕ) (D : ℕ → Fin N → ℕ → Fin N → Fin n → ℝ) (k : ℕ) (i : Fin N) (r : ℕ) (q : Fin n) : ℝ := jaxAll width D (jaxStart width k + r) i q

end Reverse

/-! ### The active library (`gradient/__init__.py`, `automatic.py`) -/

inductive GradLib
  | numpy | autograd | jax
  deriving DecidableEq

/-- `gradient/__init__.py:14-26` `activate(name)`; `none` = a name that is not in `BACKENDS`. -/
def gradActivate (name : Option GradLib) (s : GradLib) : GradLib × Bool :=
  match name with
  | none => (s, false)
  | some b => (b, true)

/-- automatic.py:58-87 `AutomaticDifferentiation.do` (and 15-34 for one point): the state after the call and the result, `none` = an exception. `run` is the
evaluation of the problem with the given library active. -/
def autodiffDo {R : Type*} (name : Option GradLib) (run : GradLib → Option R) (s : GradLib) : GradLib × Option R :=
  match gradActivate name s with
  | (s', false) => (s', none)
  | (s', true) =>
    if s' = .jax ∨ s' = .autograd then
      match run s' with
      | none => (s', none)
      | some r => ((gradActivate (some .numpy) s').1, some r)
    else (s', none)

end Model
