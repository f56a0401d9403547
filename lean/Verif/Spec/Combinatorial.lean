import Mathlib.Algebra.Order.Group.Defs
import Mathlib.Algebra.BigOperators.Group.Finset.Basic
import Mathlib.Data.List.Rotate
import Mathlib.Data.Fintype.Basic

/-! # Specification: schedules of a flow shop, staircase walks, round trips, knapsacks -/

namespace Spec

variable {α : Type*}

/-- `s i j` are start times of the `j`-th job on machine `i`, for `m` machines, `n` jobs and processing times `p`: nothing starts
before time 0, a machine works on one job at a time (in the given order), and a job visits the machines in their order. -/
structure Schedule [Zero α] [Add α] [LE α] (m n : ℕ) (p s : ℕ → ℕ → α) : Prop where
  nonneg : ∀ i j, i < m → j < n → 0 ≤ s i j
  machine : ∀ i j, i < m → j + 1 < n → s i j + p i j ≤ s i (j + 1)
  job : ∀ i j, i + 1 < m → j < n → s i j + p i j ≤ s (i + 1) j

/-- A walk from `(a, b)` to `(i, j)` that goes to the next machine or to the next job in every step, and the processing times it
collects (both ends included). -/
inductive Walk [Add α] (p : ℕ → ℕ → α) (a b : ℕ) : ℕ → ℕ → α → Prop
  | start : Walk p a b a b (p a b)
  | right {i j v} : Walk p a b i j v → Walk p a b i (j + 1) (v + p i (j + 1))
  | down {i j v} : Walk p a b i j v → Walk p a b (i + 1) j (v + p (i + 1) j)

/-- The sum of the distances between the cities of `x` in cyclic order. -/
def roundTrip {ι : Type*} [AddCommMonoid α] (d : ι → ι → α) (x : List ι) : α :=
  ∑ k : Fin x.length, d (x.get k) (x.get ⟨(k.1 + 1) % x.length, Nat.mod_lt _ k.pos⟩)

end Spec
