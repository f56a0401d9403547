import Verif.Spec.Pareto

/-! # Specification: feasibility-first comparison of individuals -/

namespace Spec

/-- The individual with objectives `f`, feasibility `p`, violation `c` beats the one with `f'`, `p'`, `c'`: it is
feasible and the other is not, or both are feasible and it Pareto-dominates, or both are infeasible and its violation is
smaller. -/
def Beats {m : ℕ} {α β : Type*} [LinearOrder α] [LinearOrder β] (f : Fin m → α) (p : Bool) (c : β)
    (f' : Fin m → α) (p' : Bool) (c' : β) : Prop :=
  (p = true ∧ p' = false) ∨ (p = true ∧ p' = true ∧ Dominates f f') ∨ (p = false ∧ p' = false ∧ c < c')

/-- The contract of a truncation operator (random choice without replacement, or a survival operator): asked for
at most as many members as there are, it returns that many members. -/
def TruncOK {ι : Type*} (trunc : List ι → ℕ → List ι) : Prop :=
  ∀ l t, t ≤ l.length → (trunc l t).length = t ∧ ∀ x ∈ trunc l t, x ∈ l

end Spec
