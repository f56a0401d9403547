import Mathlib.Order.Basic
import Mathlib.Order.Defs.LinearOrder
import Mathlib.Data.List.Basic
import Mathlib.Data.List.Nodup

/-!
# Specification: Pareto dominance and Pareto fronts (minimisation)

Independent of the model. Vectors of `m` objectives are functions `Fin m → α`.
-/

namespace Spec

/-- `a` Pareto-dominates `b`: nowhere worse and somewhere strictly better. -/
def Dominates {m : ℕ} {α : Type*} [LinearOrder α] (a b : Fin m → α) : Prop :=
  (∀ i, a i ≤ b i) ∧ ∃ i, a i < b i

instance {m : ℕ} {α : Type*} [LinearOrder α] (a b : Fin m → α) : Decidable (Dominates a b) := by
  unfold Dominates; infer_instance

/-- Constrained dominance: if both constraint violations are given, the smaller violation wins and only a
tie is decided by Pareto dominance; if one is missing, Pareto dominance alone decides. -/
def Better {m : ℕ} {α β : Type*} [LinearOrder α] [LinearOrder β] (a b : Fin m → α) :
    Option β → Option β → Prop
  | some x, some y => x < y ∨ (x = y ∧ Dominates a b)
  | _, _ => Dominates a b

/-- The fronts a non-dominated sorting has to return for the dominance relation `dom`
(`dom j i` : `j` dominates `i`): every index occurs exactly once, no front is empty, and front `k` is
exactly the set of points, among those not in an earlier front, all of whose dominators are in earlier
fronts (i.e. the non-dominated points of what remains). -/
structure CanonicalFronts {ι : Type*} (dom : ι → ι → Prop) (fronts : List (List ι)) : Prop where
  nodup : fronts.flatten.Nodup
  complete : ∀ i, i ∈ fronts.flatten
  nonempty : ∀ f ∈ fronts, f ≠ []
  level : ∀ k (hk : k < fronts.length) (i : ι), i ∈ fronts[k] ↔
    i ∉ (fronts.take k).flatten ∧ ∀ j, dom j i → j ∈ (fronts.take k).flatten

/-- A strict partial order, as any dominance relation must be. -/
structure StrictPO {ι : Type*} (dom : ι → ι → Prop) : Prop where
  irrefl : ∀ i, ¬ dom i i
  trans : ∀ i j k, dom i j → dom j k → dom i k

end Spec
