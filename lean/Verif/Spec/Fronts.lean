import Verif.Spec.Sorting

/-! # Specification: the fronts of a list of individuals -/

namespace Spec

/-- `fronts` are the fronts of the individuals `L` under `dom`: they contain exactly the individuals of `L`, none is empty, and front number `k` consists of those
that are in no earlier front and whose dominators are all in earlier fronts. -/
structure FrontsOf {ι : Type*} (dom : ι → ι → Prop) (L : List ι) (fronts : List (List ι)) : Prop where
  perm : fronts.flatten.Perm L
  nonempty : ∀ f ∈ fronts, f ≠ []
  level : ∀ k (hk : k < fronts.length) (x : ι), x ∈ fronts[k] ↔
    x ∈ L ∧ x ∉ (fronts.take k).flatten ∧ ∀ y ∈ L, dom y x → y ∈ (fronts.take k).flatten

end Spec
