import Mathlib.Data.List.Basic

/-! # Specification: neighbours in a round trip -/

namespace Spec

variable {ι : Type*}

/-- Position `k` of `x` holds `u`, and `v` stands before or after it (cyclically). -/
def CycNext (x : List ι) (u v : ι) : Prop :=
  ∃ k : Fin x.length, x.get k = u ∧
    (v = x.get ⟨(k.1 + x.length - 1) % x.length, Nat.mod_lt _ k.pos⟩ ∨
     v = x.get ⟨(k.1 + 1) % x.length, Nat.mod_lt _ k.pos⟩)

/-- Consecutive nodes of the child: an edge of `N`, or a jump from a node all of whose neighbours were visited. -/
def GoodTour (N : ι → ι → Prop) (y : List ι) : Prop :=
  ∀ k (h : k + 1 < y.length), N y[k] y[k + 1] ∨ ∀ v, N y[k] v → v ∈ y.take k

end Spec
