import Verif.Spec.Pareto

/-! # Specification: Pareto rank numbers, and truncated lists of fronts -/

namespace Spec

/-- `rank` numbers the points by Pareto front: every dominator of a point has a smaller rank, and a point of
positive rank `k + 1` has a dominator of rank `k`. (This is the contract of moocore's `pareto_rank`.) -/
structure IsParetoRank {ι : Type*} (dom : ι → ι → Prop) (rank : ι → ℕ) : Prop where
  lt : ∀ i j, dom j i → rank j < rank i
  pred : ∀ i k, rank i = k + 1 → ∃ j, dom j i ∧ rank j = k

/-- `res` is the shortest non-empty prefix of the fronts `all` that contains at least `k` points
(all fronts if there are fewer than `k` points). -/
structure ShortestPrefix {ι : Type*} (k : ℕ) (all res : List (List ι)) : Prop where
  isPrefix : res <+: all
  enough : k ≤ res.flatten.length ∨ res = all
  minimal : ∀ p, p <+: all → p ≠ [] → p.length < res.length → p.flatten.length < k
  nonempty : all ≠ [] → res ≠ []

end Spec
