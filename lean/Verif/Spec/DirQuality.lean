import Mathlib.Analysis.SpecialFunctions.Pow.Real
import Mathlib.Data.Fin.VecNotation

/-!
Vocabulary for the quality measures of a set of points (C153).
-/

namespace Spec

variable {d n : ℕ}

/-- The Euclidean distance of two points. -/
noncomputable def eDist (u v : Fin d → ℝ) : ℝ := √(∑ k, (u k - v k) ^ (2 : ℕ))

/-- The average of `f` over all unordered pairs of `n` things. -/
noncomputable def pairMean (f : Fin n → Fin n → ℝ) : ℝ :=
  (∑ i, ∑ j, if i < j then f i j else 0) / ((n : ℝ) * ((n : ℝ) - 1) / 2)

/-- The average and the variance of `n` numbers. -/
noncomputable def avgOf (v : Fin n → ℝ) : ℝ := (∑ i, v i) / n
noncomputable def varOf (v : Fin n → ℝ) : ℝ := (∑ i, (v i - avgOf v) ^ (2 : ℕ)) / n

/-- `v` is the distance of point `i` to its `k`-th nearest other point: fewer than `k` others are closer, at least `k` others are
at most that far. -/
def KthNearest (z : Fin n → Fin d → ℝ) (i : Fin n) (k : ℕ) (v : ℝ) : Prop :=
  (Finset.univ.filter fun j => j ≠ i ∧ eDist (z i) (z j) < v).card < k ∧
    k ≤ (Finset.univ.filter fun j => j ≠ i ∧ eDist (z i) (z j) ≤ v).card

/-- `v` is the distance of point `i` to the nearest other point. -/
def NearestDist (z : Fin n → Fin d → ℝ) (i : Fin n) (v : ℝ) : Prop :=
  (∃ j, j ≠ i ∧ eDist (z i) (z j) = v) ∧ ∀ j, j ≠ i → v ≤ eDist (z i) (z j)

/-- Rows of length one that are orthogonal to each other. -/
def OrthonormalRows (Y : List (Fin d → ℝ)) : Prop :=
  (∀ y ∈ Y, ∑ k, y k ^ (2 : ℕ) = 1) ∧ Y.Pairwise fun y y' => ∑ k, y k * y' k = 0

/-- The points followed by the corners of the simplex that are not among them. -/
noncomputable def withCorners (z : List (Fin d → ℝ)) : List (Fin d → ℝ) := by
  classical exact z ++ ((List.finRange d).map fun i => (Pi.single i 1 : Fin d → ℝ)).filter fun e => e ∉ z

end Spec
