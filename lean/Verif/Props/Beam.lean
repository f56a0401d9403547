import Mathlib.Tactic.IntervalCases
import Mathlib.Tactic.Linarith
import Mathlib.Tactic.Positivity
import Verif.Model.Beam

/-!
# C150: the documented optimum of the cantilevered beam
-/

namespace Props
open Spec Model

set_option linter.unusedVariables false

/-- Bounding the moment of inertia by the area. -/
private theorem beam_bound {b h t H : ℝ} (hh : 0.1 ≤ h) (hh1 : h ≤ 1) (ht : 0.1 ≤ t) (hH : 3 ≤ H) (hH7 : H ≤ 7)
    (hI : 3.6 * H ≤ 1 / 12 * t * (H - 2 * h) ^ 3 + 2 * (1 / 12 * b * h ^ 3 + b * h * (H - h) ^ 2 / 4)) :
    2.576925 ≤ 2 * h * b + (H - 2 * h) * t := by
  by_contra hc
  rw [not_le] at hc
  have hw : 0 ≤ (H - 2 * h) * (H * (H - h)) / 6 := by
    have : 0 ≤ H - 2 * h := by linarith
    have : 0 ≤ H - h := by linarith
    have : 0 ≤ H := by linarith
    positivity
  have hcpos : 0 ≤ h ^ 2 / 12 + (H - h) ^ 2 / 4 := by positivity
  have e : 1 / 12 * t * (H - 2 * h) ^ 3 + 2 * (1 / 12 * b * h ^ 3 + b * h * (H - h) ^ 2 / 4) =
      (h ^ 2 / 12 + (H - h) ^ 2 / 4) * (2 * h * b + (H - 2 * h) * t) - t * ((H - 2 * h) * (H * (H - h)) / 6) := by ring
  have h1 : 0.1 * ((H - 2 * h) * (H * (H - h)) / 6) ≤ t * ((H - 2 * h) * (H * (H - h)) / 6) := mul_le_mul_of_nonneg_right ht hw
  have h2 := mul_le_mul_of_nonneg_left hc.le hcpos
  have h3 : 3.6 * H + 0.1 * ((H - 2 * h) * (H * (H - h)) / 6) ≤ (h ^ 2 / 12 + (H - h) ^ 2 / 4) * 2.576925 := by linarith
  obtain ⟨p, rfl⟩ : ∃ p, h = 0.1 + p := ⟨h - 0.1, by ring⟩
  obtain ⟨q, rfl⟩ : ∃ q, H = 7 - q := ⟨7 - H, by ring⟩
  have hp : 0 ≤ p := by linarith
  have hq : 0 ≤ q := by linarith
  have hp1 : p ≤ 0.9 := by linarith
  have hq1 : q ≤ 4 := by linarith
  norm_num at h3
  nlinarith [mul_nonneg hp hq, mul_nonneg hp (sub_nonneg.2 hp1), mul_nonneg hq (sub_nonneg.2 hq1), mul_nonneg (mul_nonneg hp hq) (sub_nonneg.2 hq1),
    mul_nonneg (mul_nonneg hp hq) (sub_nonneg.2 hp1), mul_nonneg (mul_nonneg hq hq) (sub_nonneg.2 hq1), mul_nonneg hq (sq_nonneg q)]

/-- Within the bounds the moment of inertia is positive (no division by zero when stress and deflection are computed). -/
theorem C150_inertia (y : List ℝ) (h : Within beamProblem.xl beamProblem.xu y) : 0 < beamI y := by
  obtain ⟨hl, hb⟩ := h
  have b : ∀ i, i < 4 → (beamProblem.xl.getD i 0 ≤ col y i ∧ col y i ≤ beamProblem.xu.getD i 0) := fun i hi => hb i (by rw [hl]; exact hi)
  have b0 := b 0 (by norm_num); have b1 := b 1 (by norm_num); have b2 := b 2 (by norm_num); have b3 := b 3 (by norm_num)
  norm_num [beamProblem] at b0 b1 b2 b3
  rw [beamI]
  have h0 : 0 < col y 0 := by linarith
  have h1 : 0 < col y 1 := by linarith
  have h2 : 0 < col y 2 := by linarith
  have h3 : 0 < col y 3 - 2 * col y 1 := by linarith
  positivity

/-- C150: the documented optimal value is a lower bound of the objective over all feasible designs. -/
theorem C150_bound (y : List ℝ) (h : beamProblem.Feasible y) : beamFront ≤ beamProblem.F y := by
  have hI := C150_inertia y h.1
  obtain ⟨⟨hl, hb⟩, hg, -⟩ := h
  have b : ∀ i, i < 4 → (beamProblem.xl.getD i 0 ≤ col y i ∧ col y i ≤ beamProblem.xu.getD i 0) := fun i hi => hb i (by rw [hl]; exact hi)
  have b1 := b 1 (by norm_num); have b2 := b 2 (by norm_num); have b3 := b 3 (by norm_num)
  norm_num [beamProblem] at b1 b2 b3
  simp only [beamProblem, List.forall_mem_cons, List.not_mem_nil, false_implies, implies_true, and_true] at hg ⊢
  have g1 : 1000 * 36 * col y 3 / (2 * beamI y) ≤ 5000 := by
    have := hg.1
    rw [div_le_iff₀ (by norm_num)] at this
    linarith
  rw [div_le_iff₀ (by positivity)] at g1
  have := beam_bound (b := col y 0) (t := col y 2) (by linarith) b1.2 (by linarith) b3.1 b3.2 (by rw [beamI] at g1; linarith)
  rw [beamFront]
  linarith

/-- C150: there is a feasible design within `10⁻⁴` of the documented one in every variable, whose volume is the documented optimal value up to `10⁻⁴`: so the infimum of the feasible volumes lies between
`92.7693` and `92.7694`. -/
theorem C150_attained : ∃ y, beamProblem.Feasible y ∧ (∀ i, i < 4 → |y.getD i 0 - beamSet.getD i 0| ≤ 1 / 10 ^ 4) ∧ beamProblem.F y ≤ beamFront + 1 / 10 ^ 4 := by
  refine ⟨[9.48463, 0.1, 0.1, 7], ⟨⟨rfl, ?_⟩, ?_, by simp [beamProblem]⟩, ?_, ?_⟩
  · intro i hi
    have : i < 4 := hi
    interval_cases i <;> norm_num [beamProblem]
  · norm_num [beamProblem, beamI, col]
  · intro i hi
    interval_cases i <;> norm_num [beamSet, abs_le]
  · norm_num [beamProblem, beamFront, col]

/-- C150 is violated as it stands: the documented optimal design breaks the stress constraint. -/
theorem C150_set_refuted : ¬ beamProblem.Feasible beamSet := by
  rintro ⟨-, hg, -⟩
  norm_num [beamProblem, beamSet, beamI, col] at hg

/-- C150, what holds of the documented design: it is within the bounds, exceeds the allowed stress by less than 0.0003 percent and satisfies the deflection constraint, its volume is the documented value up to
`2 · 10⁻⁴`, and no feasible design has a smaller volume. -/
theorem C150_set_partial : Within beamProblem.xl beamProblem.xu beamSet ∧ (∀ g ∈ beamProblem.G beamSet, g ≤ 3 / 10 ^ 6) ∧ (beamProblem.G beamSet).getD 1 0 ≤ 0 ∧
    |beamProblem.F beamSet - beamFront| ≤ 2 / 10 ^ 4 ∧ ∀ y, beamProblem.Feasible y → beamProblem.F beamSet ≤ beamProblem.F y := by
  refine ⟨⟨rfl, ?_⟩, ?_, ?_, ?_, fun y hy => le_trans ?_ (C150_bound y hy)⟩
  · intro i hi
    have : i < 4 := hi
    interval_cases i <;> norm_num [beamProblem, beamSet]
  · norm_num [beamProblem, beamSet, beamI, col]
  · norm_num [beamProblem, beamSet, beamI, col]
  · norm_num [beamProblem, beamSet, beamFront, col, abs_le]
  · norm_num [beamProblem, beamSet, beamFront, col]

/-- C150: the deflection constraint is not redundant: a design satisfying the stress constraint that breaks the deflection constraint exists. -/
theorem C150_deflection : ∃ y, Within beamProblem.xl beamProblem.xu y ∧ (beamProblem.G y).getD 0 0 ≤ 0 ∧ 0 < (beamProblem.G y).getD 1 0 := by
  refine ⟨[3.2, 1, 0.1, 4], ⟨rfl, ?_⟩, ?_, ?_⟩
  · intro i hi
    have : i < 4 := hi
    interval_cases i <;> norm_num [beamProblem]
  · norm_num [beamProblem, beamI, col]
  · norm_num [beamProblem, beamI, col]

/-- C150: every design at least 4.32 high that satisfies the stress constraint satisfies the deflection constraint. -/
theorem C150_stress (y : List ℝ) (h : Within beamProblem.xl beamProblem.xu y) (hH : 4.32 ≤ y.getD 3 0) (hs : (beamProblem.G y).getD 0 0 ≤ 0) : beamProblem.Feasible y := by
  have hI := C150_inertia y h
  refine ⟨h, ?_, by simp [beamProblem]⟩
  have g1 : 1000 * 36 * col y 3 / (2 * beamI y) ≤ 5000 := by
    have : (1000 * 36 * col y 3 / (2 * beamI y) - 5000) / 5000 ≤ 0 := hs
    rw [div_le_iff₀ (by norm_num)] at this
    linarith
  have hH' : 4.32 ≤ col y 3 := hH
  rw [div_le_iff₀ (by positivity)] at g1
  intro g hg
  simp only [beamProblem, List.mem_cons, List.not_mem_nil, or_false] at hg
  rcases hg with rfl | rfl
  · exact hs
  · have : 1000 * 36 ^ 3 / (3 * 10000000 * beamI y) ≤ (0.1 : ℝ) := by
      rw [div_le_iff₀ (by positivity)]
      norm_num at hH' ⊢
      linarith
    rw [div_le_iff₀ (by norm_num)]
    linarith

example : ∃ y, beamProblem.Feasible y := let ⟨y, h, _⟩ := C150_attained; ⟨y, h⟩
example : Within beamProblem.xl beamProblem.xu beamSet := C150_set_partial.1

end Props
