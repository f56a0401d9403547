import Verif.Props.SingleProblems
import Verif.Lemmas.Taylor

/-!
# C80: how close the reported solution of Schwefel's function is
-/

namespace Props
open Model Spec Lemmas

theorem schwefel_best : (418.98288 : ℝ) ≤ 420.9687 * Real.sin (√|420.9687|) := by
  rw [abs_of_pos (by norm_num)]
  have h1 : (20.51752177 : ℝ) ≤ √420.9687 := Real.le_sqrt_of_sq_le (by norm_num)
  have h2 : √(420.9687 : ℝ) ≤ 20.51752179 := Real.sqrt_le_iff.2 ⟨by norm_num, by norm_num⟩
  have p1 := Real.pi_gt_d20
  have p2 := Real.pi_lt_d20
  set s := √(420.9687 : ℝ)
  clear_value s
  have hs : Real.sin s = Real.cos (s - 13 * Real.pi / 2) := by
    rw [show s - 13 * Real.pi / 2 = (s - Real.pi / 2) - (3 : ℕ) * (2 * Real.pi) by push_cast; ring, Real.cos_sub_nat_mul_two_pi, Real.cos_sub_pi_div_two]
  rw [hs]
  have hc := cos_ge6 (s - 13 * Real.pi / 2)
  have y1 : (0.09716 : ℝ) ≤ s - 13 * Real.pi / 2 := by linarith
  have y2 : s - 13 * Real.pi / 2 ≤ 0.0971696 := by linarith
  set y := s - 13 * Real.pi / 2
  clear_value y
  have q2 : y ^ 2 ≤ 0.0971696 ^ 2 := pow_le_pow_left₀ (by linarith) y2 2
  have q4 : (0.09716 : ℝ) ^ 4 ≤ y ^ 4 := pow_le_pow_left₀ (by norm_num) y1 4
  have q6 : y ^ 6 ≤ 0.0971696 ^ 6 := pow_le_pow_left₀ (by linarith) y2 6
  norm_num at q2 q4 q6 ⊢
  linarith

/-- C80, what holds for Schwefel's function: the reported solution is inside the bounds, and no solution inside the bounds has a
value better by more than `0.00002` per variable; its own value is within that distance of the reported optimum. -/
theorem C80_schwefel_partial (n : ℕ) :
    Cube n (-500) 500 (schwefelSet n) ∧ |schwefel (schwefelSet n) - schwefelFront| ≤ 0.00002 * n ∧
    ∀ x, Cube n (-500) 500 x → schwefel (schwefelSet n) ≤ schwefel x + 0.00002 * n := by
  have hc : Cube n (-500) 500 (schwefelSet n) := cube_replicate (by norm_num)
  have hup : schwefel (schwefelSet n) ≤ 0.00002 * n := by
    unfold schwefel schwefelSet
    rw [List.map_replicate, List.sum_replicate, List.length_replicate, nsmul_eq_mul]
    have h0 : (0 : ℝ) ≤ n := Nat.cast_nonneg n
    have := mul_le_mul_of_nonneg_left schwefel_best h0
    linarith
  have hlow : ∀ x, Cube n (-500) 500 x → 0 ≤ schwefel x := by
    intro x hx
    rcases Nat.eq_zero_or_pos n with rfl | hn
    · obtain ⟨hl, _⟩ := hx
      rw [List.length_eq_zero_iff.1 hl]
      simp [schwefel]
    · exact (C80_schwefel_refuted n hn x hx).le
  refine ⟨hc, ?_, fun x hx => by linarith [hlow x hx]⟩
  unfold schwefelFront
  rw [sub_zero, abs_of_nonneg (hlow _ hc)]
  exact hup

example : Cube 3 (-500) 500 [1, 2, 3] := ⟨rfl, by intro v hv; simp at hv; rcases hv with rfl | rfl | rfl <;> norm_num⟩

end Props
