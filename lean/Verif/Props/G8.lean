import Mathlib.Tactic.IntervalCases
import Mathlib.Tactic.Linarith
import Mathlib.Tactic.Positivity
import Mathlib.Analysis.Real.Pi.Bounds
import Verif.Lemmas.Taylor
import Verif.Model.GMore

/-!
# C132, continued: the documented optimum of G8
-/

namespace Props
open Spec Model Lemmas

set_option linter.unusedVariables false

private theorem g8_z {z : ℝ} (h1 : -1.6 ≤ z) (h2 : z ≤ 1.6) : Real.cos z ≤ 0.9995777 * (1 + 0.0290782 * (z + 0.02907)) - 0.2 * (z + 0.02907) ^ 2 := by
  refine (cos_le4 z).trans ?_
  have : 0 ≤ 2.56 - z ^ 2 := by nlinarith
  nlinarith [mul_nonneg (sq_nonneg (z + 0.02907)) this, sq_nonneg (z + 0.02907), sq_nonneg (z * (z + 0.02907)), sq_nonneg z]

private theorem g8_y {y : ℝ} (h1 : -1.6 ≤ y) (h2 : y ≤ 1.6) :
    Real.cos y ≤ 0.1283687 * (7.85398 + y) * (1 + 0.0290782 / 3 * (y + 0.13841) - 0.2 * (y + 0.13841) ^ 2) := by
  refine (cos_le4 y).trans ?_
  have : 0 ≤ 2.56 - y ^ 2 := by nlinarith
  nlinarith [mul_nonneg (sq_nonneg (y + 0.13841)) this, sq_nonneg (y + 0.13841), sq_nonneg (y * (y + 0.13841)), mul_nonneg (sq_nonneg (y + 0.13841)) (by linarith : 0 ≤ 1.6 - y),
    mul_nonneg (sq_nonneg (y + 0.13841)) (by linarith : 0 ≤ 1.6 + y)]

private theorem g8_cube {d : ℝ} (h1 : -1.75 ≤ d) (h2 : d ≤ 1.75) :
    (1 + 0.0290782 / 3 * d - 0.2 * d ^ 2) ^ 3 ≤ 1 + 0.0290782 * d - 0.2 * d ^ 2 := by
  have h3 : (0.0290782 / 3 - 0.2 * d) ^ 2 ≤ 0.13 := by nlinarith
  have h4 : 0.0290782 / 3 * d - 0.2 * d ^ 2 ≤ 0.02 := by nlinarith [sq_nonneg d]
  have h5 : 0 ≤ 3 + (0.0290782 / 3 * d - 0.2 * d ^ 2) := by nlinarith [sq_nonneg d]
  have e : (1 + 0.0290782 / 3 * d - 0.2 * d ^ 2) ^ 3 = 1 + 0.0290782 * d - 0.6 * d ^ 2 +
      d ^ 2 * ((0.0290782 / 3 - 0.2 * d) ^ 2 * (3 + (0.0290782 / 3 * d - 0.2 * d ^ 2))) := by ring
  rw [e]
  have h6 : (0.0290782 / 3 - 0.2 * d) ^ 2 * (3 + (0.0290782 / 3 * d - 0.2 * d ^ 2)) ≤ 0.4 :=
    (mul_le_mul h3 (by linarith : _ ≤ (3.02 : ℝ)) h5 (by norm_num)).trans (by norm_num)
  nlinarith [mul_le_mul_of_nonneg_left h6 (sq_nonneg d)]

private theorem g8_prod {d e : ℝ} (d1 : -1.75 ≤ d) (d2 : d ≤ 1.75) (e1 : -1.65 ≤ e) (e2 : e ≤ 1.65) :
    (1 + 0.0290782 * d - 0.2 * d ^ 2) * (1 + 0.0290782 * e - 0.2 * e ^ 2) ≤ 1 + 0.0290782 * (d + e) := by
  have f2 : 0.3 ≤ 1 + 0.0290782 * e - 0.2 * e ^ 2 := by nlinarith
  have f3 : 0.9 ≤ 1 + 0.0290782 * d := by linarith
  have q1 := mul_le_mul_of_nonneg_left f2 (sq_nonneg d)
  have q2 := mul_le_mul_of_nonneg_left f3 (sq_nonneg e)
  have q3 := sq_nonneg (d - e)
  have q4 := sq_nonneg (d + e)
  nlinarith [sq_nonneg d, sq_nonneg e]

set_option maxHeartbeats 1000000 in
private theorem g8_main {y z : ℝ} (hy1 : -(Real.pi / 2) ≤ y) (hy2 : y ≤ Real.pi / 2) (hz1 : -(Real.pi / 2) ≤ z) (hz2 : z ≤ Real.pi / 2) :
    (2 * Real.pi) ^ 4 * (Real.cos y ^ 3 * Real.cos z) ≤ 0.0958255 * ((2.5 * Real.pi + y) ^ 3 * (11 * Real.pi + y + z)) := by
  have p1 := Real.pi_gt_d6
  have p2 := Real.pi_lt_d6
  have hy := g8_y (by linarith) (by linarith : y ≤ 1.6)
  have hz := g8_z (by linarith) (by linarith : z ≤ 1.6)
  have hc := g8_cube (d := y + 0.13841) (by linarith) (by linarith)
  have cy : 0 ≤ Real.cos y := Real.cos_nonneg_of_mem_Icc ⟨hy1, hy2⟩
  have cz : 0 ≤ Real.cos z := Real.cos_nonneg_of_mem_Icc ⟨hz1, hz2⟩
  set d := y + 0.13841 with hd
  set e := z + 0.02907 with he
  have d1 : -1.75 ≤ d := by rw [hd]; linarith
  have d2 : d ≤ 1.75 := by rw [hd]; linarith
  have e1 : -1.65 ≤ e := by rw [he]; linarith
  have e2 : e ≤ 1.65 := by rw [he]; linarith
  have hA : 0 ≤ 7.85398 + y := by linarith
  have hprod := g8_prod d1 d2 e1 e2
  have hq0 : 0 ≤ 1 + 0.0290782 / 3 * d - 0.2 * d ^ 2 := by nlinarith
  have h1 : Real.cos y ^ 3 ≤ (0.1283687 * (7.85398 + y)) ^ 3 * (1 + 0.0290782 * d - 0.2 * d ^ 2) := by
    refine (pow_le_pow_left₀ cy hy 3).trans ?_
    rw [mul_pow]
    exact mul_le_mul_of_nonneg_left hc (by positivity)
  have h2 : Real.cos z ≤ 0.9995777 * (1 + 0.0290782 * e - 0.2 * e ^ 2) := by
    have := sq_nonneg e
    linarith
  have h3 : Real.cos y ^ 3 * Real.cos z ≤ (0.1283687 * (7.85398 + y)) ^ 3 * 0.9995777 * (1 + 0.0290782 * (d + e)) := by
    have hn1 : 0 ≤ (0.1283687 * (7.85398 + y)) ^ 3 * (1 + 0.0290782 * d - 0.2 * d ^ 2) := (pow_nonneg cy 3).trans h1
    refine (mul_le_mul h1 h2 cz hn1).trans ?_
    have hk : 0 ≤ (0.1283687 * (7.85398 + y)) ^ 3 * 0.9995777 := by positivity
    have := mul_le_mul_of_nonneg_left hprod hk
    linarith
  have h4 : 1 + 0.0290782 * (d + e) ≤ 0.0290782 * (11 * Real.pi + y + z) := by rw [hd, he]; linarith
  have h5 : (7.85398 + y) ^ 3 ≤ (2.5 * Real.pi + y) ^ 3 := pow_le_pow_left₀ hA (by linarith) 3
  have h6 : 0 ≤ 11 * Real.pi + y + z := by linarith
  have h7 : Real.cos y ^ 3 * Real.cos z ≤ 0.1283687 ^ 3 * 0.9995777 * 0.0290782 * ((2.5 * Real.pi + y) ^ 3 * (11 * Real.pi + y + z)) := by
    refine h3.trans ?_
    rw [mul_pow]
    have hk : 0 ≤ (0.1283687 : ℝ) ^ 3 * (7.85398 + y) ^ 3 * 0.9995777 := by positivity
    refine (mul_le_mul_of_nonneg_left h4 hk).trans ?_
    have := mul_le_mul_of_nonneg_right h5 h6
    have h8 : (0 : ℝ) ≤ 0.1283687 ^ 3 * 0.9995777 * 0.0290782 := by norm_num
    have := mul_le_mul_of_nonneg_left this h8
    linarith
  have h10 : 0 ≤ Real.cos y ^ 3 * Real.cos z := mul_nonneg (pow_nonneg cy 3) cz
  have h11 : 0 ≤ (2.5 * Real.pi + y) ^ 3 * (11 * Real.pi + y + z) := mul_nonneg (pow_nonneg (by linarith) 3) h6
  have p3 := Real.pi_lt_d20
  refine (mul_le_mul (pow_le_pow_left₀ (by positivity) (by linarith : 2 * Real.pi ≤ 2 * 3.1415927) 4) h7 h10 (by norm_num)).trans ?_
  rw [← mul_assoc]
  exact mul_le_mul_of_nonneg_right (by norm_num) h11

set_option maxHeartbeats 2000000 in
/-- C132, G8: the bound on the objective, for every feasible solution. -/
theorem C132_g8_bound (y : List ℝ) (h : g8Problem.Feasible y) : -0.0958255 ≤ g8Problem.F y := by
  obtain ⟨-, hg, -⟩ := h
  simp only [g8Problem, List.forall_mem_cons, List.not_mem_nil, false_implies, implies_true, and_true] at hg ⊢
  obtain ⟨g1, g2⟩ := hg
  generalize col y 0 = a at *
  generalize col y 1 = b at *
  have ha : 1 ≤ a := by nlinarith [sq_nonneg (b - 4)]
  have hb : 1 + a ^ 2 ≤ b := by linarith
  have hab : 0 < a + b := by nlinarith
  have hpos : 0 < a ^ 3 * (a + b) := mul_pos (pow_pos (by linarith) 3) hab
  rw [neg_div, neg_le_neg_iff, div_le_iff₀ hpos]
  have s1 := Real.sin_le_one (2 * Real.pi * a)
  have s1' := Real.neg_one_le_sin (2 * Real.pi * a)
  have t1 := Real.sin_le_one (2 * Real.pi * b)
  have t1' := Real.neg_one_le_sin (2 * Real.pi * b)
  have hp := Real.pi_pos
  have p2 := Real.pi_lt_d6
  -- the cubed factor times the other one, bounded by bounds on both
  have cub : ∀ S : ℝ, |Real.sin (2 * Real.pi * a)| ≤ S → ∀ T : ℝ, |Real.sin (2 * Real.pi * b)| ≤ T → Real.sin (2 * Real.pi * a) ^ 3 * Real.sin (2 * Real.pi * b) ≤ S ^ 3 * T := by
    intro S hS T hT
    refine (le_abs_self _).trans ?_
    rw [abs_mul, abs_pow]
    exact mul_le_mul (pow_le_pow_left₀ (abs_nonneg _) hS 3) hT (abs_nonneg _) (pow_nonneg ((abs_nonneg _).trans hS) 3)
  have hS1 : |Real.sin (2 * Real.pi * a)| ≤ 1 := abs_le.2 ⟨s1', s1⟩
  have hT1 : |Real.sin (2 * Real.pi * b)| ≤ 1 := abs_le.2 ⟨t1', t1⟩
  rcases le_total 1.5 a with h15 | h15
  · have := cub 1 hS1 1 hT1
    have h3 : 3.375 ≤ a ^ 3 := by have := pow_le_pow_left₀ (by norm_num) h15 3; norm_num at this ⊢; linarith
    have h4 : 4.75 ≤ a + b := by nlinarith
    have := mul_le_mul h3 h4 (by norm_num) (by positivity)
    norm_num at *
    linarith
  · have hb4 : (b - 4) ^ 2 ≤ a - 1 := by linarith
    have hs0 : 0 ≤ Real.sin (2 * Real.pi * a) := by
      rw [show 2 * Real.pi * a = 2 * Real.pi * (a - 1) + 2 * Real.pi by ring, Real.sin_add_two_pi]
      exact Real.sin_nonneg_of_nonneg_of_le_pi (by nlinarith) (by nlinarith)
    have hrhs : 0 ≤ 0.0958255 * (a ^ 3 * (a + b)) := by positivity
    have neg : Real.sin (2 * Real.pi * b) ≤ 0 → Real.sin (2 * Real.pi * a) ^ 3 * Real.sin (2 * Real.pi * b) ≤ 0.0958255 * (a ^ 3 * (a + b)) := fun ht =>
      (mul_nonpos_of_nonneg_of_nonpos (pow_nonneg hs0 3) ht).trans hrhs
    have hb1 : 3.28 ≤ b := by nlinarith
    have hb2 : b ≤ 4.72 := by nlinarith
    rcases le_total 4.5 b with hc | hc
    · refine neg ?_
      rw [show 2 * Real.pi * b = 2 * Real.pi * (b - 4.5) + Real.pi + ((4 : ℕ) : ℝ) * (2 * Real.pi) by push_cast; ring, Real.sin_add_nat_mul_two_pi, Real.sin_add_pi, neg_nonpos]
      exact Real.sin_nonneg_of_nonneg_of_le_pi (by nlinarith) (by nlinarith)
    rcases le_total 4 b with hc4 | hc4
    · have := g8_main (y := 2 * Real.pi * (a - 1.25)) (z := 2 * Real.pi * (b - 4.25)) (by nlinarith) (by nlinarith) (by nlinarith) (by nlinarith)
      have e1 : Real.cos (2 * Real.pi * (a - 1.25)) = Real.sin (2 * Real.pi * a) := by
        rw [show 2 * Real.pi * a = 2 * Real.pi * (a - 1.25) + Real.pi / 2 + 2 * Real.pi by ring, Real.sin_add_two_pi, Real.sin_add_pi_div_two]
      have e2 : Real.cos (2 * Real.pi * (b - 4.25)) = Real.sin (2 * Real.pi * b) := by
        rw [show 2 * Real.pi * b = 2 * Real.pi * (b - 4.25) + Real.pi / 2 + ((4 : ℕ) : ℝ) * (2 * Real.pi) by push_cast; ring, Real.sin_add_nat_mul_two_pi, Real.sin_add_pi_div_two]
      rw [e1, e2, show 2.5 * Real.pi + 2 * Real.pi * (a - 1.25) = 2 * Real.pi * a by ring,
        show 11 * Real.pi + 2 * Real.pi * (a - 1.25) + 2 * Real.pi * (b - 4.25) = 2 * Real.pi * (a + b) by ring,
        show 0.0958255 * ((2 * Real.pi * a) ^ 3 * (2 * Real.pi * (a + b))) = (2 * Real.pi) ^ 4 * (0.0958255 * (a ^ 3 * (a + b))) by ring] at this
      exact le_of_mul_le_mul_left this (by positivity)
    rcases le_total 3.5 b with hc3 | hc3
    · refine neg ?_
      rw [show 2 * Real.pi * b = 2 * Real.pi * (b - 3.5) + Real.pi + ((3 : ℕ) : ℝ) * (2 * Real.pi) by push_cast; ring, Real.sin_add_nat_mul_two_pi, Real.sin_add_pi, neg_nonpos]
      exact Real.sin_nonneg_of_nonneg_of_le_pi (by nlinarith) (by nlinarith)
    · have a125 : 1.25 ≤ a := by nlinarith
      have h3 : 1.953 ≤ a ^ 3 := by have := pow_le_pow_left₀ (by norm_num) a125 3; norm_num at this ⊢; linarith
      have h4 : 4.53 ≤ a + b := by nlinarith
      have h5 := mul_le_mul h3 h4 (by norm_num) (by positivity)
      have ht0 : 0 ≤ Real.sin (2 * Real.pi * b) := by
        rw [show 2 * Real.pi * b = 2 * Real.pi * (b - 3) + ((3 : ℕ) : ℝ) * (2 * Real.pi) by push_cast; ring, Real.sin_add_nat_mul_two_pi]
        exact Real.sin_nonneg_of_nonneg_of_le_pi (by nlinarith) (by nlinarith)
      rcases le_total 3.4 b with hc5 | hc5
      · have hT : Real.sin (2 * Real.pi * b) ≤ 0.63 := by
          rw [show 2 * Real.pi * b = Real.pi - 2 * Real.pi * (3.5 - b) + ((3 : ℕ) : ℝ) * (2 * Real.pi) by push_cast; ring, Real.sin_add_nat_mul_two_pi, Real.sin_pi_sub]
          refine (Real.sin_le (by nlinarith)).trans ?_
          nlinarith
        have := cub 1 hS1 0.63 (by rw [abs_of_nonneg ht0]; exact hT)
        norm_num at *
        linarith
      · have a136 : 1.36 ≤ a := by nlinarith
        have hS : Real.sin (2 * Real.pi * a) ≤ 0.88 := by
          rw [show 2 * Real.pi * a = Real.pi - 2 * Real.pi * (1.5 - a) + 2 * Real.pi by ring, Real.sin_add_two_pi, Real.sin_pi_sub]
          refine (Real.sin_le (by nlinarith)).trans ?_
          nlinarith
        have := cub 0.88 (by rw [abs_of_nonneg hs0]; exact hS) 1 hT1
        norm_num at *
        linarith

/-- C132, G8: the documented solution is feasible, and no feasible solution is better by more than `10⁻⁶`. -/
theorem C132_g8 : g8Problem.OptimalUpTo (1 / 10 ^ 6) g8Set := by
  refine ⟨⟨⟨rfl, ?_⟩, ?_, by simp [g8Problem]⟩, ?_⟩
  · intro i hi
    have : i < 2 := hi
    interval_cases i <;> norm_num [g8Problem, g8Set]
  · norm_num [g8Problem, g8Set, col]
  · intro y hy
    refine le_trans ?_ (C132_g8_bound y hy)
    have p1 := Real.pi_gt_d6
    have p2 := Real.pi_lt_d6
    have hp := Real.pi_pos
    have v : g8Problem.F g8Set ≤ -0.0958248 := by
      simp only [g8Problem, g8Set, col, List.getD_cons_zero, List.getD_cons_succ]
      have e1 : Real.sin (2 * Real.pi * 1.22797135260752599) = Real.cos (2 * Real.pi * 0.02202864739247401) := by
        rw [show 2 * Real.pi * 1.22797135260752599 = Real.pi / 2 - 2 * Real.pi * 0.02202864739247401 + 2 * Real.pi by ring, Real.sin_add_two_pi, Real.sin_pi_div_two_sub]
      have e2 : Real.sin (2 * Real.pi * 4.24537336612274885) = Real.cos (2 * Real.pi * 0.00462663387725115) := by
        rw [show 2 * Real.pi * 4.24537336612274885 = Real.pi / 2 - 2 * Real.pi * 0.00462663387725115 + ((4 : ℕ) : ℝ) * (2 * Real.pi) by push_cast; ring, Real.sin_add_nat_mul_two_pi,
          Real.sin_pi_div_two_sub]
      have c1 : 0.99043658 ≤ Real.cos (2 * Real.pi * 0.02202864739247401) := by
        refine le_trans ?_ (cos_ge6 _)
        have s1 : 2 * Real.pi * 0.02202864739247401 ≤ 0.1384102 := by linarith
        have s0 : 0.13841 ≤ 2 * Real.pi * 0.02202864739247401 := by linarith
        generalize 2 * Real.pi * 0.02202864739247401 = s at *
        have q1 : s ^ 2 ≤ 0.1384102 ^ 2 := pow_le_pow_left₀ (by linarith) s1 2
        have q2 : 0.13841 ^ 4 ≤ s ^ 4 := pow_le_pow_left₀ (by norm_num) s0 4
        have q3 : s ^ 6 ≤ 0.1384102 ^ 6 := pow_le_pow_left₀ (by linarith) s1 6
        norm_num at *
        linarith
      have c2 : 0.99957746 ≤ Real.cos (2 * Real.pi * 0.00462663387725115) := by
        refine le_trans ?_ (Real.one_sub_sq_div_two_le_cos)
        have s1 : 2 * Real.pi * 0.00462663387725115 ≤ 0.0290701 := by linarith
        have s0 : 0 ≤ 2 * Real.pi * 0.00462663387725115 := by linarith
        generalize 2 * Real.pi * 0.00462663387725115 = s at *
        have q1 : s ^ 2 ≤ 0.0290701 ^ 2 := pow_le_pow_left₀ s0 s1 2
        norm_num at *
        linarith
      rw [e1, e2, neg_div, neg_le_neg_iff, le_div_iff₀ (by norm_num)]
      have := mul_le_mul (pow_le_pow_left₀ (by norm_num) c1 3) c2 (by norm_num) (pow_nonneg (le_trans (by norm_num) c1) 3)
      refine le_trans ?_ this
      norm_num
    refine le_trans (sub_le_sub_right v _) ?_
    norm_num

end Props
