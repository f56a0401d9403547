import Mathlib.Analysis.Complex.ExponentialBounds
import Mathlib.Analysis.SpecialFunctions.Pow.Real
import Mathlib.Tactic.IntervalCases
import Mathlib.Tactic.Linarith
import Mathlib.Tactic.Positivity
import Verif.Model.G16
import Verif.Spec.Constrained

/-!
# C132: G22
-/

set_option linter.unusedVariables false
set_option linter.unusedSimpArgs false

namespace Props
open Model Spec

/-- C132: the feasible solutions of G22 are a family with three parameters, the objective and the two temperatures `x[7]`, `x[8]`. -/
theorem C132_g22_feasible (y : List ℝ) :
    g22Problem.Feasible y ↔ Within g22Problem.xl g22Problem.xu y ∧
      col y 1 ^ (0.6 : ℝ) + col y 2 ^ (0.6 : ℝ) + col y 3 ^ (0.6 : ℝ) ≤ col y 0 ∧
      ∃ a b, col y 7 = a ∧ col y 8 = b ∧
        col y 1 = 250 / 9 * (a - 100) * Real.log ((330 - a) / (300 - a)) ∧
        col y 2 = 125 / 4 * (b - a) * Real.log ((440 - b) / (400 - b)) ∧
        col y 3 = 125 / 3 * (500 - b) * (Real.log 160 - 4.60517) ∧
        col y 4 = 100000 * (a - 100) ∧ col y 5 = 100000 * (b - a) ∧ col y 6 = 100000 * (500 - b) ∧
        col y 9 = 430 - a ∧ col y 10 = 440 + a - b ∧ col y 11 = 160 + b ∧
        col y 12 = 30 / Real.log ((330 - a) / (300 - a)) ∧ col y 13 = 40 / Real.log ((440 - b) / (400 - b)) ∧ col y 14 = 60 / (Real.log 160 - 4.60517) ∧
        col y 15 = 440 - b ∧ col y 16 = 160 ∧
        col y 17 = Real.log (330 - a) ∧ col y 18 = Real.log (300 - a) ∧ col y 19 = Real.log (440 - b) ∧ col y 20 = Real.log (400 - b) ∧ col y 21 = Real.log 160 := by
  have key : Within g22Problem.xl g22Problem.xu y → col y 7 < 300 ∧ col y 8 < 400 := fun h => by
    have hl : y.length = 22 := h.1
    have h7 := (h.2 7 (by omega)).2
    have h8 := (h.2 8 (by omega)).2
    simp only [g22Problem, List.getD_cons_succ, List.getD_cons_zero] at h7 h8
    unfold col
    norm_num at h7 h8 ⊢
    constructor <;> linarith
  have l160 : 0 < Real.log 160 - 4.60517 := by
    have : Real.log 160 = 7 * Real.log 2 + Real.log (5 / 4) := by
      rw [show (160 : ℝ) = 2 ^ 7 * (5 / 4) by norm_num, Real.log_mul (by norm_num) (by norm_num), Real.log_pow]; norm_num
    have h2 := Real.log_two_gt_d9
    have h3 : 0 < Real.log (5 / 4) := Real.log_pos (by norm_num)
    norm_num at h2 ⊢
    linarith
  unfold ConProblem.Feasible
  refine and_congr_right fun hw => ?_
  obtain ⟨h7, h8⟩ := key hw
  have p1 : 0 < Real.log (330 - col y 7) - Real.log (300 - col y 7) := sub_pos.2 (Real.log_lt_log (by linarith) (by linarith))
  have p2 : 0 < Real.log (440 - col y 8) - Real.log (400 - col y 8) := sub_pos.2 (Real.log_lt_log (by linarith) (by linarith))
  have d1 : Real.log ((330 - col y 7) / (300 - col y 7)) = Real.log (330 - col y 7) - Real.log (300 - col y 7) := Real.log_div (by linarith) (by linarith)
  have d2 : Real.log ((440 - col y 8) / (400 - col y 8)) = Real.log (440 - col y 8) - Real.log (400 - col y 8) := Real.log_div (by linarith) (by linarith)
  simp only [g22Problem, List.forall_mem_cons, List.not_mem_nil, false_implies, implies_true, and_true]
  constructor
  · rintro ⟨hg, e1, e2, e3, e4, e5, e6, e7, e8, e9, e10, e11, e12, e13, e14, e15, e16, e17, e18, e19⟩
    have x9 : col y 9 = 430 - col y 7 := by linarith
    have x10 : col y 10 = 440 + col y 7 - col y 8 := by linarith
    have x11 : col y 11 = 160 + col y 8 := by linarith
    have x15 : col y 15 = 440 - col y 8 := by linarith
    have x16 : col y 16 = 160 := by linarith
    have x17 : col y 17 = Real.log (330 - col y 7) := by rw [x9] at e12; rw [show 330 - col y 7 = 430 - col y 7 - 100 by ring]; linarith
    have x18 : col y 18 = Real.log (300 - col y 7) := by rw [show 300 - col y 7 = -col y 7 + 300 by ring]; linarith
    have x19 : col y 19 = Real.log (440 - col y 8) := by rw [x15] at e14; linarith
    have x20 : col y 20 = Real.log (400 - col y 8) := by rw [show 400 - col y 8 = -col y 8 + 400 by ring]; linarith
    have x21 : col y 21 = Real.log 160 := by rw [x16] at e16; linarith
    have q12 : col y 12 * (Real.log (330 - col y 7) - Real.log (300 - col y 7)) = 30 := by rw [x9, x17, x18] at e17; linarith
    have q13 : col y 13 * (Real.log (440 - col y 8) - Real.log (400 - col y 8)) = 40 := by rw [x10, x19, x20] at e18; linarith
    have q14 : col y 14 * (Real.log 160 - 4.60517) = 60 := by rw [x11, x21] at e19; linarith
    have x12 : col y 12 = 30 / (Real.log (330 - col y 7) - Real.log (300 - col y 7)) := by rw [eq_div_iff p1.ne']; exact q12
    have x13 : col y 13 = 40 / (Real.log (440 - col y 8) - Real.log (400 - col y 8)) := by rw [eq_div_iff p2.ne']; exact q13
    have x14 : col y 14 = 60 / (Real.log 160 - 4.60517) := by rw [eq_div_iff l160.ne']; exact q14
    refine ⟨by linarith, col y 7, col y 8, rfl, rfl, ?_, ?_, ?_, by linarith, by linarith, by linarith, x9, x10, x11, d1 ▸ x12, d2 ▸ x13, x14, x15, x16, x17, x18, x19, x20, x21⟩
    · rw [d1]
      generalize Real.log (330 - col y 7) - Real.log (300 - col y 7) = L at *
      have : col y 4 * L = 120 * col y 1 * (col y 12 * L) := by rw [show col y 4 = 120 * col y 1 * col y 12 by linarith]; ring
      rw [q12, show col y 4 = 100000 * (col y 7 - 100) by linarith] at this
      linarith
    · rw [d2]
      generalize Real.log (440 - col y 8) - Real.log (400 - col y 8) = L at *
      have : col y 5 * L = 80 * col y 2 * (col y 13 * L) := by rw [show col y 5 = 80 * col y 2 * col y 13 by linarith]; ring
      rw [q13, show col y 5 = 100000 * (col y 8 - col y 7) by linarith] at this
      linarith
    · generalize Real.log 160 - 4.60517 = L at *
      have : col y 6 * L = 40 * col y 3 * (col y 14 * L) := by rw [show col y 6 = 40 * col y 3 * col y 14 by linarith]; ring
      rw [q14, show col y 6 = 100000 * (500 - col y 8) by linarith] at this
      linarith
  · rintro ⟨hg, a, b, ha, hb, x1, x2, x3, x4, x5, x6, x9, x10, x11, x12, x13, x14, x15, x16, x17, x18, x19, x20, x21⟩
    subst ha hb
    rw [d1] at x1 x12
    rw [d2] at x2 x13
    have q12 : col y 12 * (Real.log (330 - col y 7) - Real.log (300 - col y 7)) = 30 := by rw [x12]; exact div_mul_cancel₀ _ p1.ne'
    have q13 : col y 13 * (Real.log (440 - col y 8) - Real.log (400 - col y 8)) = 40 := by rw [x13]; exact div_mul_cancel₀ _ p2.ne'
    have q14 : col y 14 * (Real.log 160 - 4.60517) = 60 := by rw [x14]; exact div_mul_cancel₀ _ l160.ne'
    refine ⟨by linarith, by linarith, by linarith, by linarith, by linarith, by linarith, by linarith, ?_, ?_, ?_, by linarith, by linarith, ?_, ?_, ?_, ?_, ?_, ?_, ?_, ?_⟩
    · generalize Real.log (330 - col y 7) - Real.log (300 - col y 7) = L at *
      have : 120 * col y 1 * col y 12 = 120 * (250 / 9) * (col y 7 - 100) * (col y 12 * L) := by rw [x1]; ring
      rw [this, q12, x4]; ring
    · generalize Real.log (440 - col y 8) - Real.log (400 - col y 8) = L at *
      have : 80 * col y 2 * col y 13 = 80 * (125 / 4) * (col y 8 - col y 7) * (col y 13 * L) := by rw [x2]; ring
      rw [this, q13, x5]; ring
    · generalize Real.log 160 - 4.60517 = L at *
      have : 40 * col y 3 * col y 14 = 40 * (125 / 3) * (500 - col y 8) * (col y 14 * L) := by rw [x3]; ring
      rw [this, q14, x6]; ring
    · rw [x17, x9, show 430 - col y 7 - 100 = 330 - col y 7 by ring]; ring
    · rw [x18, show -col y 7 + 300 = 300 - col y 7 by ring]; ring
    · rw [x19, x15]; ring
    · rw [x20, show -col y 8 + 400 = 400 - col y 8 by ring]; ring
    · rw [x21, x16]; ring
    · rw [x9, x17, x18]; linarith
    · rw [x10, x19, x20]; linarith
    · rw [x11, x21]; linarith

/-- C132: the documented solution of G22 misses the first equality constraint, by a little more than `2.9e-5`. -/
theorem C132_g22_refuted : ¬ g22Problem.Feasible g22Set ∧ (2.9 / 10 ^ 5 < |(g22Problem.H g22Set).getD 0 0| ∧ |(g22Problem.H g22Set).getD 0 0| < 3 / 10 ^ 5) := by
  have e : (g22Problem.H g22Set).getD 0 0 = 3007540.83940215595 - 100000 * 130.075408394314167 + 10 ^ 7 := by
    simp [g22Problem, g22Set, col]
  have h : 2.9 / 10 ^ 5 < |(g22Problem.H g22Set).getD 0 0| ∧ |(g22Problem.H g22Set).getD 0 0| < 3 / 10 ^ 5 := by
    rw [e]; norm_num [abs_of_neg, abs_lt, lt_abs]
  refine ⟨fun hf => ?_, h⟩
  have := hf.2.2 ((g22Problem.H g22Set).getD 0 0) (by simp [g22Problem])
  rw [this] at h
  norm_num at h

/-- There are feasible solutions: temperatures 130 and 170. -/
theorem g22_feasible_example : ∃ y, g22Problem.Feasible y ∧ col y 0 = 20000 := by
  have up : ∀ r : ℝ, 1 ≤ r → r ≤ 400 → 0 ≤ Real.log r ∧ Real.log r ≤ 6.25 := fun r h1 h2 => by
    refine ⟨Real.log_nonneg h1, ?_⟩
    rw [Real.log_le_iff_le_exp (by linarith)]
    have he : (2.7 : ℝ) ≤ Real.exp 1 := by have := Real.exp_one_gt_d9; norm_num at this ⊢; linarith
    have h6 : (2.7 : ℝ) ^ 6 ≤ Real.exp 6 := by
      rw [show (6 : ℝ) = (6 : ℕ) * 1 by norm_num, Real.exp_nat_mul]; exact pow_le_pow_left₀ (by norm_num) he 6
    have h25 : (1.25 : ℝ) ≤ Real.exp 0.25 := by have := Real.add_one_le_exp (0.25 : ℝ); norm_num at this ⊢; linarith
    have : Real.exp 6.25 = Real.exp 6 * Real.exp 0.25 := by rw [← Real.exp_add]; norm_num
    rw [this]
    have h7 : (2.7 : ℝ) ^ 6 * 1.25 ≤ Real.exp 6 * Real.exp 0.25 := mul_le_mul h6 h25 (by norm_num) (Real.exp_pos _).le
    norm_num at h7
    linarith
  have lo : ∀ r : ℝ, 0 < r → 1 - r⁻¹ ≤ Real.log r ∧ Real.log r ≤ r - 1 := fun r h => ⟨Real.one_sub_inv_le_log_of_pos h, Real.log_le_sub_one_of_pos h⟩
  have l1 := lo (200 / 170) (by norm_num)
  have l2 := lo (270 / 230) (by norm_num)
  have l160 : Real.log 160 = 7 * Real.log 2 + Real.log (5 / 4) := by
    rw [show (160 : ℝ) = 2 ^ 7 * (5 / 4) by norm_num, Real.log_mul (by norm_num) (by norm_num), Real.log_pow]; norm_num
  have t1 := Real.log_two_gt_d9
  have t2 := Real.log_two_lt_d9
  have t3 := lo (5 / 4) (by norm_num)
  have l3 : 0.4 ≤ Real.log 160 - 4.60517 ∧ Real.log 160 - 4.60517 ≤ 0.6 := by
    norm_num at t1 t2 t3 ⊢
    constructor <;> linarith
  have dv : ∀ c L B : ℝ, 0 < c → 0 < L → c ≤ B * L → 0 ≤ c / L ∧ c / L ≤ B := fun c L B hc hL h => ⟨by positivity, (div_le_iff₀ hL).2 h⟩
  have u200 := up 200 (by norm_num) (by norm_num)
  have u170 := up 170 (by norm_num) (by norm_num)
  have u270 := up 270 (by norm_num) (by norm_num)
  have u230 := up 230 (by norm_num) (by norm_num)
  have u160 := up 160 (by norm_num) (by norm_num)
  generalize hL1 : Real.log (200 / 170) = L1 at *
  generalize hL2 : Real.log (270 / 230) = L2 at *
  generalize hL3 : Real.log 160 - 4.60517 = L3 at *
  norm_num at l1 l2 l3
  have d1 := dv 30 L1 500 (by norm_num) (by linarith) (by linarith)
  have d2 := dv 40 L2 500 (by norm_num) (by linarith) (by linarith)
  have d3 := dv 60 L3 500 (by norm_num) (by linarith) (by linarith)
  have pw : ∀ v : ℝ, 0 ≤ v → v ≤ 10 ^ 5 → v ^ (0.6 : ℝ) ≤ 1000 := fun v h0 h1 => by
    calc v ^ (0.6 : ℝ) ≤ ((10 : ℝ) ^ 5) ^ (0.6 : ℝ) := Real.rpow_le_rpow h0 h1 (by norm_num)
      _ = 1000 := by rw [← Real.rpow_natCast, ← Real.rpow_mul (by norm_num)]; norm_num
  have w1 := pw (2500 / 3 * L1) (by linarith) (by norm_num; linarith)
  have w2 := pw (1250 * L2) (by linarith) (by norm_num; linarith)
  have w3 := pw (13750 * L3) (by linarith) (by norm_num; linarith)
  refine ⟨[20000, 2500 / 3 * L1, 1250 * L2, 13750 * L3, 3000000, 4000000, 33000000, 130, 170, 300, 400, 330, 30 / L1, 40 / L2, 60 / L3, 270, 160,
    Real.log 200, Real.log 170, Real.log 270, Real.log 230, Real.log 160], ?_, by simp [col]⟩
  rw [C132_g22_feasible]
  refine ⟨⟨rfl, fun i hi => ?_⟩, ?_, 130, 170, ?_⟩
  · have hi' : i < 22 := hi
    norm_num at u200 u170 u270 u230 u160
    interval_cases i <;> simp only [g22Problem, List.getD_cons_succ, List.getD_cons_zero] <;> norm_num <;> first | (constructor <;> linarith) | linarith
  · simp only [col, List.getD_cons_succ, List.getD_cons_zero]
    linarith
  · simp only [col, List.getD_cons_succ, List.getD_cons_zero]
    norm_num at hL1 hL2 hL3 ⊢
    simp [hL1, hL2, hL3]

end Props
