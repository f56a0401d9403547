import Mathlib.Tactic.IntervalCases
import Mathlib.Tactic.Linarith
import Mathlib.Tactic.Positivity
import Mathlib.Analysis.MeanInequalitiesPow
import Mathlib.Analysis.SpecialFunctions.Log.Deriv
import Mathlib.Analysis.Complex.ExponentialBounds
import Verif.Model.GMore

/-!
# C132, continued: the optimum of G21
-/

namespace Props
open Spec Model

set_option linter.unusedVariables false

/-- The temperature of the optimum. -/
noncomputable def g21T : ℝ := (700 - Real.exp 6.2146) / 2

/-- The flow of the optimum. -/
noncomputable def g21W : ℝ := 25 * (Real.log (900 - g21T) - Real.log (g21T + 300))

/-- The optimum of G21, exactly. -/
noncomputable def g21Star : List ℝ :=
  [35 * g21W ^ (0.6 : ℝ), 0, g21W, g21T, Real.log (900 - g21T), Real.log (g21T + 300), 6.2146]

theorem g21_exp_lt : Real.exp 6.2146 < 500 := by
  have l := Real.log_two_gt_d9
  have h1 : Real.exp 6.2146 ≤ Real.exp (9 * Real.log 2 - 0.02372462) := Real.exp_le_exp.2 (by linarith)
  have h2 : Real.exp (9 * Real.log 2) = 512 := by
    rw [show 9 * Real.log 2 = Real.log (2 ^ (9 : ℕ)) by rw [Real.log_pow]; norm_num, Real.exp_log (by norm_num)]; norm_num
  rw [Real.exp_sub, h2] at h1
  have h3 := Real.quadratic_le_exp_of_nonneg (show (0 : ℝ) ≤ 0.02372462 by norm_num)
  refine h1.trans_lt ?_
  rw [div_lt_iff₀ (Real.exp_pos _)]
  norm_num at h3 ⊢
  linarith

theorem g21_exp_gt : 499.85 < Real.exp 6.2146 := by
  have l := Real.log_two_lt_d9
  have h1 : Real.exp (9 * Real.log 2 - 0.0237247) ≤ Real.exp 6.2146 := Real.exp_le_exp.2 (by linarith)
  have h2 : Real.exp (9 * Real.log 2) = 512 := by
    rw [show 9 * Real.log 2 = Real.log (2 ^ (9 : ℕ)) by rw [Real.log_pow]; norm_num, Real.exp_log (by norm_num)]; norm_num
  rw [sub_eq_add_neg, Real.exp_add, h2] at h1
  have h3 := Real.add_one_le_exp (-0.0237247 : ℝ)
  norm_num at h1 h3 ⊢
  linarith

theorem g21T_bounds : 100 < g21T ∧ g21T < 100.075 := by
  have h1 := g21_exp_lt
  have h2 := g21_exp_gt
  unfold g21T
  constructor <;> norm_num at * <;> linarith

theorem g21W_bounds : 17.32 < g21W ∧ g21W < 25 * Real.log 2 ∧ g21W < 17.329 := by
  obtain ⟨t1, t2⟩ := g21T_bounds
  have l1 := Real.log_two_gt_d9
  have l2 := Real.log_two_lt_d9
  have key : g21W < 25 * Real.log 2 := by
    unfold g21W
    rw [← Real.log_div (by linarith) (by linarith)]
    have : Real.log ((900 - g21T) / (g21T + 300)) < Real.log 2 :=
      Real.log_lt_log (div_pos (by linarith) (by linarith)) (by rw [div_lt_iff₀ (by linarith)]; linarith)
    linarith
  refine ⟨?_, key, by linarith⟩
  unfold g21W
  rw [← Real.log_div (by linarith) (by linarith)]
  have h1 : (2 * 0.9997 : ℝ) ≤ (900 - g21T) / (g21T + 300) := by
    rw [le_div_iff₀ (by linarith)]; norm_num at t2 ⊢; linarith
  have h2 : Real.log (2 * 0.9997) ≤ Real.log ((900 - g21T) / (g21T + 300)) := Real.log_le_log (by norm_num) h1
  rw [Real.log_mul (by norm_num) (by norm_num)] at h2
  have h3 := Real.one_sub_inv_le_log_of_pos (show (0 : ℝ) < 0.9997 by norm_num)
  norm_num at h2 h3 l1 ⊢
  linarith

theorem g21_power : 5.535 < g21W ^ (0.6 : ℝ) ∧ g21W ^ (0.6 : ℝ) < 5.537 := by
  obtain ⟨w1, _, w2⟩ := g21W_bounds
  have hw : 0 ≤ g21W := by linarith
  have hz : (g21W ^ (0.6 : ℝ)) ^ (5 : ℕ) = g21W ^ (3 : ℕ) := by
    rw [← Real.rpow_natCast, ← Real.rpow_mul hw, ← Real.rpow_natCast]; norm_num
  have hz0 : 0 ≤ g21W ^ (0.6 : ℝ) := Real.rpow_nonneg hw _
  have a1 : (17.32 : ℝ) ^ 3 ≤ g21W ^ 3 := pow_le_pow_left₀ (by norm_num) w1.le 3
  have a2 : g21W ^ 3 ≤ (17.329 : ℝ) ^ 3 := pow_le_pow_left₀ hw w2.le 3
  constructor
  · by_contra h
    push Not at h
    have := pow_le_pow_left₀ hz0 h 5
    norm_num at this a1 hz
    linarith
  · by_contra h
    push Not at h
    have := pow_le_pow_left₀ (by norm_num) h 5
    norm_num at this a2 hz
    linarith

theorem g21_star_feasible : g21Problem.Feasible g21Star := by
  obtain ⟨t1, t2⟩ := g21T_bounds
  obtain ⟨w1, w2, w3⟩ := g21W_bounds
  obtain ⟨z1, z2⟩ := g21_power
  have l1 := Real.log_two_gt_d9
  have l2 := Real.log_two_lt_d9
  have c4 : (6.3 : ℝ) ≤ Real.log (900 - g21T) ∧ Real.log (900 - g21T) ≤ 6.7 := by
    constructor
    · have h : Real.log ((2 : ℝ) ^ (19 : ℕ)) ≤ Real.log (799 ^ (2 : ℕ)) := Real.log_le_log (by norm_num) (by norm_num)
      rw [Real.log_pow, Real.log_pow] at h
      have h' : Real.log 799 ≤ Real.log (900 - g21T) := Real.log_le_log (by norm_num) (by linarith)
      norm_num at h ⊢
      linarith
    · have h : Real.log ((800 : ℝ) ^ (17 : ℕ)) ≤ Real.log (2 ^ (164 : ℕ)) := Real.log_le_log (by norm_num) (by norm_num)
      rw [Real.log_pow, Real.log_pow] at h
      have h' : Real.log (900 - g21T) ≤ Real.log 800 := Real.log_le_log (by linarith) (by linarith)
      norm_num at h ⊢
      linarith
  have c5 : (5.9 : ℝ) ≤ Real.log (g21T + 300) ∧ Real.log (g21T + 300) ≤ 6.4 := by
    constructor
    · have h : Real.log ((2 : ℝ) ^ (43 : ℕ)) ≤ Real.log (400 ^ (5 : ℕ)) := Real.log_le_log (by norm_num) (by norm_num)
      rw [Real.log_pow, Real.log_pow] at h
      have h' : Real.log 400 ≤ Real.log (g21T + 300) := Real.log_le_log (by norm_num) (by linarith)
      norm_num at h ⊢
      linarith
    · have h : Real.log (g21T + 300) ≤ Real.log (2 ^ (9 : ℕ)) := Real.log_le_log (by linarith) (by norm_num; linarith)
      rw [Real.log_pow] at h
      norm_num at h ⊢
      linarith
  refine ⟨⟨rfl, fun i hi => ?_⟩, fun g hg => ?_, fun h hh => ?_⟩
  · simp only [g21Star, List.length_cons, List.length_nil] at hi
    interval_cases i <;>
      simp only [g21Problem, g21Star, List.getD_cons_zero, List.getD_cons_succ] <;> norm_num at * <;> constructor <;> linarith
  · simp only [g21Problem, List.mem_singleton] at hg
    subst hg
    simp only [col, g21Star, List.getD_cons_zero, List.getD_cons_succ]
    rw [Real.zero_rpow (by norm_num)]
    linarith
  · simp only [g21Problem, col, g21Star, List.getD_cons_zero, List.getD_cons_succ, List.mem_cons, List.not_mem_nil, or_false] at hh
    rcases hh with rfl | rfl | rfl | rfl | rfl
    · unfold g21W; ring
    · norm_num; ring
    · rw [neg_add_eq_sub, sub_eq_zero, neg_add_eq_sub]
    · ring
    · rw [show -2 * g21T + 700 = Real.exp 6.2146 by unfold g21T; ring, Real.log_exp]; ring

/-- Every feasible row of G21 has at least the value of `g21Star`. -/
theorem g21_lower (y : List ℝ) (hy : g21Problem.Feasible y) : 35 * g21W ^ (0.6 : ℝ) ≤ col y 0 := by
  obtain ⟨⟨hl, hb⟩, hg, hh⟩ := hy
  obtain ⟨t1, t2⟩ := g21T_bounds
  obtain ⟨w1, w2, w3⟩ := g21W_bounds
  simp only [g21Problem, List.length_cons, List.length_nil] at hl
  have b : ∀ i < 7, g21Problem.xl.getD i 0 ≤ col y i ∧ col y i ≤ g21Problem.xu.getD i 0 := fun i hi => hb i (by omega)
  have b1 := b 1 (by omega)
  have b2 := b 2 (by omega)
  have b3 := b 3 (by omega)
  simp only [g21Problem, List.getD_cons_zero, List.getD_cons_succ] at b1 b2 b3
  simp only [g21Problem, List.mem_cons, List.not_mem_nil, or_false, forall_eq_or_imp, forall_eq] at hg hh
  obtain ⟨e1, e2, e3, e4, e5⟩ := hh
  clear hb b
  generalize col y 0 = x0 at *
  generalize col y 1 = x1 at *
  generalize col y 2 = x2 at *
  generalize col y 3 = t at *
  generalize col y 4 = x4 at *
  generalize col y 5 = x5 at *
  generalize col y 6 = x6 at *
  have f1 : (t - 300) * (x2 - 25 * (x4 - x5)) = 0 := by linarith
  have f2 : (t - 100) * (155.365 - 25 * x6 - x1) = 0 := by linear_combination e2
  have q4 : x4 = Real.log (900 - t) := by rw [show 900 - t = -t + 900 by ring]; linarith
  have q5 : x5 = Real.log (t + 300) := by linarith
  have q6 : x6 = Real.log (700 - 2 * t) := by rw [show 700 - 2 * t = -2 * t + 700 by ring]; linarith
  have hp1 : 0 ≤ x1 ^ (0.6 : ℝ) := Real.rpow_nonneg b1.1 _
  suffices H : g21W ≤ x1 + x2 by
    have s1 : g21W ^ (0.6 : ℝ) ≤ (x1 + x2) ^ (0.6 : ℝ) := Real.rpow_le_rpow (by linarith) H (by norm_num)
    have s2 := Real.rpow_add_le_add_rpow b1.1 b2.1 (show (0 : ℝ) ≤ 0.6 by norm_num) (by norm_num)
    linarith
  rcases mul_eq_zero.1 f1 with h | h
  · -- `t = 300`: the flow `x1` would exceed its bound
    exfalso
    have ht : t = 300 := by linarith
    have g2 : 155.365 - 25 * x6 - x1 = 0 := by
      rcases mul_eq_zero.1 f2 with h' | h'
      · linarith
      · exact h'
    rw [ht] at q6
    have h100 : Real.log ((10 : ℝ) ^ (31 : ℕ)) ≤ Real.log (2 ^ (103 : ℕ)) := Real.log_le_log (by norm_num) (by norm_num)
    rw [Real.log_pow, Real.log_pow] at h100
    have e100 : Real.log (700 - 2 * 300 : ℝ) = 2 * Real.log 10 := by
      rw [show (700 - 2 * 300 : ℝ) = 10 ^ (2 : ℕ) by norm_num, Real.log_pow]; norm_num
    have l2 := Real.log_two_lt_d9
    rw [e100] at q6
    norm_num at h100 g2 l2
    linarith
  · have hx2 : x2 = 25 * (Real.log (900 - t) - Real.log (t + 300)) := by rw [← q4, ← q5]; linarith
    rcases mul_eq_zero.1 f2 with h' | h'
    · have ht : t = 100 := by linarith
      have : x2 = 25 * Real.log 2 := by
        rw [hx2, ht, ← Real.log_div (by norm_num) (by norm_num)]; norm_num
      linarith [b1.1]
    · have hx1 : x1 = 155.365 - 25 * Real.log (700 - 2 * t) := by rw [← q6]; linarith
      have hpos : 0 < 700 - 2 * t := by linarith [b3.2]
      have htle : g21T ≤ t := by
        have h6 : Real.log (700 - 2 * t) ≤ 6.2146 := by
          have := b1.1
          rw [hx1] at this
          norm_num at this ⊢
          linarith
        have := Real.exp_le_exp.2 h6
        rw [Real.exp_log hpos] at this
        unfold g21T
        linarith
      have hE : Real.log (700 - 2 * g21T) = 6.2146 := by
        rw [show 700 - 2 * g21T = Real.exp 6.2146 by unfold g21T; ring, Real.log_exp]
      have hEp : 0 < 700 - 2 * g21T := by linarith
      have key : (900 - g21T) * ((t + 300) * (700 - 2 * t)) ≤ (900 - t) * ((g21T + 300) * (700 - 2 * g21T)) := by
        have : (900 - t) * ((g21T + 300) * (700 - 2 * g21T)) - (900 - g21T) * ((t + 300) * (700 - 2 * t)) =
            (t - g21T) * (1800 * (t + g21T) - 2 * (t * g21T) - 300000) := by ring
        have h2 : 0 ≤ 1800 * (t + g21T) - 2 * (t * g21T) - 300000 := by
          have h3 : 0 ≤ (t - 100) * (300 - t) := mul_nonneg (by linarith [b3.1]) (by linarith [b3.2])
          have h4 : t * g21T ≤ t * 100.075 := mul_le_mul_of_nonneg_left t2.le (by linarith [b3.1])
          norm_num at h4
          linarith [b3.1]
        have := mul_nonneg (sub_nonneg.2 htle) h2
        linarith
      have a1 : 0 < 900 - g21T := by linarith
      have a2 : 0 < t + 300 := by linarith [b3.1]
      have a3 : 0 < 900 - t := by linarith [b3.2]
      have a4 : 0 < g21T + 300 := by linarith
      have hlog := Real.log_le_log (by positivity) key
      rw [Real.log_mul a1.ne' (by positivity), Real.log_mul a2.ne' hpos.ne', Real.log_mul a3.ne' (by positivity), Real.log_mul a4.ne' hEp.ne', hE] at hlog
      rw [hx1, hx2]
      unfold g21W
      norm_num at hlog ⊢
      linarith

/-- C132, G21: the exact optimum, and its value. -/
theorem C132_g21_optimum : g21Problem.OptimalUpTo 0 g21Star ∧ 193.725 < g21Problem.F g21Star ∧ g21Problem.F g21Star < 193.795 := by
  obtain ⟨z1, z2⟩ := g21_power
  have e : g21Problem.F g21Star = 35 * g21W ^ (0.6 : ℝ) := rfl
  refine ⟨⟨g21_star_feasible, fun y hy => ?_⟩, ?_, ?_⟩
  · rw [e, sub_zero]; exact g21_lower y hy
  · rw [e]; norm_num at z1 ⊢; linarith
  · rw [e]; norm_num at z2 ⊢; linarith

/-- C132, G21: refuted. The documented solution is not feasible, and it has a smaller value than every feasible row, but by less than 0.071 than the optimum. -/
theorem C132_g21_refuted : ¬ g21Problem.Feasible g21Set ∧ (∀ y, g21Problem.Feasible y → g21Problem.F g21Set < g21Problem.F y) ∧
    g21Problem.F g21Star < g21Problem.F g21Set + 0.071 := by
  have hF : ∀ y, g21Problem.Feasible y → g21Problem.F g21Set < g21Problem.F y := by
    intro y hy
    have h1 := g21_lower y hy
    have h2 := g21_power.1
    have e : g21Problem.F g21Set = 193.724510070034967 := rfl
    have e' : g21Problem.F y = col y 0 := rfl
    rw [e, e']
    norm_num at h2 ⊢
    linarith
  refine ⟨fun h => lt_irrefl _ (hF _ h), hF, ?_⟩
  have h := C132_g21_optimum.2.2
  have e : g21Problem.F g21Set = 193.724510070034967 := rfl
  rw [e]
  norm_num at h ⊢
  linarith

/-- C132, G21: the documented solution misses the second equality constraint by `0.0001`. -/
theorem C132_g21_violation : ∃ h ∈ g21Problem.H g21Set, 0.00009999 < h ∧ h < 0.00010001 := by
  refine ⟨_, List.mem_cons_of_mem _ List.mem_cons_self, ?_⟩
  simp only [col, g21Set, List.getD_cons_zero, List.getD_cons_succ]
  norm_num

/-- C132: for every row the evaluation of G21 sets as many constraint values as the problem declares (g.py:1056). -/
theorem C132_shapes_g21 (x : List ℝ) : ((g21Problem.G x).length, (g21Problem.H x).length) = (1, 5) ∧ g21Problem.xl.length = 7 ∧ g21Problem.xu.length = 7 := ⟨rfl, rfl, rfl⟩

example : g21Problem.Feasible g21Star := g21_star_feasible

end Props
