import Mathlib.Tactic.IntervalCases
import Mathlib.Tactic.Linarith
import Mathlib.Tactic.LinearCombination
import Mathlib.Tactic.Positivity
import Mathlib.Analysis.SpecialFunctions.Exponential
import Mathlib.Analysis.Complex.ExponentialBounds
import Verif.Model.GMore

/-!
# C132, continued: documented optima of G13, G14, G18 and G19
-/

namespace Props
open Spec Model

set_option linter.unusedVariables false

/-- Six points of the plane whose six short diagonals have length at most one span at most the (signed) area `√3 / 2`: the difference is a sum of squares. -/
private theorem gr_hexagon {s a0 b0 a1 b1 a2 b2 a3 b3 a4 b4 a5 b5 : ℝ} (hs : s ^ 2 = 3) (hs0 : 0 ≤ s) :
    1 / 2 * ((a0 * b1 - a1 * b0) + (a1 * b2 - a2 * b1) + (a2 * b3 - a3 * b2) + (a3 * b4 - a4 * b3) + (a4 * b5 - a5 * b4) + (a5 * b0 - a0 * b5)) ≤
      s / 12 * (((a0 - a2) ^ 2 + (b0 - b2) ^ 2) + ((a2 - a4) ^ 2 + (b2 - b4) ^ 2) + ((a4 - a0) ^ 2 + (b4 - b0) ^ 2) +
        ((a1 - a3) ^ 2 + (b1 - b3) ^ 2) + ((a3 - a5) ^ 2 + (b3 - b5) ^ 2) + ((a5 - a1) ^ 2 + (b5 - b1) ^ 2)) := by
  have p1 := sq_nonneg ((a0 - a1 / 2 - a2 / 2 + a3 - a4 / 2 - a5 / 2) - s * (b1 / 2 - b2 / 2 + b4 / 2 - b5 / 2))
  have p2 := sq_nonneg (s * (a1 / 2 - a2 / 2 + a4 / 2 - a5 / 2) + (b0 - b1 / 2 - b2 / 2 + b3 - b4 / 2 - b5 / 2))
  have p3 := sq_nonneg ((a0 + a1 / 2 - a2 / 2 - a3 - a4 / 2 + a5 / 2) - s * (b1 / 2 + b2 / 2 - b4 / 2 - b5 / 2))
  have p4 := sq_nonneg (s * (a1 / 2 + a2 / 2 - a4 / 2 - a5 / 2) + (b0 + b1 / 2 - b2 / 2 - b3 - b4 / 2 + b5 / 2))
  have q := mul_nonneg (by positivity : 0 ≤ s / 12) (add_nonneg (add_nonneg (add_nonneg p1 p2) p3) p4)
  have e : s / 12 * (((a0 - a2) ^ 2 + (b0 - b2) ^ 2) + ((a2 - a4) ^ 2 + (b2 - b4) ^ 2) + ((a4 - a0) ^ 2 + (b4 - b0) ^ 2) +
        ((a1 - a3) ^ 2 + (b1 - b3) ^ 2) + ((a3 - a5) ^ 2 + (b3 - b5) ^ 2) + ((a5 - a1) ^ 2 + (b5 - b1) ^ 2)) -
      1 / 2 * ((a0 * b1 - a1 * b0) + (a1 * b2 - a2 * b1) + (a2 * b3 - a3 * b2) + (a3 * b4 - a4 * b3) + (a4 * b5 - a5 * b4) + (a5 * b0 - a0 * b5)) =
      s / 12 * (((a0 - a1 / 2 - a2 / 2 + a3 - a4 / 2 - a5 / 2) - s * (b1 / 2 - b2 / 2 + b4 / 2 - b5 / 2)) ^ 2 +
        (s * (a1 / 2 - a2 / 2 + a4 / 2 - a5 / 2) + (b0 - b1 / 2 - b2 / 2 + b3 - b4 / 2 - b5 / 2)) ^ 2 +
        ((a0 + a1 / 2 - a2 / 2 - a3 - a4 / 2 + a5 / 2) - s * (b1 / 2 + b2 / 2 - b4 / 2 - b5 / 2)) ^ 2 +
        (s * (a1 / 2 + a2 / 2 - a4 / 2 - a5 / 2) + (b0 + b1 / 2 - b2 / 2 - b3 - b4 / 2 + b5 / 2)) ^ 2) := by
    linear_combination (-(s / 12 * ((b1 / 2 - b2 / 2 + b4 / 2 - b5 / 2) ^ 2 + (a1 / 2 - a2 / 2 + a4 / 2 - a5 / 2) ^ 2 + (b1 / 2 + b2 / 2 - b4 / 2 - b5 / 2) ^ 2 + (a1 / 2 + a2 / 2 - a4 / 2 - a5 / 2) ^ 2) +
      1 / 6 * (-(a0 - a1 / 2 - a2 / 2 + a3 - a4 / 2 - a5 / 2) * (b1 / 2 - b2 / 2 + b4 / 2 - b5 / 2) + (a1 / 2 - a2 / 2 + a4 / 2 - a5 / 2) * (b0 - b1 / 2 - b2 / 2 + b3 - b4 / 2 - b5 / 2) -
        (a0 + a1 / 2 - a2 / 2 - a3 - a4 / 2 + a5 / 2) * (b1 / 2 + b2 / 2 - b4 / 2 - b5 / 2) + (a1 / 2 + a2 / 2 - a4 / 2 - a5 / 2) * (b0 + b1 / 2 - b2 / 2 - b3 - b4 / 2 + b5 / 2)))) * hs
  linarith

/-- C132, G18: no feasible solution has an objective value below `-√3 / 2`. -/
theorem C132_g18_bound (y : List ℝ) (h : g18Problem.Feasible y) : -(√3 / 2) ≤ g18Problem.F y := by
  obtain ⟨-, hg, -⟩ := h
  simp only [g18Problem, List.forall_mem_cons, List.not_mem_nil, false_implies, implies_true, and_true] at hg ⊢
  obtain ⟨g1, -, g3, g4, -, g6, g7, -, g9, -⟩ := hg
  have key := gr_hexagon (a0 := 0) (b0 := 0) (a1 := col y 0) (b1 := col y 1) (a2 := col y 2) (b2 := col y 3) (a3 := 0) (b3 := col y 8) (a4 := col y 4) (b4 := col y 5) (a5 := col y 6) (b5 := col y 7)
    (Real.sq_sqrt (by norm_num : (0 : ℝ) ≤ 3)) (Real.sqrt_nonneg 3)
  have hs := Real.sqrt_nonneg 3
  have hb : √3 / 12 * (((0 - col y 2) ^ 2 + (0 - col y 3) ^ 2) + ((col y 2 - col y 4) ^ 2 + (col y 3 - col y 5) ^ 2) + ((col y 4 - 0) ^ 2 + (col y 5 - 0) ^ 2) +
      ((col y 0 - 0) ^ 2 + (col y 1 - col y 8) ^ 2) + ((0 - col y 6) ^ 2 + (col y 8 - col y 7) ^ 2) + ((col y 6 - col y 0) ^ 2 + (col y 7 - col y 1) ^ 2)) ≤ √3 / 12 * 6 := by
    refine mul_le_mul_of_nonneg_left ?_ (by positivity)
    linarith [sq_nonneg (col y 0)]
  have kb := key.trans hb
  norm_num at kb ⊢
  linarith

/-- C132, G18: the bound is attained, so `-√3 / 2` is the optimal value. -/
theorem C132_g18_attained : ∃ y, g18Problem.OptimalUpTo 0 y ∧ g18Problem.F y = -(√3 / 2) := by
  have hs : √3 ^ 2 = 3 := Real.sq_sqrt (by norm_num)
  have h0 : 0 ≤ √3 := Real.sqrt_nonneg 3
  have h2 : √3 ≤ 2 := by rw [Real.sqrt_le_left (by norm_num)]; norm_num
  have hF : g18Problem.F [1, 0, 1 / 2, √3 / 2, 1, 0, 1 / 2, √3 / 2, 0] = -(√3 / 2) := by
    norm_num [g18Problem, col]
    ring
  refine ⟨[1, 0, 1 / 2, √3 / 2, 1, 0, 1 / 2, √3 / 2, 0], ⟨⟨⟨rfl, ?_⟩, ?_, by simp [g18Problem]⟩, fun y hy => ?_⟩, hF⟩
  · intro i hi
    have : i < 9 := hi
    interval_cases i <;> norm_num [g18Problem] <;> constructor <;> linarith
  · have e : (√3 / 2) ^ 2 = 3 / 4 := by rw [div_pow, hs]; norm_num
    have e2 : (0 - √3 / 2) ^ 2 = 3 / 4 := by rw [zero_sub, neg_sq, e]
    simp only [g18Problem, col, List.forall_mem_cons, List.not_mem_nil, false_implies, implies_true, and_true, List.getD_cons_zero, List.getD_cons_succ, e, e2, sub_zero]
    norm_num
    linarith
  · rw [hF, sub_zero]
    exact C132_g18_bound y hy

/-- C132, G18 is violated as it stands: the documented solution is feasible, but another feasible solution is better by more than `2.9 · 10⁻⁴`. -/
theorem C132_g18_refuted : g18Problem.Feasible g18Set ∧ ∃ y, g18Problem.Feasible y ∧ g18Problem.F y < g18Problem.F g18Set - 2.9 / 10 ^ 4 := by
  refine ⟨⟨⟨rfl, ?_⟩, ?_, by simp [g18Problem]⟩, ?_⟩
  · intro i hi
    have : i < 9 := hi
    interval_cases i <;> norm_num [g18Problem, g18Set]
  · norm_num [g18Problem, g18Set, col]
  · obtain ⟨y, ⟨hy, -⟩, hF⟩ := C132_g18_attained
    refine ⟨y, hy, ?_⟩
    rw [hF]
    have h3 : 1.7320508 ≤ √3 := Real.le_sqrt_of_sq_le (by norm_num)
    norm_num [g18Problem, g18Set, col] at h3 ⊢
    linarith

/-- C132, G18, what holds of the documented solution: it is optimal up to `3 · 10⁻⁴`. -/
theorem C132_g18_partial : g18Problem.OptimalUpTo (3 / 10 ^ 4) g18Set := by
  refine ⟨C132_g18_refuted.1, fun y hy => le_trans ?_ (C132_g18_bound y hy)⟩
  have h3 : √3 ≤ 1.7320509 := by rw [Real.sqrt_le_left (by norm_num)]; norm_num
  norm_num [g18Problem, g18Set, col] at h3 ⊢
  linarith

/-- C132, G19: no feasible solution is better than the documented one by more than `10⁻⁶`, and its constraint values are at most `10⁻¹³` (over the real numbers it is not feasible exactly, which is what is
missing here). -/
theorem C132_g19_partial : Within g19Problem.xl g19Problem.xu g19Set ∧ (∀ g ∈ g19Problem.G g19Set, g ≤ 1 / 10 ^ 13) ∧
    ∀ y, g19Problem.Feasible y → g19Problem.F g19Set - 1 / 10 ^ 6 ≤ g19Problem.F y := by
  have r5 : List.range 5 = [0, 1, 2, 3, 4] := rfl
  have r10 : List.range 10 = [0, 1, 2, 3, 4, 5, 6, 7, 8, 9] := rfl
  refine ⟨⟨rfl, ?_⟩, ?_, ?_⟩
  · intro i hi
    have : i < 15 := hi
    interval_cases i <;> norm_num [g19Problem, g19Set]
  · norm_num [g19Problem, g19Set, col, r5, r10, rowDot, g19Tail, cols, g19A, g19C, g19D, g19E]
  · rintro y ⟨⟨hl, hb⟩, hg, -⟩
    have hv : g19Problem.F g19Set ≤ 32.65559296 := by
      norm_num [g19Problem, g19Set, col, r5, r10, rowDot, g19Tail, cols, g19B, g19C, g19D]
    refine le_trans (sub_le_sub_right hv _) ?_
    have b : ∀ i, i < 15 → (0 ≤ col y i ∧ col y i ≤ 10) := fun i hi => by
      have := hb i (by rw [hl]; exact hi)
      interval_cases i <;> exact this
    have b0 := b 0 (by norm_num); have b1 := b 1 (by norm_num); have b2 := b 2 (by norm_num); have b3 := b 3 (by norm_num); have b4 := b 4 (by norm_num)
    have b5 := b 5 (by norm_num); have b6 := b 6 (by norm_num); have b7 := b 7 (by norm_num); have b8 := b 8 (by norm_num); have b9 := b 9 (by norm_num)
    have c0 := (b 10 (by norm_num)).1; have c1 := (b 11 (by norm_num)).1; have c2 := (b 12 (by norm_num)).1; have c3 := (b 13 (by norm_num)).1; have c4 := (b 14 (by norm_num)).1
    simp only [g19Problem, r5, r10, rowDot, g19Tail, cols, g19A, g19B, g19C, g19D, g19E, List.map_cons, List.map_nil, List.getD_cons_zero, List.getD_cons_succ, List.zipWith_cons_cons, List.zipWith, List.sum_cons, List.sum_nil,
      List.forall_mem_cons, List.not_mem_nil, false_implies, implies_true, and_true, Nat.reduceAdd, add_zero] at hg ⊢
    obtain ⟨g1, g2, g3, g4, g5⟩ := hg
    clear hl hb b hv r5 r10
    generalize col y 0 = x0 at *
    generalize col y 1 = x1 at *
    generalize col y 2 = x2 at *
    generalize col y 3 = x3 at *
    generalize col y 4 = x4 at *
    generalize col y 5 = x5 at *
    generalize col y 6 = x6 at *
    generalize col y 7 = x7 at *
    generalize col y 8 = x8 at *
    generalize col y 9 = x9 at *
    generalize col y 10 = u0 at *
    generalize col y 11 = u1 at *
    generalize col y 12 = u2 at *
    generalize col y 13 = u3 at *
    generalize col y 14 = u4 at *
    have m1 := mul_le_mul_of_nonneg_left g1 (by norm_num : (0 : ℝ) ≤ 0.3707648510)
    have m2 := mul_le_mul_of_nonneg_left g2 (by norm_num : (0 : ℝ) ≤ 0.2784560342)
    have m3 := mul_le_mul_of_nonneg_left g3 (by norm_num : (0 : ℝ) ≤ 0.5238384892)
    have m4 := mul_le_mul_of_nonneg_left g4 (by norm_num : (0 : ℝ) ≤ 0.3886201252)
    have m5 := mul_le_mul_of_nonneg_left g5 (by norm_num : (0 : ℝ) ≤ 0.2981567280)
    have cub : ∀ u z : ℝ, 0 ≤ u → 0 ≤ z → 3 * z * (u * u) - z ^ 3 ≤ 2 * (u * u * u) := fun u z hu hz => by
      have : 2 * (u * u * u) - (3 * z * (u * u) - z ^ 3) = (u - z) ^ 2 * (2 * u + z) := by ring
      have : 0 ≤ (u - z) ^ 2 * (2 * u + z) := by positivity
      linarith
    have k0 := cub u0 0.3707648510 c0 (by norm_num)
    have k1 := cub u1 0.2784560342 c1 (by norm_num)
    have k2 := cub u2 0.5238384892 c2 (by norm_num)
    have k3 := cub u3 0.3886201252 c3 (by norm_num)
    have k4 := cub u4 0.2981567280 c4 (by norm_num)
    have psd : ∀ p q r t v : ℝ, 0 ≤ 30 * p ^ 2 + 39 * q ^ 2 + 10 * r ^ 2 + 39 * t ^ 2 + 30 * v ^ 2 - 40 * p * q - 20 * p * r + 64 * p * t - 20 * p * v - 12 * q * r - 62 * q * t + 64 * q * v - 12 * r * t - 20 * r * v - 40 * t * v :=
      fun p q r t v => by
        have : 30 * p ^ 2 + 39 * q ^ 2 + 10 * r ^ 2 + 39 * t ^ 2 + 30 * v ^ 2 - 40 * p * q - 20 * p * r + 64 * p * t - 20 * p * v - 12 * q * r - 62 * q * t + 64 * q * v - 12 * r * t - 20 * r * v - 40 * t * v =
            30 * (p - 2 / 3 * q - 1 / 3 * r + 16 / 15 * t - 1 / 3 * v) ^ 2 + 77 / 3 * (q - 38 / 77 * r - 29 / 77 * t + 76 / 77 * v) ^ 2 + 32 / 77 * (r - 1 / 4 * t - 2 * v) ^ 2 + 6 / 5 * t ^ 2 := by ring
        rw [this]
        positivity
    have q := psd (u0 - 0.3707648510) (u1 - 0.2784560342) (u2 - 0.5238384892) (u3 - 0.3886201252) (u4 - 0.2981567280)
    clear psd cub
    norm_num at *
    linarith

/-- A lower bound of the exponential by its Taylor sum. -/
private theorem gr_exp_lo {t : ℝ} (n : ℕ) (ht : 0 ≤ t) : (∑ m ∈ Finset.range n, t ^ m / (m.factorial : ℝ)) ≤ Real.exp t := Real.sum_le_exp_of_nonneg ht n

/-- An upper bound of the exponential from one at an eighth of the argument. -/
private theorem gr_exp_hi {t v : ℝ} (h0 : 0 ≤ t) (h1 : t ≤ 8) (hv : (∑ m ∈ Finset.range 10, (t / 8) ^ m / (m.factorial : ℝ)) + (t / 8) ^ 10 * (10 + 1) / ((Nat.factorial 10 : ℝ) * 10) ≤ v) :
    Real.exp t ≤ v ^ 8 := by
  have h := Real.exp_bound' (x := t / 8) (by positivity) (by linarith) (n := 10) (by norm_num)
  have e : Real.exp t = Real.exp (t / 8) ^ 8 := by rw [← Real.exp_nat_mul]; congr 1; push_cast; ring
  rw [e]
  refine pow_le_pow_left₀ (Real.exp_pos _).le ?_ 8
  refine h.trans ?_
  push_cast
  exact hv

private theorem gr_gibbs_lo {x S : ℝ} (t : ℝ) (hx : 0 < x) (hS : 0 < S) : x - S * Real.exp (-t) ≤ x * (Real.log (x / S) + t) := by
  have h := Real.log_le_sub_one_of_pos (x := S * Real.exp (-t) / x) (by positivity)
  rw [Real.log_div (by positivity) hx.ne', Real.log_mul hS.ne' (Real.exp_pos _).ne', Real.log_exp] at h
  rw [Real.log_div hx.ne' hS.ne']
  have := mul_le_mul_of_nonneg_left h hx.le
  have e : x * (S * Real.exp (-t) / x - 1) = S * Real.exp (-t) - x := by field_simp
  rw [e] at this
  linarith

private theorem gr_gibbs_hi {x S t w : ℝ} (hx : 0 < x) (hS : 0 < S) (hw : Real.exp t ≤ w) : x * (Real.log (x / S) + t) ≤ x ^ 2 * w / S - x := by
  have h := Real.log_le_sub_one_of_pos (x := x * Real.exp t / S) (by positivity)
  rw [Real.log_div (by positivity) hS.ne', Real.log_mul hx.ne' (Real.exp_pos _).ne', Real.log_exp] at h
  rw [Real.log_div hx.ne' hS.ne']
  have := mul_le_mul_of_nonneg_left h hx.le
  have e : x * (x * Real.exp t / S - 1) = x ^ 2 * Real.exp t / S - x := by ring
  rw [e] at this
  have k : x ^ 2 * Real.exp t / S ≤ x ^ 2 * w / S := by gcongr
  linarith

private theorem gr_lo0 : Real.exp (-3.6962) ≤ 1 / 40.293855 := by
  rw [Real.exp_neg, ← one_div]
  refine one_div_le_one_div_of_le (by norm_num) (le_trans ?_ (gr_exp_lo 22 (by norm_num)))
  norm_num [Finset.sum_range_succ, Nat.factorial]

private theorem gr_hi0 : Real.exp 3.6962 ≤ 1.5872852 ^ 8 :=
  gr_exp_hi (by norm_num) (by norm_num) (by norm_num [Finset.sum_range_succ, Nat.factorial])

private theorem gr_lo1 : Real.exp (-2.4064) ≤ 1 / 11.093939 := by
  rw [Real.exp_neg, ← one_div]
  refine one_div_le_one_div_of_le (by norm_num) (le_trans ?_ (gr_exp_lo 22 (by norm_num)))
  norm_num [Finset.sum_range_succ, Nat.factorial]

private theorem gr_hi1 : Real.exp 2.4064 ≤ 1.3509393 ^ 8 :=
  gr_exp_hi (by norm_num) (by norm_num) (by norm_num [Finset.sum_range_succ, Nat.factorial])

private theorem gr_lo2 : Real.exp (-0.7384) ≤ 1 / 2.092582 := by
  rw [Real.exp_neg, ← one_div]
  refine one_div_le_one_div_of_le (by norm_num) (le_trans ?_ (gr_exp_lo 22 (by norm_num)))
  norm_num [Finset.sum_range_succ, Nat.factorial]

private theorem gr_hi2 : Real.exp 0.7384 ≤ 1.0966939 ^ 8 :=
  gr_exp_hi (by norm_num) (by norm_num) (by norm_num [Finset.sum_range_succ, Nat.factorial])

private theorem gr_lo3 : Real.exp (-7.055) ≤ 1 / 1158.636312 := by
  rw [Real.exp_neg, ← one_div]
  refine one_div_le_one_div_of_le (by norm_num) (le_trans ?_ (gr_exp_lo 30 (by norm_num)))
  norm_num [Finset.sum_range_succ, Nat.factorial]

private theorem gr_hi3 : Real.exp 7.055 ≤ 2.4154247 ^ 8 :=
  gr_exp_hi (by norm_num) (by norm_num) (by norm_num [Finset.sum_range_succ, Nat.factorial])

private theorem gr_lo4 : Real.exp (-1.217) ≤ 1 / 3.377038 := by
  rw [Real.exp_neg, ← one_div]
  refine one_div_le_one_div_of_le (by norm_num) (le_trans ?_ (gr_exp_lo 22 (by norm_num)))
  norm_num [Finset.sum_range_succ, Nat.factorial]

private theorem gr_hi4 : Real.exp 1.217 ≤ 1.1643059 ^ 8 :=
  gr_exp_hi (by norm_num) (by norm_num) (by norm_num [Finset.sum_range_succ, Nat.factorial])

private theorem gr_lo5 : Real.exp (-7.7682) ≤ 1 / 2364.209510 := by
  rw [Real.exp_neg, ← one_div]
  refine one_div_le_one_div_of_le (by norm_num) (le_trans ?_ (gr_exp_lo 30 (by norm_num)))
  norm_num [Finset.sum_range_succ, Nat.factorial]

private theorem gr_hi5 : Real.exp 7.7682 ≤ 2.6406501 ^ 8 :=
  gr_exp_hi (by norm_num) (by norm_num) (by norm_num [Finset.sum_range_succ, Nat.factorial])

private theorem gr_lo6 : Real.exp (-4.091) ≤ 1 / 59.799601 := by
  rw [Real.exp_neg, ← one_div]
  refine one_div_le_one_div_of_le (by norm_num) (le_trans ?_ (gr_exp_lo 22 (by norm_num)))
  norm_num [Finset.sum_range_succ, Nat.factorial]

private theorem gr_hi6 : Real.exp 4.091 ≤ 1.6675828 ^ 8 :=
  gr_exp_hi (by norm_num) (by norm_num) (by norm_num [Finset.sum_range_succ, Nat.factorial])

private theorem gr_lo7 : Real.exp (-4.514) ≤ 1 / 91.286142 := by
  rw [Real.exp_neg, ← one_div]
  refine one_div_le_one_div_of_le (by norm_num) (le_trans ?_ (gr_exp_lo 22 (by norm_num)))
  norm_num [Finset.sum_range_succ, Nat.factorial]

private theorem gr_hi7 : Real.exp 4.514 ≤ 1.7581289 ^ 8 :=
  gr_exp_hi (by norm_num) (by norm_num) (by norm_num [Finset.sum_range_succ, Nat.factorial])

private theorem gr_lo8 : Real.exp (-3.782) ≤ 1 / 43.903717 := by
  rw [Real.exp_neg, ← one_div]
  refine one_div_le_one_div_of_le (by norm_num) (le_trans ?_ (gr_exp_lo 22 (by norm_num)))
  norm_num [Finset.sum_range_succ, Nat.factorial]

private theorem gr_hi8 : Real.exp 3.782 ≤ 1.6044004 ^ 8 :=
  gr_exp_hi (by norm_num) (by norm_num) (by norm_num [Finset.sum_range_succ, Nat.factorial])

private theorem gr_lo9 : Real.exp (-2.8282) ≤ 1 / 16.914969 := by
  rw [Real.exp_neg, ← one_div]
  refine one_div_le_one_div_of_le (by norm_num) (le_trans ?_ (gr_exp_lo 22 (by norm_num)))
  norm_num [Finset.sum_range_succ, Nat.factorial]

private theorem gr_hi9 : Real.exp 2.8282 ≤ 1.4240788 ^ 8 :=
  gr_exp_hi (by norm_num) (by norm_num) (by norm_num [Finset.sum_range_succ, Nat.factorial])

/-- C132, G14: every feasible solution has at least this objective value. -/
private theorem gr_g14 (y : List ℝ) (h : g14Problem.Feasible y) : -47.7614 ≤ g14Problem.F y := by
    obtain ⟨⟨hl, hb⟩, -, hh⟩ := h
    have b : ∀ i, i < 10 → 0 < col y i := fun i hi => by
      have := (hb i (by rw [hl]; exact hi)).1
      refine lt_of_lt_of_le ?_ this
      interval_cases i <;> norm_num [g14Problem]
    have r10 : List.range 10 = [0, 1, 2, 3, 4, 5, 6, 7, 8, 9] := rfl
    have hS : 0 < (cols 10 y).sum := by
      have b0 := b 0 (by norm_num); have b1 := b 1 (by norm_num); have b2 := b 2 (by norm_num); have b3 := b 3 (by norm_num); have b4 := b 4 (by norm_num)
      have b5 := b 5 (by norm_num); have b6 := b 6 (by norm_num); have b7 := b 7 (by norm_num); have b8 := b 8 (by norm_num); have b9 := b 9 (by norm_num)
      simp only [cols, r10, List.map_cons, List.map_nil, List.sum_cons, List.sum_nil]
      linarith
    have hSe : (cols 10 y).sum = col y 0 + (col y 1 + (col y 2 + (col y 3 + (col y 4 + (col y 5 + (col y 6 + (col y 7 + (col y 8 + (col y 9 + 0))))))))) := by
      simp only [cols, r10, List.map_cons, List.map_nil, List.sum_cons, List.sum_nil]
    simp only [g14Problem, List.forall_mem_cons, List.not_mem_nil, false_implies, implies_true, and_true] at hh ⊢
    generalize hSS : (cols 10 y).sum = S at *
    simp only [rowDot, cols, r10, g14V, List.map_cons, List.map_nil, List.zipWith_cons_cons, List.zipWith_nil_right, List.sum_cons, List.sum_nil]
    have k0 := gr_gibbs_lo 3.6962 (b 0 (by norm_num)) hS
    have k1 := gr_gibbs_lo 2.4064 (b 1 (by norm_num)) hS
    have k2 := gr_gibbs_lo 0.7384 (b 2 (by norm_num)) hS
    have k3 := gr_gibbs_lo 7.055 (b 3 (by norm_num)) hS
    have k4 := gr_gibbs_lo 1.217 (b 4 (by norm_num)) hS
    have k5 := gr_gibbs_lo 7.7682 (b 5 (by norm_num)) hS
    have k6 := gr_gibbs_lo 4.091 (b 6 (by norm_num)) hS
    have k7 := gr_gibbs_lo 4.514 (b 7 (by norm_num)) hS
    have k8 := gr_gibbs_lo 3.782 (b 8 (by norm_num)) hS
    have k9 := gr_gibbs_lo 2.8282 (b 9 (by norm_num)) hS
    have l0 := mul_le_mul_of_nonneg_left gr_lo0 hS.le
    have l1 := mul_le_mul_of_nonneg_left gr_lo1 hS.le
    have l2 := mul_le_mul_of_nonneg_left gr_lo2 hS.le
    have l3 := mul_le_mul_of_nonneg_left gr_lo3 hS.le
    have l4 := mul_le_mul_of_nonneg_left gr_lo4 hS.le
    have l5 := mul_le_mul_of_nonneg_left gr_lo5 hS.le
    have l6 := mul_le_mul_of_nonneg_left gr_lo6 hS.le
    have l7 := mul_le_mul_of_nonneg_left gr_lo7 hS.le
    have l8 := mul_le_mul_of_nonneg_left gr_lo8 hS.le
    have l9 := mul_le_mul_of_nonneg_left gr_lo9 hS.le
    clear hb hl hSS
    generalize Real.log (col y 0 / S) = y0 at *
    generalize Real.log (col y 1 / S) = y1 at *
    generalize Real.log (col y 2 / S) = y2 at *
    generalize Real.log (col y 3 / S) = y3 at *
    generalize Real.log (col y 4 / S) = y4 at *
    generalize Real.log (col y 5 / S) = y5 at *
    generalize Real.log (col y 6 / S) = y6 at *
    generalize Real.log (col y 7 / S) = y7 at *
    generalize Real.log (col y 8 / S) = y8 at *
    generalize Real.log (col y 9 / S) = y9 at *
    obtain ⟨h1, h2, h3⟩ := hh
    norm_num at *
    linarith

private theorem gr_g14_set : g14Problem.F g14Set ≤ -47.7648 := by
    have r10 : List.range 10 = [0, 1, 2, 3, 4, 5, 6, 7, 8, 9] := rfl
    have hS1 : (cols 10 g14Set).sum = 1.638563992278943722 := by
      norm_num [cols, r10, g14Set, col]
    have hS : (0 : ℝ) < 1.638563992278943722 := by norm_num
    simp only [g14Problem, hS1]
    generalize hSS : (1.638563992278943722 : ℝ) = S at *
    simp only [rowDot, cols, r10, g14V, g14Set, col, List.getD_cons_zero, List.getD_cons_succ, List.map_cons, List.map_nil, List.zipWith_cons_cons, List.zipWith_nil_right, List.sum_cons, List.sum_nil]
    have k0 := gr_gibbs_hi (x := 0.0406684113216282) (by norm_num) hS gr_hi0
    have k1 := gr_gibbs_hi (x := 0.147721240492452) (by norm_num) hS gr_hi1
    have k2 := gr_gibbs_hi (x := 0.783205732104114) (by norm_num) hS gr_hi2
    have k3 := gr_gibbs_hi (x := 0.00141433931889084) (by norm_num) hS gr_hi3
    have k4 := gr_gibbs_hi (x := 0.485293636780388) (by norm_num) hS gr_hi4
    have k5 := gr_gibbs_hi (x := 0.000693183051556082) (by norm_num) hS gr_hi5
    have k6 := gr_gibbs_hi (x := 0.0274052040687766) (by norm_num) hS gr_hi6
    have k7 := gr_gibbs_hi (x := 0.0179509660214818) (by norm_num) hS gr_hi7
    have k8 := gr_gibbs_hi (x := 0.0373268186859717) (by norm_num) hS gr_hi8
    have k9 := gr_gibbs_hi (x := 0.0968844604336845) (by norm_num) hS gr_hi9
    generalize Real.log (0.0406684113216282 / S) = y0 at *
    generalize Real.log (0.147721240492452 / S) = y1 at *
    generalize Real.log (0.783205732104114 / S) = y2 at *
    generalize Real.log (0.00141433931889084 / S) = y3 at *
    generalize Real.log (0.485293636780388 / S) = y4 at *
    generalize Real.log (0.000693183051556082 / S) = y5 at *
    generalize Real.log (0.0274052040687766 / S) = y6 at *
    generalize Real.log (0.0179509660214818 / S) = y7 at *
    generalize Real.log (0.0373268186859717 / S) = y8 at *
    generalize Real.log (0.0968844604336845 / S) = y9 at *
    rw [← hSS] at *
    norm_num at *
    linarith

/-- C132, G14 is violated as it stands: the documented solution does not satisfy the equality constraints (all are `10⁻⁴` off). -/
theorem C132_g14_refuted : ¬ g14Problem.Feasible g14Set ∧ ∀ h ∈ g14Problem.H g14Set, 0.9999 / 10 ^ 4 ≤ h := by
  constructor
  · rintro ⟨-, -, hh⟩
    norm_num [g14Problem, g14Set, col] at hh
  · norm_num [g14Problem, g14Set, col]

/-- C132, G14, what holds of the documented solution: it is within the bounds and satisfies the equality constraints up to `1.0001 · 10⁻⁴`, and no feasible solution is better. -/
theorem C132_g14_partial : Within g14Problem.xl g14Problem.xu g14Set ∧ (∀ h ∈ g14Problem.H g14Set, |h| ≤ 1.0001 / 10 ^ 4) ∧
    ∀ y, g14Problem.Feasible y → g14Problem.F g14Set ≤ g14Problem.F y := by
  refine ⟨⟨rfl, ?_⟩, ?_, fun y hy => ?_⟩
  · intro i hi
    have : i < 10 := hi
    interval_cases i <;> norm_num [g14Problem, g14Set]
  · norm_num [g14Problem, g14Set, col, abs_le]
  · have h1 := gr_g14 y hy
    have h2 := gr_g14_set
    norm_num at h1 h2
    linarith

example : g14Problem.Feasible [0.1, 0.2, 0.65, 0.1, 0.35, 0.1, 0.1, 0.05, 0.05, 0.1] := by
  refine ⟨⟨rfl, ?_⟩, by simp [g14Problem], by norm_num [g14Problem, col]⟩
  intro i hi
  have : i < 10 := hi
  interval_cases i <;> norm_num [g14Problem]

private theorem gr_amgm {u v w : ℝ} (hu : 0 < u) (hv : 0 < v) (hw : 0 < w) (h : 1 ≤ u * v ^ 2 * w ^ 2) : 5 ≤ u + 2 * v + 2 * w := by
  have l := Real.log_nonneg h
  rw [Real.log_mul (by positivity) (by positivity), Real.log_mul (by positivity) (by positivity), Real.log_pow, Real.log_pow] at l
  have l1 := Real.log_le_sub_one_of_pos hu
  have l2 := Real.log_le_sub_one_of_pos hv
  have l3 := Real.log_le_sub_one_of_pos hw
  push_cast at l
  linarith

/-- The reduced problem of G13. -/
private theorem gr_g13 {a b c : ℝ} (ha : 0 < a) (hb : 0 < b) (hc : 0 ≤ c) (h3 : a ^ 3 = 1 + b ^ 3) (h : a ^ 2 + b ^ 2 + c ^ 2 + 0.4 * (b * c) ≤ 10) : a * b ^ 2 * c ^ 2 ≤ 14.59855 := by
  by_contra hn
  rw [not_le] at hn
  have hc' : 0 < c := by
    rcases hc.eq_or_lt with rfl | h
    · norm_num at hn
    · exact h
  have hy := gr_amgm (u := a / 1.71714459) (v := b / 1.595710636) (w := c / 1.827246868) (by positivity) (by positivity) (by positivity) (by
    rw [div_pow, div_pow, div_mul_div_comm, div_mul_div_comm, le_div_iff₀ (by norm_num)]
    refine le_trans ?_ hn.le
    norm_num)
  have hb10 : b ≤ 4 := by nlinarith [mul_pos hb hc', sq_nonneg a, sq_nonneg c]
  have ht : (1 + 1.5957096783 ^ 2 * b) / 1.7171435601 ^ 2 - 1 / 10 ^ 7 ≤ a := by
    by_contra hlt
    rw [not_le] at hlt
    have e : 0 ≤ (1 + 1.5957096783 ^ 2 * b) / 1.7171435601 ^ 2 - 1 / 10 ^ 7 := ha.le.trans hlt.le
    have e3 : a ^ 3 < ((1 + 1.5957096783 ^ 2 * b) / 1.7171435601 ^ 2 - 1 / 10 ^ 7) ^ 3 := pow_lt_pow_left₀ hlt ha.le (by norm_num)
    rw [h3] at e3
    norm_num at e3
    nlinarith [mul_nonneg hb.le (sq_nonneg (b - 1.5957096783)), sq_nonneg (b - 1.5957096783)]
  have s1 := sq_nonneg (a - 1.7171435601)
  have s2 : 0 ≤ (b - 1.5957096783) ^ 2 + (c - 1.8272457720) ^ 2 + 0.4 * (b - 1.5957096783) * (c - 1.8272457720) := by
    nlinarith [sq_nonneg (b - 1.5957096783 + (c - 1.8272457720)), sq_nonneg (b - 1.5957096783 - (c - 1.8272457720))]
  norm_num at *
  linarith

/-- C132, G13, the exponent: it is at least `-2.91971` for every feasible solution. -/
private theorem gr_g13_exponent (y : List ℝ) (h : g13Problem.Feasible y) : -2.91971 ≤ col y 0 * col y 1 * col y 2 * col y 3 * col y 4 := by
  obtain ⟨-, -, hh⟩ := h
  simp only [g13Problem, List.forall_mem_cons, List.not_mem_nil, false_implies, implies_true, and_true] at hh
  obtain ⟨h1, h2, h3⟩ := hh
  generalize col y 0 = x1 at *
  generalize col y 1 = x2 at *
  generalize col y 2 = x3 at *
  generalize col y 3 = x4 at *
  generalize col y 4 = x5 at *
  have e : x1 * x2 * x3 * x4 * x5 = x1 * (x2 ^ 2 * x3 ^ 2) / 5 := by
    have : x4 * x5 = x2 * x3 / 5 := by linarith
    calc x1 * x2 * x3 * x4 * x5 = x1 * x2 * x3 * (x4 * x5) := by ring
      _ = _ := by rw [this]; ring
  rw [e]
  have hp : 0 ≤ x2 ^ 2 * x3 ^ 2 := by positivity
  rcases le_or_gt 0 x1 with hx | hx
  · have := mul_nonneg hx hp
    norm_num
    linarith
  · rcases lt_trichotomy x2 0 with h | rfl | h
    · have a1 : -1 < x1 := by
        by_contra hn
        rw [not_lt] at hn
        nlinarith [pow_pos (neg_pos.2 h) 3, mul_self_nonneg (x1 + 1), mul_self_nonneg x1]
      have b1 : -1 < x2 := by
        by_contra hn
        rw [not_lt] at hn
        nlinarith [pow_pos (neg_pos.2 hx) 3, mul_self_nonneg (x2 + 1), mul_self_nonneg x2]
      have k1 : x2 ^ 2 * x3 ^ 2 ≤ 1 * x3 ^ 2 := mul_le_mul_of_nonneg_right (by nlinarith) (sq_nonneg x3)
      have k2 : x3 ^ 2 ≤ 10 := by nlinarith [sq_nonneg x1, sq_nonneg x2, sq_nonneg x4, sq_nonneg x5]
      have k3 : -1 * (x2 ^ 2 * x3 ^ 2) ≤ x1 * (x2 ^ 2 * x3 ^ 2) := mul_le_mul_of_nonneg_right a1.le hp
      norm_num
      linarith
    · norm_num
    · have hc : 0.4 * (x2 * |x3|) ≤ x4 ^ 2 + x5 ^ 2 := by
        have : x2 * |x3| = |5 * x4 * x5| := by
          rw [← abs_of_pos h, ← abs_mul]
          congr 1
          linarith
        rw [this, mul_assoc, abs_mul, abs_mul]
        have q := sq_nonneg (|x4| - |x5|)
        have q1 := sq_abs x4
        have q2 := sq_abs x5
        norm_num
        nlinarith
      have key := gr_g13 (a := -x1) (b := x2) (c := |x3|) (neg_pos.2 hx) h (abs_nonneg _) (by linear_combination -h3) (by
        rw [neg_sq, sq_abs]
        linarith)
      rw [sq_abs] at key
      norm_num at key ⊢
      linarith

/-- The documented solutions of G13 do not satisfy the equality constraints exactly. -/
theorem C132_g13_refuted : ∀ x ∈ g13Sets, ¬ g13Problem.Feasible x := by
  intro x hx
  simp only [g13Sets, List.mem_cons, List.not_mem_nil, or_false] at hx
  rcases hx with rfl | rfl | rfl | rfl | rfl | rfl <;>
  · rintro ⟨-, -, hh⟩
    norm_num [g13Problem, g13Opt, col] at hh

/-- C132, G13, what holds of the six documented solutions: they are within the bounds and satisfy the equality constraints up to `2 · 10⁻⁷`, no feasible solution is better by more than `10⁻⁵`, and all have the
same value. -/
theorem C132_g13_partial : ∀ x ∈ g13Sets, Within g13Problem.xl g13Problem.xu x ∧ (∀ h ∈ g13Problem.H x, |h| ≤ 2 / 10 ^ 7) ∧ g13Problem.F x = g13Problem.F g13Opt ∧
    ∀ y, g13Problem.Feasible y → g13Problem.F x - 1 / 10 ^ 5 ≤ g13Problem.F y := by
  intro x hx
  have hF : g13Problem.F x = g13Problem.F g13Opt := by
    simp only [g13Sets, List.mem_cons, List.not_mem_nil, or_false] at hx
    rcases hx with rfl | rfl | rfl | rfl | rfl | rfl <;> simp [g13Problem, col]
  refine ⟨?_, ?_, hF, fun y hy => ?_⟩
  · simp only [g13Sets, List.mem_cons, List.not_mem_nil, or_false] at hx
    rcases hx with rfl | rfl | rfl | rfl | rfl | rfl <;>
    · refine ⟨rfl, fun i hi => ?_⟩
      have : i < 5 := hi
      interval_cases i <;> norm_num [g13Problem, g13Opt, col]
  · simp only [g13Sets, List.mem_cons, List.not_mem_nil, or_false] at hx
    rcases hx with rfl | rfl | rfl | rfl | rfl | rfl <;> norm_num [g13Problem, g13Opt, col, abs_le]
  · rw [hF]
    have k := gr_g13_exponent y hy
    have m : Real.exp (-2.91971) ≤ g13Problem.F y := Real.exp_le_exp.2 k
    have d : g13Problem.F g13Opt ≤ Real.exp (-2.91970) := Real.exp_le_exp.2 (by norm_num [g13Opt, col])
    have s : Real.exp (-2.91970) ≤ Real.exp (-2.91971) + 1 / 10 ^ 5 := by
      have h1 : Real.exp (-2.91971) = Real.exp (-2.91970) * Real.exp (-(1 / 10 ^ 5)) := by rw [← Real.exp_add]; congr 1; norm_num
      have h2 := Real.add_one_le_exp (-(1 / 10 ^ 5) : ℝ)
      have h3 : Real.exp (-2.91970) ≤ 1 := Real.exp_le_one_iff.2 (by norm_num)
      have h4 := Real.exp_pos (-2.91970 : ℝ)
      rw [h1]
      nlinarith
    linarith

example : g13Problem.Feasible [-1, 0, 3, 0, 0] := by
  refine ⟨⟨rfl, ?_⟩, by simp [g13Problem], by norm_num [g13Problem, col]⟩
  intro i hi
  have : i < 5 := hi
  interval_cases i <;> norm_num [g13Problem]

/-- C132: for every row the evaluations set as many constraint values as the problems declare (`n_ieq_constr`, `n_eq_constr`; g.py:149, 304, 349, 424, 461, 508, 726, 774). -/
theorem C132_shapes_more (x : List ℝ) :
    ((g4Problem.G x).length, (g4Problem.H x).length) = (6, 0) ∧ ((g9Problem.G x).length, (g9Problem.H x).length) = (4, 0) ∧ ((g10Problem.G x).length, (g10Problem.H x).length) = (6, 0) ∧
    ((g13Problem.G x).length, (g13Problem.H x).length) = (0, 3) ∧ ((g14Problem.G x).length, (g14Problem.H x).length) = (0, 3) ∧ ((g15Problem.G x).length, (g15Problem.H x).length) = (0, 2) ∧
    ((g18Problem.G x).length, (g18Problem.H x).length) = (13, 0) ∧ ((g19Problem.G x).length, (g19Problem.H x).length) = (5, 0) :=
  ⟨rfl, rfl, rfl, rfl, rfl, rfl, rfl, rfl⟩

end Props
