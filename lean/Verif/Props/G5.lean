import Mathlib.Tactic.IntervalCases
import Mathlib.Tactic.Linarith
import Mathlib.Tactic.Positivity
import Verif.Lemmas.Taylor
import Verif.Model.GMore

/-!
# C132, continued: the documented optimum of G5
-/

namespace Props
open Spec Model Lemmas

set_option linter.unusedVariables false

private theorem g5_e1 : (0.360567609 ≤ Real.sin 0.36887636617838561 ∧ Real.sin 0.36887636617838561 ≤ 0.36056761) ∧ 0.93273308 ≤ Real.cos 0.36887636617838561 ∧ Real.cos 0.36887636617838561 ≤ 0.932733081 :=
  ⟨⟨le_trans (by norm_num) (sin_ge11 _ (by norm_num)), (sin_le9 _ (by norm_num)).trans (by norm_num)⟩,
    le_trans (by norm_num) (cos_ge10 _ (by norm_num)), (cos_le8 _ (by norm_num)).trans (by norm_num)⟩

private theorem g5_e2 : (0.145712926 ≤ Real.sin 0.14623355240329272 ∧ Real.sin 0.14623355240329272 ≤ 0.145712927) ∧ 0.989326914 ≤ Real.cos 0.14623355240329272 ∧ Real.cos 0.14623355240329272 ≤ 0.989326915 :=
  ⟨⟨le_trans (by norm_num) (sin_ge11 _ (by norm_num)), (sin_le9 _ (by norm_num)).trans (by norm_num)⟩,
    le_trans (by norm_num) (cos_ge10 _ (by norm_num)), (cos_le8 _ (by norm_num)).trans (by norm_num)⟩

private theorem g5_e3 : (0.130748213 ≤ Real.sin 0.13112363382161439 ∧ Real.sin 0.13112363382161439 ≤ 0.130748214) ∧ 0.991415606 ≤ Real.cos 0.13112363382161439 ∧ Real.cos 0.13112363382161439 ≤ 0.991415607 :=
  ⟨⟨le_trans (by norm_num) (sin_ge11 _ (by norm_num)), (sin_le9 _ (by norm_num)).trans (by norm_num)⟩,
    le_trans (by norm_num) (cos_ge10 _ (by norm_num)), (cos_le8 _ (by norm_num)).trans (by norm_num)⟩

private theorem g5_e4 : (0.262015348 ≤ Real.sin 0.26510991858167833 ∧ Real.sin 0.26510991858167833 ≤ 0.262015349) ∧ 0.965063706 ≤ Real.cos 0.26510991858167833 ∧ Real.cos 0.26510991858167833 ≤ 0.965063707 :=
  ⟨⟨le_trans (by norm_num) (sin_ge11 _ (by norm_num)), (sin_le9 _ (by norm_num)).trans (by norm_num)⟩,
    le_trans (by norm_num) (cos_ge10 _ (by norm_num)), (cos_le8 _ (by norm_num)).trans (by norm_num)⟩

private theorem g5_e5 : (0.602183712 ≤ Real.sin 0.64623355240329272 ∧ Real.sin 0.64623355240329272 ≤ 0.602183713) ∧ 0.798357549 ≤ Real.cos 0.64623355240329272 ∧ Real.cos 0.64623355240329272 ≤ 0.798357553 :=
  ⟨⟨le_trans (by norm_num) (sin_ge11 _ (by norm_num)), (sin_le9 _ (by norm_num)).trans (by norm_num)⟩,
    le_trans (by norm_num) (cos_ge10 _ (by norm_num)), (cos_le8 _ (by norm_num)).trans (by norm_num)⟩

private theorem g5_e6 : (0.692616287 ≤ Real.sin 0.76510991858167833 ∧ Real.sin 0.76510991858167833 ≤ 0.69261629) ∧ 0.72130623 ≤ Real.cos 0.76510991858167833 ∧ Real.cos 0.76510991858167833 ≤ 0.72130625 :=
  ⟨⟨le_trans (by norm_num) (sin_ge11 _ (by norm_num)), (sin_le9 _ (by norm_num)).trans (by norm_num)⟩,
    le_trans (by norm_num) (cos_ge10 _ (by norm_num)), (cos_le8 _ (by norm_num)).trans (by norm_num)⟩

private theorem g5_cos {x : ℝ} (h1 : -1.1 ≤ x) (h2 : x ≤ 1.1) : 0.44 * x ^ 2 ≤ 1 - Real.cos x := by
  have := cos_le4 x
  have h : 0 ≤ 1.21 - x ^ 2 := by nlinarith
  nlinarith [mul_nonneg (sq_nonneg x) h]

private theorem g5_sin {x : ℝ} (h1 : -1.1 ≤ x) (h2 : x ≤ 1.1) : -(0.21 * x ^ 2) ≤ Real.sin x - x ∧ Real.sin x - x ≤ 0.21 * x ^ 2 := by
  rcases le_total 0 x with h | h
  · have a := sin_ge3 x h
    have b := Real.sin_le h
    constructor
    · nlinarith [mul_nonneg (sq_nonneg x) (by linarith : 0 ≤ 1.1 - x), sq_nonneg x]
    · nlinarith [sq_nonneg x]
  · have a := sin_ge3 (-x) (by linarith)
    have b := Real.sin_le (x := -x) (by linarith)
    rw [Real.sin_neg] at a b
    constructor
    · nlinarith [sq_nonneg x]
    · nlinarith [mul_nonneg (sq_nonneg x) (by linarith : 0 ≤ 1.1 + x), sq_nonneg x]

/-- Three cosines with positive weights are largest together at zero, if the sines nearly cancel. -/
private theorem g5_waves {w1 w2 w3 u1 u2 u3 δ s t : ℝ} (h1 : 2 ≤ w1) (h2 : 2 ≤ w2) (h3 : 2 ≤ w3) (hu0 : 0 ≤ u3) (hu1 : u3 ≤ 1) (e1 : -δ ≤ u1 + u3) (e1' : u1 + u3 ≤ δ) (e2 : -δ ≤ u2 - u3)
    (e2' : u2 - u3 ≤ δ) (s1 : -1.1 ≤ s) (s2 : s ≤ 1.1) (t1 : -1.1 ≤ t) (t2 : t ≤ 1.1) (r1 : -1.1 ≤ s - t) (r2 : s - t ≤ 1.1) :
    w1 * Real.cos s + w2 * Real.cos t + w3 * Real.cos (s - t) - (u1 * Real.sin s + u2 * Real.sin t + u3 * Real.sin (s - t)) ≤ w1 + w2 + w3 + 2 * δ := by
  have c1 := g5_cos s1 s2
  have c2 := g5_cos t1 t2
  have c3 := g5_cos r1 r2
  obtain ⟨a1, a1'⟩ := g5_sin s1 s2
  obtain ⟨a2, a2'⟩ := g5_sin t1 t2
  obtain ⟨a3, a3'⟩ := g5_sin r1 r2
  have b1 := Real.sin_le_one s
  have b1' := Real.neg_one_le_sin s
  have b2 := Real.sin_le_one t
  have b2' := Real.neg_one_le_sin t
  have hδ : 0 ≤ δ := by linarith
  have k : ∀ {w c q : ℝ}, 2 ≤ w → 0.44 * q ^ 2 ≤ 1 - c → 0.88 * q ^ 2 ≤ w * (1 - c) := fun {w c q} hw hc =>
    le_trans (by linarith [sq_nonneg q] : 0.88 * q ^ 2 ≤ 2 * (0.44 * q ^ 2)) (mul_le_mul hw hc (by positivity) (by linarith))
  have k1 := k h1 c1
  have k2 := k h2 c2
  have k3 := k h3 c3
  have m : ∀ {u v : ℝ}, -δ ≤ u → u ≤ δ → -1 ≤ v → v ≤ 1 → -δ ≤ u * v := fun {u v} p1 p2 p3 p4 => by
    have := mul_le_mul (abs_le.2 ⟨p1, p2⟩) (abs_le.2 ⟨p3, p4⟩) (abs_nonneg v) hδ
    rw [← abs_mul, mul_one] at this
    exact (abs_le.1 this).1
  have m1 := m e1 e1' b1' b1
  have m2 := m e2 e2' b2' b2
  have m3 : -(0.21 * (s ^ 2 + t ^ 2 + (s - t) ^ 2)) ≤ u3 * (Real.sin (s - t) - Real.sin s + Real.sin t) := by
    have h : -(0.21 * (s ^ 2 + t ^ 2 + (s - t) ^ 2)) ≤ Real.sin (s - t) - Real.sin s + Real.sin t := by linarith
    have hB : 0 ≤ 0.21 * (s ^ 2 + t ^ 2 + (s - t) ^ 2) := by positivity
    have g1 := mul_le_mul_of_nonneg_left h hu0
    have g2 := mul_le_mul_of_nonneg_right hu1 hB
    linarith
  have q1 := sq_nonneg s
  have q2 := sq_nonneg t
  have q3 := sq_nonneg (s - t)
  generalize (s - t) ^ 2 = R at *
  generalize s ^ 2 = S at *
  generalize t ^ 2 = T at *
  linarith

private theorem g5_cube {a a0 : ℝ} (h : 0 ≤ a) (h0 : 0 ≤ a0) : a0 ^ 3 + 3 * a0 ^ 2 * (a - a0) ≤ a ^ 3 := by
  have := mul_nonneg (sq_nonneg (a - a0)) (by linarith : 0 ≤ a + 2 * a0)
  nlinarith

set_option maxHeartbeats 1000000 in
/-- C132, G5: no feasible solution is better than the documented one by more than `10⁻³` (of 5126). -/
theorem C132_g5_bound (y : List ℝ) (h : g5Problem.Feasible y) : g5Problem.F g5Set - 1 / 10 ^ 3 ≤ g5Problem.F y := by
  obtain ⟨⟨hl, hb⟩, hg, hh⟩ := h
  have b : ∀ i, i < 4 → (g5Problem.xl.getD i 0 ≤ col y i ∧ col y i ≤ g5Problem.xu.getD i 0) := fun i hi => hb i (by rw [hl]; exact hi)
  have b0 := b 0 (by norm_num); have b1 := b 1 (by norm_num); have b2 := b 2 (by norm_num); have b3 := b 3 (by norm_num)
  simp only [g5Problem, List.getD_cons_zero, List.getD_cons_succ] at b0 b1 b2 b3
  simp only [g5Problem, List.forall_mem_cons, List.not_mem_nil, false_implies, implies_true, and_true] at hg hh ⊢
  obtain ⟨g1, g2⟩ := hg
  obtain ⟨h1, h2, h3⟩ := hh
  rw [show col g5Set 0 = 679.94531748791177961 from rfl, show col g5Set 1 = 1026.06713513571594376 from rfl]
  generalize col y 0 = a at *
  generalize col y 1 = b at *
  generalize col y 2 = c at *
  generalize col y 3 = d at *
  have ta := g5_cube b0.1 (by norm_num : (0 : ℝ) ≤ 679.94531748791177961)
  have tb := g5_cube b1.1 (by norm_num : (0 : ℝ) ≤ 1026.06713513571594376)
  set s := c - 0.11887636617838561 with hs
  set t := d + 0.39623355240329272 with ht
  have x1 : Real.sin (-c - 0.25) = -(Real.sin 0.36887636617838561 * Real.cos s + Real.cos 0.36887636617838561 * Real.sin s) := by
    rw [← Real.sin_add, ← Real.sin_neg]; congr 1; rw [hs]; ring
  have x2 : Real.sin (-d - 0.25) = Real.sin 0.14623355240329272 * Real.cos t - Real.cos 0.14623355240329272 * Real.sin t := by
    rw [← Real.sin_sub]; congr 1; rw [ht]; ring
  have x3 : Real.sin (c - 0.25) = -(Real.sin 0.13112363382161439 * Real.cos s - Real.cos 0.13112363382161439 * Real.sin s) := by
    rw [← Real.sin_sub, ← Real.sin_neg]; congr 1; rw [hs]; ring
  have x4 : Real.sin (c - d - 0.25) = Real.sin 0.26510991858167833 * Real.cos (s - t) + Real.cos 0.26510991858167833 * Real.sin (s - t) := by
    rw [← Real.sin_add]; congr 1; rw [hs, ht]; ring
  have x5 : Real.sin (d - 0.25) = -(Real.sin 0.64623355240329272 * Real.cos t - Real.cos 0.64623355240329272 * Real.sin t) := by
    rw [← Real.sin_sub, ← Real.sin_neg]; congr 1; rw [ht]; ring
  have x6 : Real.sin (d - c - 0.25) = -(Real.sin 0.76510991858167833 * Real.cos (s - t) + Real.cos 0.76510991858167833 * Real.sin (s - t)) := by
    rw [← Real.sin_add, ← Real.sin_neg]; congr 1; rw [hs, ht]; ring
  rw [x1, x2] at h1
  rw [x3, x4] at h2
  rw [x5, x6] at h3
  obtain ⟨⟨p1, p1'⟩, q1, q1'⟩ := g5_e1
  obtain ⟨⟨p2, p2'⟩, q2, q2'⟩ := g5_e2
  obtain ⟨⟨p3, p3'⟩, q3, q3'⟩ := g5_e3
  obtain ⟨⟨p4, p4'⟩, q4, q4'⟩ := g5_e4
  obtain ⟨⟨p5, p5'⟩, q5, q5'⟩ := g5_e5
  obtain ⟨⟨p6, p6'⟩, q6, q6'⟩ := g5_e6
  have ss1 : -1.1 ≤ s := by rw [hs]; linarith [b2.1]
  have ss2 : s ≤ 1.1 := by rw [hs]; linarith [b2.2]
  have tt1 : -1.1 ≤ t := by rw [ht]; linarith [b3.1]
  have tt2 : t ≤ 1.1 := by rw [ht]; linarith [b3.2]
  have rr1 : -1.1 ≤ s - t := by rw [hs, ht]; linarith
  have rr2 : s - t ≤ 1.1 := by rw [hs, ht]; linarith
  clear x1 x2 x3 x4 x5 x6
  clear_value s t
  generalize Real.sin 0.36887636617838561 = S1 at *
  generalize Real.cos 0.36887636617838561 = C1 at *
  generalize Real.sin 0.14623355240329272 = S2 at *
  generalize Real.cos 0.14623355240329272 = C2 at *
  generalize Real.sin 0.13112363382161439 = S3 at *
  generalize Real.cos 0.13112363382161439 = C3 at *
  generalize Real.sin 0.26510991858167833 = S4 at *
  generalize Real.cos 0.26510991858167833 = C4 at *
  generalize Real.sin 0.64623355240329272 = S5 at *
  generalize Real.cos 0.64623355240329272 = C5 at *
  generalize Real.sin 0.76510991858167833 = S6 at *
  generalize Real.cos 0.76510991858167833 = C6 at *
  -- the slopes of the objective and the multiplier of the third equation
  set A1 : ℝ := 3 + 3 / 10 ^ 6 * 679.94531748791177961 ^ 2 with hA1
  set A2 : ℝ := 2 + 2 / 10 ^ 6 * 1026.06713513571594376 ^ 2 with hA2
  have a1 : 4.386976904 ≤ A1 ∧ A1 ≤ 4.386976905 := by rw [hA1]; norm_num
  have a2 : 4.105627531 ≤ A2 ∧ A2 ≤ 4.105627532 := by rw [hA2]; norm_num
  clear_value A1 A2
  have ml : ∀ {x y a b c e : ℝ}, (a ≤ x ∧ x ≤ b) → c ≤ y → y ≤ e → 0 ≤ a → 0 ≤ c → a * c ≤ x * y ∧ x * y ≤ b * e := fun {x y a b c e} hx hc he ha hc0 =>
    ⟨mul_le_mul hx.1 hc hc0 (ha.trans hx.1), mul_le_mul hx.2 he (hc0.trans hc) ((ha.trans hx.1).trans hx.2)⟩
  obtain ⟨r1, r1'⟩ := ml a1 p1 p1' (by norm_num) (by norm_num)
  obtain ⟨r2, r2'⟩ := ml a1 p2 p2' (by norm_num) (by norm_num)
  obtain ⟨r3, r3'⟩ := ml a2 p3 p3' (by norm_num) (by norm_num)
  obtain ⟨r4, r4'⟩ := ml a2 p4 p4' (by norm_num) (by norm_num)
  obtain ⟨v1, v1'⟩ := ml a1 q1 q1' (by norm_num) (by norm_num)
  obtain ⟨v2, v2'⟩ := ml a1 q2 q2' (by norm_num) (by norm_num)
  obtain ⟨v3, v3'⟩ := ml a2 q3 q3' (by norm_num) (by norm_num)
  obtain ⟨v4, v4'⟩ := ml a2 q4 q4' (by norm_num) (by norm_num)
  have key := g5_waves (w1 := A1 * S1 + A2 * S3) (w2 := -(A1 * S2) + 5.46327852 * S5) (w3 := -(A2 * S4) + 5.46327852 * S6)
    (u1 := -(A1 * C1) + A2 * C3) (u2 := -(A1 * C2) + 5.46327852 * C5) (u3 := A2 * C4 - 5.46327852 * C6) (δ := 3 / 10 ^ 7)
    (by linarith only [r1, r3]) (by linarith only [r2', p5]) (by linarith only [r4', p6]) (by linarith only [v4, q6']) (by linarith only [v4', q6])
    (by linarith only [v1', v3, v4, q6']) (by linarith only [v1, v3', v4', q6]) (by linarith only [v2', q5, v4', q6]) (by linarith only [v2, q5', v4, q6']) ss1 ss2 tt1 tt2 rr1 rr2
  have f1 : 3 * 679.94531748791177961 + 1 / 10 ^ 6 * 679.94531748791177961 ^ 3 + A1 * (a - 679.94531748791177961) ≤ 3 * a + 1 / 10 ^ 6 * a ^ 3 := by
    rw [hA1]; linarith
  have f2 : 2 * 1026.06713513571594376 + 2 / 10 ^ 6 / 3 * 1026.06713513571594376 ^ 3 + A2 * (b - 1026.06713513571594376) ≤ 2 * b + 2 / 10 ^ 6 / 3 * b ^ 3 := by
    rw [hA2]; linarith
  have ha : a = 1000 * (-(S1 * Real.cos s + C1 * Real.sin s)) + 1000 * (S2 * Real.cos t - C2 * Real.sin t) + 894.8 := by linarith
  have hb' : b = 1000 * (-(S3 * Real.cos s - C3 * Real.sin s)) + 1000 * (S4 * Real.cos (s - t) + C4 * Real.sin (s - t)) + 894.8 := by linarith
  have hA : 0 ≤ A1 * (a - 679.94531748791177961) + A2 * (b - 1026.06713513571594376) + 1 / 10 ^ 3 := by
    have e : A1 * a + A2 * b = -1000 * ((A1 * S1 + A2 * S3) * Real.cos s + (-(A1 * S2) + 5.46327852 * S5) * Real.cos t + (-(A2 * S4) + 5.46327852 * S6) * Real.cos (s - t)
        - ((-(A1 * C1) + A2 * C3) * Real.sin s + (-(A1 * C2) + 5.46327852 * C5) * Real.sin t + (A2 * C4 - 5.46327852 * C6) * Real.sin (s - t))) + 894.8 * (A1 + A2) + 5.46327852 * 1294.8 := by
      rw [ha, hb']
      linear_combination (-5.46327852 : ℝ) * h3
    have e' : A1 * (a - 679.94531748791177961) + A2 * (b - 1026.06713513571594376) = A1 * a + A2 * b - A1 * 679.94531748791177961 - A2 * 1026.06713513571594376 := by ring
    rw [e', e]
    linarith only [key, r1', r3', r2, r4, p5', p6', a1.1, a1.2, a2.1, a2.2]
  linarith only [f1, f2, hA]

/-- C132, G5 (partial: the documented solution is given in decimals and satisfies the equations only up to rounding): it is within the bounds, satisfies the inequality constraints, misses each equation by at most `10⁻⁵`
(of terms of size 1000), and no feasible solution is better by more than `10⁻³` (of 5126). -/
theorem C132_g5_partial : Within g5Problem.xl g5Problem.xu g5Set ∧ (∀ g ∈ g5Problem.G g5Set, g ≤ 0) ∧ (∀ h ∈ g5Problem.H g5Set, |h| ≤ 1 / 10 ^ 5) ∧
    ∀ y, g5Problem.Feasible y → g5Problem.F g5Set - 1 / 10 ^ 3 ≤ g5Problem.F y := by
  refine ⟨⟨rfl, ?_⟩, ?_, ?_, C132_g5_bound⟩
  · intro i hi
    have : i < 4 := hi
    interval_cases i <;> norm_num [g5Problem, g5Set]
  · norm_num [g5Problem, g5Set, col]
  · obtain ⟨⟨p1, p1'⟩, -, -⟩ := g5_e1
    obtain ⟨⟨p2, p2'⟩, -, -⟩ := g5_e2
    obtain ⟨⟨p3, p3'⟩, -, -⟩ := g5_e3
    obtain ⟨⟨p4, p4'⟩, -, -⟩ := g5_e4
    obtain ⟨⟨p5, p5'⟩, -, -⟩ := g5_e5
    obtain ⟨⟨p6, p6'⟩, -, -⟩ := g5_e6
    simp only [g5Problem, List.forall_mem_cons, List.not_mem_nil, false_implies, implies_true, and_true]
    rw [show col g5Set 0 = 679.94531748791177961 from rfl, show col g5Set 1 = 1026.06713513571594376 from rfl, show col g5Set 2 = 0.11887636617838561 from rfl,
      show col g5Set 3 = -0.39623355240329272 from rfl]
    rw [show (-0.11887636617838561 - 0.25 : ℝ) = -0.36887636617838561 by norm_num, show (-(-0.39623355240329272) - 0.25 : ℝ) = 0.14623355240329272 by norm_num,
      show (0.11887636617838561 - 0.25 : ℝ) = -0.13112363382161439 by norm_num, show (0.11887636617838561 - -0.39623355240329272 - 0.25 : ℝ) = 0.26510991858167833 by norm_num,
      show (-0.39623355240329272 - 0.25 : ℝ) = -0.64623355240329272 by norm_num, show (-0.39623355240329272 - 0.11887636617838561 - 0.25 : ℝ) = -0.76510991858167833 by norm_num]
    simp only [Real.sin_neg]
    refine ⟨?_, ?_, ?_⟩ <;> rw [abs_le] <;> constructor <;> linarith

end Props
