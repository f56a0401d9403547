import Mathlib.Tactic.IntervalCases
import Mathlib.Tactic.Linarith
import Mathlib.Tactic.Positivity
import Mathlib.Topology.Order.IntermediateValue
import Mathlib.Topology.Algebra.Polynomial
import Verif.Model.GMore

/-!
# C132, continued: documented optima of G4, G9, G10 and G15
-/

namespace Props
open Spec Model

set_option linter.unusedVariables false

/-- A quadratic is at least the value at its vertex. -/
private theorem gm_quad {A : ℝ} (B x : ℝ) (hA : 0 < A) : -(B ^ 2 / (4 * A)) ≤ A * x ^ 2 + B * x := by
  have : A * x ^ 2 + B * x + B ^ 2 / (4 * A) = A * (x + B / (2 * A)) ^ 2 := by field_simp; ring
  nlinarith [mul_nonneg hA.le (sq_nonneg (x + B / (2 * A)))]

private theorem gm_pow4 (a x : ℝ) : 2 * a ^ 2 * x ^ 2 - a ^ 4 ≤ x ^ 4 := by nlinarith [sq_nonneg (x ^ 2 - a ^ 2)]

private theorem gm_pow6 (a x : ℝ) : 6 * a ^ 5 * x - 5 * a ^ 6 ≤ x ^ 6 := by
  have : x ^ 6 - (6 * a ^ 5 * x - 5 * a ^ 6) = (x - a) ^ 2 * (x ^ 2 * (x + a) ^ 2 + 2 * a ^ 2 * (x + a) ^ 2 + 3 * (a ^ 2) ^ 2) := by ring
  have : 0 ≤ (x - a) ^ 2 * (x ^ 2 * (x + a) ^ 2 + 2 * a ^ 2 * (x + a) ^ 2 + 3 * (a ^ 2) ^ 2) := by positivity
  linarith

/-- C132, G9: the documented solution is feasible, and no feasible solution is better by more than `10⁻⁶`. -/
theorem C132_g9 : g9Problem.OptimalUpTo (1 / 10 ^ 6) g9Set := by
  refine ⟨⟨⟨rfl, ?_⟩, ?_, by simp [g9Problem]⟩, ?_⟩
  · intro i hi
    have : i < 7 := hi
    interval_cases i <;> norm_num [g9Problem, g9Set]
  · norm_num [g9Problem, g9Set, col]
  · rintro y ⟨-, hg, -⟩
    have hv : g9Problem.F g9Set ≤ 680.6300573745 := by norm_num [g9Problem, g9Set, col]
    refine le_trans (sub_le_sub_right hv _) ?_
    simp only [g9Problem, List.forall_mem_cons, List.not_mem_nil, false_implies, implies_true, and_true] at hg ⊢
    obtain ⟨g1, -, -, g4⟩ := hg
    generalize col y 0 = x1 at *
    generalize col y 1 = x2 at *
    generalize col y 2 = x3 at *
    generalize col y 3 = x4 at *
    generalize col y 4 = x5 at *
    generalize col y 5 = x6 at *
    generalize col y 6 = x7 at *
    -- multipliers `12 * 0.624486975 ^ 5` and 0.368615
    have p2 := gm_pow4 1.951372396 x2
    have p3 := gm_pow4 0.4775404 x3
    have p5 := gm_pow6 (-0.624486975) x5
    have p7 := gm_pow4 1.5942266 x7
    have q1 := gm_quad (A := 1 + (12 * 0.624486975 ^ 5) * 2 + 0.368615 * 4) (-20 - 3 * 0.368615 * x2) x1 (by norm_num)
    have q3 := gm_quad (A := 2 * 0.4775404 ^ 2 + 2 * 0.368615) (12 * 0.624486975 ^ 5) x3 (by norm_num)
    have q4 := gm_quad (A := 3 + 4 * (12 * 0.624486975 ^ 5)) (-66) x4 (by norm_num)
    have q6 := gm_quad (A := 7) (-10 + 5 * 0.368615 - 4 * x7) x6 (by norm_num)
    have q2 := gm_quad (A := 5 + 0.368615 + (12 * 0.624486975 ^ 5) * 3 * (2 * 1.951372396 ^ 2) - (3 * 0.368615) ^ 2 / (4 * (1 + (12 * 0.624486975 ^ 5) * 2 + 0.368615 * 4))) (-120 - 2 * 20 * 3 * 0.368615 / (4 * (1 + (12 * 0.624486975 ^ 5) * 2 + 0.368615 * 4))) x2 (by norm_num)
    have q7 := gm_quad (A := 2 * 1.5942266 ^ 2 - 16 / 28) (-8 - 11 * 0.368615 - 2 * 4 * (10 - 5 * 0.368615) / 28) x7 (by norm_num)
    norm_num at p2 p3 p5 p7 q1 q2 q3 q4 q6 q7 g1 g4 ⊢
    linarith
/-- The reduced problem of G10 in the two slacks `s` and `t`. -/
private theorem gm_g10 {s t a b : ℝ} (hs : 0 < s) (ht : 0 < t) (ha : 166666.423 - 833.33252 * s ≤ a * s) (hb : 1250 * (100 + s - t) ≤ b * t) :
    7049.248018 ≤ a + b + (2500 + 25 * t) := by
  have hp0 : 0 ≤ 100 + s := by linarith
  have hsq := Real.sq_sqrt hp0
  have hp10 : 10 < √(100 + s) := by
    rw [Real.lt_sqrt (by norm_num)]
    linarith
  generalize √(100 + s) = p at *
  obtain rfl : s = p ^ 2 - 100 := by linarith
  have h1 : 353.55339059 * p - 1250 - 25 * t ≤ b := by
    have h : (353.55339059 * p - 1250 - 25 * t) * t ≤ b * t := by
      nlinarith [sq_nonneg (25 * t - 176.77669529 * p)]
    exact le_of_mul_le_mul_right h ht
  have h2 : 6632.580539 - 833.33252 - 353.55339059 * p ≤ a := by
    have h : (6632.580539 - 833.33252 - 353.55339059 * p) * (p ^ 2 - 100) ≤ a * (p ^ 2 - 100) := by
      nlinarith [mul_nonneg (by linarith : (0 : ℝ) ≤ p - 10) (sq_nonneg (p - 14.764223665)), sq_nonneg (p - 14.764223665)]
    exact le_of_mul_le_mul_right h hs
  linarith

/-- C132, G10: the documented solution is feasible, and no feasible solution is better by more than `10⁻⁵`. -/
theorem C132_g10 : g10Problem.OptimalUpTo (1 / 10 ^ 5) g10Set := by
  refine ⟨⟨⟨rfl, ?_⟩, ?_, by simp [g10Problem]⟩, ?_⟩
  · intro i hi
    have : i < 8 := hi
    interval_cases i <;> norm_num [g10Problem, g10Set]
  · norm_num [g10Problem, g10Set, col]
  · rintro y ⟨⟨hl, hb⟩, hg, -⟩
    have hv : g10Problem.F g10Set ≤ 7049.248022 := by norm_num [g10Problem, g10Set, col]
    refine le_trans (sub_le_sub_right hv _) ?_
    have b : ∀ i, i < 8 → (g10Problem.xl.getD i 0 ≤ col y i ∧ col y i ≤ g10Problem.xu.getD i 0) := fun i hi => hb i (by rw [hl]; exact hi)
    have b0 := (b 0 (by norm_num)).1; have b1 := (b 1 (by norm_num)).1; have b2 := (b 2 (by norm_num)).1
    norm_num [g10Problem] at b0 b1 b2
    simp only [g10Problem, List.forall_mem_cons, List.not_mem_nil, false_implies, implies_true, and_true] at hg ⊢
    obtain ⟨g1, g2, g3, g4, g5, g6⟩ := hg
    generalize col y 0 = x1 at *
    generalize col y 1 = x2 at *
    generalize col y 2 = x3 at *
    generalize col y 3 = x4 at *
    generalize col y 4 = x5 at *
    generalize col y 5 = x6 at *
    generalize col y 6 = x7 at *
    generalize col y 7 = x8 at *
    have e1 : x6 ≤ 400 - x4 := by norm_num at g1; linarith
    have e2 : x7 - x4 ≤ 400 - x5 := by norm_num at g2; linarith
    have e3 : x8 - x5 ≤ 100 := by norm_num at g3; linarith
    have f3 : 12500 - 25 * x5 ≤ x3 := by nlinarith
    have f1 : 166666.423 - 833.33252 * (300 - x4) ≤ x1 * (300 - x4) := by norm_num at g4 ⊢; nlinarith
    have f2 : 1250 * (100 + (300 - x4) - (400 - x5)) ≤ x2 * (400 - x5) := by nlinarith
    have hs : 0 < 300 - x4 := by
      by_contra hn
      rw [not_lt] at hn
      norm_num at f1
      nlinarith
    have ht : 0 < 400 - x5 := by
      by_contra hn
      rw [not_lt] at hn
      nlinarith
    have := gm_g10 hs ht f1 f2
    norm_num at this ⊢
    linarith

/-- C132, G15 is violated as it stands: the documented solution does not satisfy the equality constraints (both are `10⁻⁴` off). -/
theorem C132_g15_refuted : ¬ g15Problem.Feasible g15Set ∧ ∀ h ∈ g15Problem.H g15Set, 0.9999 / 10 ^ 4 ≤ h := by
  constructor
  · rintro ⟨-, -, hh⟩
    norm_num [g15Problem, g15Set, col] at hh
  · norm_num [g15Problem, g15Set, col]

/-- C132, G15, what holds of the documented solution: it is within the bounds and satisfies the equality constraints up to `1.0001 · 10⁻⁴`, no feasible solution is better, and a solution exactly feasible within
`10⁻⁴` of it in every variable has its value up to `2 · 10⁻⁴` (see `C132_g15_near`). -/
theorem C132_g15_partial : Within g15Problem.xl g15Problem.xu g15Set ∧ (∀ h ∈ g15Problem.H g15Set, |h| ≤ 1.0001 / 10 ^ 4) ∧
    ∀ y, g15Problem.Feasible y → g15Problem.F g15Set ≤ g15Problem.F y := by
  refine ⟨⟨rfl, ?_⟩, ?_, ?_⟩
  · intro i hi
    have : i < 3 := hi
    interval_cases i <;> norm_num [g15Problem, g15Set]
  · norm_num [g15Problem, g15Set, col, abs_le]
  · rintro y ⟨⟨hl, hb⟩, -, hh⟩
    have hv : g15Problem.F g15Set ≤ 961.71503 := by norm_num [g15Problem, g15Set, col]
    refine le_trans hv ?_
    have b : ∀ i, i < 3 → (g15Problem.xl.getD i 0 ≤ col y i ∧ col y i ≤ g15Problem.xu.getD i 0) := fun i hi => hb i (by rw [hl]; exact hi)
    have b0 := (b 0 (by norm_num)).1; have b1 := (b 1 (by norm_num)).1; have b2 := (b 2 (by norm_num)).1
    norm_num [g15Problem] at b0 b1 b2
    simp only [g15Problem, List.forall_mem_cons, List.not_mem_nil, false_implies, implies_true, and_true] at hh ⊢
    obtain ⟨h1, h2⟩ := hh
    generalize col y 0 = x1 at *
    generalize col y 1 = x2 at *
    generalize col y 2 = x3 at *
    obtain rfl : x3 = 8 - (8 * x1 + 14 * x2) / 7 := by linarith
    have hN : 0 ≤ 3.853717737 - 0.535141344 * x1 + 0.602075618 * x2 - 0.592561129 * (8 - (8 * x1 + 14 * x2) / 7) := by
      norm_num at b2 h1 ⊢
      nlinarith [sq_nonneg (x1 - 3.512121342), sq_nonneg (x2 - 0.2169879415), sq_nonneg ((8 - (8 * x1 + 14 * x2) / 7) - 3.552171155)]
    have hL : 0 ≤ 2.408267162 + 0.233213323 * x1 - 0.518092252 * x2 + 0.769654992 * (8 - (8 * x1 + 14 * x2) / 7) := by
      norm_num at b2 h1 ⊢
      linarith
    have := mul_nonneg hN hL
    have c1 : x1 ≤ 7 := by linarith
    have c2 : x2 ≤ 4 := by linarith
    norm_num at this h1 ⊢
    nlinarith [mul_nonneg b0 b1, mul_nonneg b0 (sub_nonneg.2 c1), mul_nonneg b1 (sub_nonneg.2 c2)]

/-- C132, G15: an exactly feasible solution within `10⁻⁴` of the documented one has its value up to `2 · 10⁻⁴`. -/
theorem C132_g15_near : ∃ y, g15Problem.Feasible y ∧ (∀ i, i < 3 → |y.getD i 0 - g15Set.getD i 0| ≤ 1 / 10 ^ 4) ∧ g15Problem.F y ≤ g15Problem.F g15Set + 2 / 10 ^ 4 := by
  have hc : ContinuousOn (fun v : ℝ => -(v ^ 2 + 0.21698794 ^ 2 + (7.56602412 - 8 / 7 * v) ^ 2 - 25)) (Set.Icc 3.51212 3.512125) := by fun_prop
  obtain ⟨v, ⟨hv1, hv2⟩, hv⟩ := intermediate_value_Icc (by norm_num) hc (show (0 : ℝ) ∈ _ from by constructor <;> norm_num)
  have hv' : v ^ 2 + 0.21698794 ^ 2 + (7.56602412 - 8 / 7 * v) ^ 2 - 25 = 0 := by
    have : -(v ^ 2 + 0.21698794 ^ 2 + (7.56602412 - 8 / 7 * v) ^ 2 - 25) = 0 := hv
    linarith
  refine ⟨[v, 0.21698794, 7.56602412 - 8 / 7 * v], ⟨⟨rfl, ?_⟩, by simp [g15Problem], ?_⟩, ?_, ?_⟩
  · intro i hi
    have : i < 3 := hi
    interval_cases i <;> norm_num [g15Problem] <;> constructor <;> linarith
  · intro h hh
    simp only [g15Problem, col, List.mem_cons, List.not_mem_nil, or_false, List.getD_cons_zero, List.getD_cons_succ] at hh
    rcases hh with rfl | rfl
    · exact hv'
    · ring_nf
  · intro i hi
    interval_cases i <;> norm_num [g15Set, abs_le] <;> constructor <;> linarith
  · have e : g15Problem.F g15Set = 1000 - 3.51212812611795133 ^ 2 - 2 * 0.216987510429556135 ^ 2 - 3.55217854929179921 ^ 2 - 3.51212812611795133 * 0.216987510429556135 - 3.51212812611795133 * 3.55217854929179921 := rfl
    have e2 : g15Problem.F [v, 0.21698794, 7.56602412 - 8 / 7 * v] = 1000 - v ^ 2 - 2 * 0.21698794 ^ 2 - (7.56602412 - 8 / 7 * v) ^ 2 - v * 0.21698794 - v * (7.56602412 - 8 / 7 * v) := rfl
    rw [e, e2]
    norm_num at hv' ⊢
    nlinarith [mul_nonneg (sub_nonneg.2 hv1) (sub_nonneg.2 hv2)]

/-- The reduced problem of G4 in its third variable. -/
private theorem gm_g4 {x X Y : ℝ} (h1 : 27 ≤ x) (h2 : x ≤ 45) (hX : X * x = 1) (hY : Y * (0.1876314 - 0.0022053 * x) = 1) :
    11678.957766 ≤ 5.3578547 * x ^ 2 + 114.1740078 * (10.699039 * X) / 0.0047026 - 48.990258 * (4.467631 * Y) := by
  have hx : 0 < x := by linarith
  have hD : 0 < 0.1876314 - 0.0022053 * x := by norm_num; linarith
  have hk : 0 < x * (0.1876314 - 0.0022053 * x) := mul_pos hx hD
  refine le_of_mul_le_mul_right ?_ hk
  have e : (5.3578547 * x ^ 2 + 114.1740078 * (10.699039 * X) / 0.0047026 - 48.990258 * (4.467631 * Y)) * (x * (0.1876314 - 0.0022053 * x)) =
      5.3578547 * x ^ 3 * (0.1876314 - 0.0022053 * x) + 114.1740078 * (10.699039 * (X * x)) / 0.0047026 * (0.1876314 - 0.0022053 * x) - 48.990258 * (4.467631 * (Y * (0.1876314 - 0.0022053 * x))) * x := by ring
  rw [e, hX, hY]
  norm_num
  nlinarith [mul_nonneg (mul_nonneg (sub_nonneg.2 h1) (sub_nonneg.2 h2)) (sq_nonneg (x - 29.99525602568)), mul_nonneg (sub_nonneg.2 h1) (sq_nonneg (x - 29.99525602568)),
    mul_nonneg (sub_nonneg.2 h2) (sq_nonneg (x - 29.99525602568))]

/-- C132, G4: no feasible solution is better than the documented one by more than `10⁻⁵`, and its constraint values are at most `10⁻¹⁵` (over the real numbers it is not feasible exactly, which is what is
missing here). -/
theorem C132_g4_partial : Within g4Problem.xl g4Problem.xu g4Set ∧ (∀ g ∈ g4Problem.G g4Set, g ≤ 1 / 10 ^ 15) ∧
    ∀ y, g4Problem.Feasible y → g4Problem.F g4Set - 1 / 10 ^ 5 ≤ g4Problem.F y := by
  refine ⟨⟨rfl, ?_⟩, ?_, ?_⟩
  · intro i hi
    have : i < 5 := hi
    interval_cases i <;> norm_num [g4Problem, g4Set]
  · norm_num [g4Problem, g4Set, col, g4U, g4V, g4W]
  · rintro y ⟨⟨hl, hb⟩, hg, -⟩
    have hv : g4Problem.F g4Set ≤ -30665.53867 := by norm_num [g4Problem, g4Set, col]
    refine le_trans (sub_le_sub_right hv _) ?_
    have b : ∀ i, i < 5 → (g4Problem.xl.getD i 0 ≤ col y i ∧ col y i ≤ g4Problem.xu.getD i 0) := fun i hi => hb i (by rw [hl]; exact hi)
    have b0 := b 0 (by norm_num); have b1 := b 1 (by norm_num); have b2 := b 2 (by norm_num); have b3 := b 3 (by norm_num); have b4 := b 4 (by norm_num)
    norm_num [g4Problem] at b0 b1 b2 b3 b4
    simp only [g4Problem, List.forall_mem_cons, List.not_mem_nil, false_implies, implies_true, and_true, g4U, g4W] at hg ⊢
    obtain ⟨-, gu, -, -, gw, -⟩ := hg
    generalize col y 0 = x1 at *
    generalize col y 1 = x2 at *
    generalize col y 2 = x3 at *
    generalize col y 3 = x4 at *
    generalize col y 4 = x5 at *
    clear hl hb b hv
    have hx3 : 0 < x3 := by linarith
    have hD : 0 < 0.1876314 - 0.0022053 * x3 := by norm_num; linarith
    obtain ⟨X, hX⟩ : ∃ X, X * x3 = 1 := ⟨x3⁻¹, inv_mul_cancel₀ hx3.ne'⟩
    obtain ⟨Y, hY⟩ : ∃ Y, Y * (0.1876314 - 0.0022053 * x3) = 1 := ⟨_, inv_mul_cancel₀ hD.ne'⟩
    have hX0 : 0 < X := by
      by_contra hn
      nlinarith
    have hY0 : 0 < Y := by
      by_contra hn
      nlinarith
    have hY1 : 7.8 ≤ Y := by
      have : 7.8 * (0.1876314 - 0.0022053 * x3) ≤ Y * (0.1876314 - 0.0022053 * x3) := by rw [hY]; norm_num; linarith
      exact le_of_mul_le_mul_right this hD
    have hY2 : Y ≤ 11.4 := by
      have : Y * (0.1876314 - 0.0022053 * x3) ≤ 11.4 * (0.1876314 - 0.0022053 * x3) := by rw [hY]; norm_num; linarith
      exact le_of_mul_le_mul_right this hD
    have red := gm_g4 b2.1 b2.2 hX hY
    have hw : 10.699039 * X ≤ 0.0047026 * x5 + 0.0012547 * x1 + 0.0019085 * x4 := by
      refine le_of_mul_le_mul_right ?_ hx3
      rw [mul_assoc, hX]
      linarith
    have hu : x5 ≤ (6.665593 - 0.0006262 * x1 * x4) * Y := by
      refine le_of_mul_le_mul_right ?_ hD
      rw [mul_assoc, hY]
      norm_num at gu ⊢
      nlinarith
    obtain ⟨a, rfl⟩ : ∃ a, x1 = 78 + a := ⟨x1 - 78, by ring⟩
    obtain ⟨d, rfl⟩ : ∃ d, x4 = 45 - d := ⟨45 - x4, by ring⟩
    have ha : 0 ≤ a := by linarith
    have ha' : a ≤ 24 := by linarith
    have hd : 0 ≤ d := by linarith
    have k1 : 27 * a ≤ x5 * a := mul_le_mul_of_nonneg_right b4.1 ha
    have k2 : 0 ≤ a * Y := mul_nonneg ha hY0.le
    have k3 : d * Y ≤ d * 11.4 := mul_le_mul_of_nonneg_left hY2 hd
    have k4 : a * (d * Y) ≤ 24 * (d * Y) := mul_le_mul_of_nonneg_right ha' (mul_nonneg hd hY0.le)
    have hu' : x5 ≤ 4.467631 * Y - 0.028179 * (a * Y) + 0.0488436 * (d * Y) + 0.0006262 * (a * (d * Y)) := by
      refine le_trans hu (le_of_eq ?_)
      ring
    norm_num at *
    linarith

example : ∃ y, g4Problem.Feasible y := by
  refine ⟨[78, 33, 30, 45, 36.776], ⟨rfl, ?_⟩, ?_, by simp [g4Problem]⟩
  · intro i hi
    have : i < 5 := hi
    interval_cases i <;> norm_num [g4Problem]
  · norm_num [g4Problem, col, g4U, g4V, g4W]

end Props
