import Verif.Model.Truss
import Verif.Props.MultiProblems
import Mathlib.Tactic.FinCases

/-!
# C144: the Pareto front of the two-bar truss
-/

open Model Spec
set_option linter.unusedVariables false
set_option linter.unusedSimpArgs false

namespace Props

/-- The decision vectors of a problem with three variables that satisfy `P`. -/
def Space3 (P : ℝ → ℝ → ℝ → Prop) (x : List ℝ) : Prop := ∃ a b c, x = [a, b, c] ∧ P a b c

/-- The objectives of a problem with three variables as a function of the decision vector. -/
def onSpace3 (F : ℝ → ℝ → ℝ → Fin 2 → ℝ) (x : List ℝ) : Fin 2 → ℝ := F (x.getD 0 0) (x.getD 1 0) (x.getD 2 0)

/-- The trade-off between volume and stress in physical terms. As long as the cross sections are not at their limit, volume times
stress is 400 (the joint is at height 2); beyond, the joint moves up to height `y` between 2 and 3, with the second bar at its limit. -/
def TrussTradeoff (f : Fin 2 → ℝ) : Prop :=
  (0 < f 0 ∧ f 0 * f 1 = 400 ∧ 4000 * √5 ≤ f 1 ∧ f 1 ≤ 100000) ∨
  ∃ y, 2 ≤ y ∧ y ≤ 3 ∧ f 0 = (4 + y ^ 2) / (80 * √(1 + y ^ 2)) ∧ f 1 = 8000 * √(1 + y ^ 2) / y

/-- What the evaluation of a feasible solution amounts to. -/
theorem truss_feasible {x1 x2 y : ℝ} (h : trussFeasible x1 x2 y) :
    0 < x1 ∧ 0 < x2 ∧ x1 ≤ 1 / 100 ∧ x2 ≤ 1 / 100 ∧ 1 ≤ y ∧ y ≤ 3 ∧
    20 * √(16 + y ^ 2) ≤ trussF x1 x2 y 1 * (y * x1) ∧ 80 * √(1 + y ^ 2) ≤ trussF x1 x2 y 1 * (y * x2) ∧
    0 < trussF x1 x2 y 1 ∧ trussF x1 x2 y 1 ≤ 100000 := by
  obtain ⟨⟨⟨h1, h2⟩, ⟨h3, h4⟩, h5, h6⟩, s, hs, hg⟩ := h
  unfold trussAmax at h2 h4
  unfold trussSmax at hg
  have hF : trussF x1 x2 y 1 = s := by simp [trussF, hs]
  unfold trussStress at hs
  split_ifs at hs with hz
  push Not at hz
  have hs' := Option.some.inj hs
  have p1 : 0 < x1 := lt_of_le_of_ne h1 (fun e => hz.1 (by rw [← e]; ring))
  have p2 : 0 < x2 := lt_of_le_of_ne h3 (fun e => hz.2 (by rw [← e]; ring))
  have q1 : 0 < y * x1 := by positivity
  have q2 : 0 < y * x2 := by positivity
  rw [hF]
  have m1 : 20 * √(16 + y ^ 2) / (y * x1) ≤ s := hs' ▸ le_max_left _ _
  have m2 : 80 * √(1 + y ^ 2) / (y * x2) ≤ s := hs' ▸ le_max_right _ _
  rw [div_le_iff₀ q1] at m1
  rw [div_le_iff₀ q2] at m2
  refine ⟨p1, p2, by linarith, by linarith, h5, h6, m1, m2, ?_, by linarith⟩
  have : 0 < √(16 + y ^ 2) := Real.sqrt_pos.2 (by positivity)
  by_contra hc
  push Not at hc
  nlinarith [mul_nonneg (sub_nonneg.2 hc) q1.le]

/-- Volume times stress is at least `100 (4 + y²) / y`. -/
theorem truss_product {x1 x2 y : ℝ} (h : trussFeasible x1 x2 y) :
    100 * (4 + y ^ 2) ≤ trussF x1 x2 y 0 * trussF x1 x2 y 1 * y := by
  obtain ⟨p1, p2, _, _, h5, _, m1, m2, hs, _⟩ := truss_feasible h
  have e0 : trussF x1 x2 y 0 = x1 * √(16 + y ^ 2) + x2 * √(1 + y ^ 2) := rfl
  rw [e0]
  have a1 := Real.sq_sqrt (show 0 ≤ 16 + y ^ 2 by positivity)
  have a2 := Real.sq_sqrt (show 0 ≤ 1 + y ^ 2 by positivity)
  have b1 := Real.sqrt_nonneg (16 + y ^ 2)
  have b2 := Real.sqrt_nonneg (1 + y ^ 2)
  have c1 := mul_le_mul_of_nonneg_right m1 b1
  have c2 := mul_le_mul_of_nonneg_right m2 b2
  nlinarith

/-- The stress of a joint at height `y`: the second bar is at its limit. -/
theorem truss_limit {x1 x2 y : ℝ} (h : trussFeasible x1 x2 y) : 8000 * √(1 + y ^ 2) ≤ trussF x1 x2 y 1 * y := by
  obtain ⟨p1, p2, _, hx, h5, _, m1, m2, hs, _⟩ := truss_feasible h
  have : trussF x1 x2 y 1 * (y * x2) ≤ trussF x1 x2 y 1 * (y * (1 / 100)) := by
    apply mul_le_mul_of_nonneg_left _ hs.le
    apply mul_le_mul_of_nonneg_left hx (by linarith)
  linarith

theorem truss_sqrt_mono {a b : ℝ} (ha : 0 < a) (hab : a ≤ b) : √(1 + b ^ 2) / b ≤ √(1 + a ^ 2) / a := by
  rw [div_le_div_iff₀ (by linarith) ha]
  have e : ∀ u v : ℝ, 0 ≤ v → √(1 + u ^ 2) * v = √((1 + u ^ 2) * v ^ 2) := fun u v hv => by
    rw [Real.sqrt_mul (by positivity), Real.sqrt_sq hv]
  rw [e b a ha.le, e a b (by linarith)]
  exact Real.sqrt_le_sqrt (by nlinarith)

theorem truss_sum_mono {a b : ℝ} (ha : 2 ≤ a) (hab : a ≤ b) : (4 + a ^ 2) / a ≤ (4 + b ^ 2) / b := by
  rw [div_le_div_iff₀ (by linarith) (by linarith)]
  nlinarith [mul_nonneg (sub_nonneg.2 hab) (show 0 ≤ a * b - 4 by nlinarith)]

/-- The volume in part B as a function of the length of the second bar. -/
theorem truss_bar {y : ℝ} (hy : 2 ≤ y) :
    (4 + y ^ 2) / (80 * √(1 + y ^ 2)) = (√(1 + y ^ 2) + 3 / √(1 + y ^ 2)) / 80 ∧ 2 ≤ √(1 + y ^ 2) := by
  have h0 : 0 ≤ 1 + y ^ 2 := by positivity
  have h := Real.sq_sqrt h0
  have hp : 0 < √(1 + y ^ 2) := Real.sqrt_pos.2 (by positivity)
  constructor
  · field_simp
    nlinarith
  · rw [show (2:ℝ) = √(2 ^ 2) by rw [Real.sqrt_sq (by norm_num)]]
    exact Real.sqrt_le_sqrt (by nlinarith)

theorem truss_vol_strict {a b : ℝ} (ha : 2 ≤ a) (hab : a < b) :
    (4 + a ^ 2) / (80 * √(1 + a ^ 2)) < (4 + b ^ 2) / (80 * √(1 + b ^ 2)) := by
  obtain ⟨ea, la⟩ := truss_bar ha
  obtain ⟨eb, lb⟩ := truss_bar (by linarith : 2 ≤ b)
  rw [ea, eb]
  have hlt : √(1 + a ^ 2) < √(1 + b ^ 2) := Real.sqrt_lt_sqrt (by positivity) (by nlinarith)
  generalize √(1 + a ^ 2) = s at *
  generalize √(1 + b ^ 2) = t at *
  have hs : 0 < s := by linarith
  have ht : 0 < t := by linarith
  have : (t + 3 / t) - (s + 3 / s) = (t - s) * (s * t - 3) / (s * t) := by field_simp; ring
  have : 0 < (t - s) * (s * t - 3) / (s * t) := by
    apply div_pos (mul_pos (by linarith) (by nlinarith)) (by positivity)
  linarith

theorem truss_stress_two : 8000 * √(1 + (2:ℝ) ^ 2) / 2 = 4000 * √5 := by norm_num; ring

theorem truss_vol_two : (4 + (2:ℝ) ^ 2) / (80 * √(1 + (2:ℝ) ^ 2)) * (4000 * √5) = 400 := by
  have h5 : (0:ℝ) < √5 := Real.sqrt_pos.2 (by norm_num)
  norm_num
  field_simp
  norm_num

theorem truss_five_pos : (0:ℝ) < √5 := Real.sqrt_pos.2 (by norm_num)

/-- In part B volume times stress is `100 (4 + y²) / y`. -/
theorem truss_b_product {y : ℝ} (hy : 2 ≤ y) :
    (4 + y ^ 2) / (80 * √(1 + y ^ 2)) * (8000 * √(1 + y ^ 2) / y) = 100 * ((4 + y ^ 2) / y) := by
  have hp : 0 < √(1 + y ^ 2) := Real.sqrt_pos.2 (by positivity)
  have : y ≠ 0 := by linarith
  field_simp
  norm_num

/-- No point of the trade-off is dominated by another one. -/
theorem truss_antichain {f g : Fin 2 → ℝ} (hf : TrussTradeoff f) (hg : TrussTradeoff g) (h0 : g 0 ≤ f 0) (h1 : g 1 ≤ f 1) : g = f := by
  have h5 := truss_five_pos
  have main : g 0 = f 0 ∧ g 1 = f 1 := by
    rcases hf with ⟨f0, f1, f2, f3⟩ | ⟨y, y2, y3, fv, fs⟩
    · have fp : 0 < f 1 := by linarith
      rcases hg with ⟨g0, g1, g2, g3⟩ | ⟨z, z2, z3, gv, gs⟩
      · have gp : 0 < g 1 := by linarith
        have e0 : g 0 = f 0 := by
          apply le_antisymm h0
          by_contra hc
          push Not at hc
          nlinarith [mul_pos fp (sub_pos.2 hc)]
        refine ⟨e0, ?_⟩
        rw [e0] at g1
        exact mul_left_cancel₀ f0.ne' (g1.trans f1.symm)
      · -- `g` in part B: its volume is at least that of the transition
        have v1 : (4 + (2:ℝ) ^ 2) / (80 * √(1 + (2:ℝ) ^ 2)) ≤ g 0 := by
          rw [gv]
          rcases eq_or_lt_of_le z2 with h | h
          · rw [← h]
          · exact (truss_vol_strict le_rfl h).le
        have v2 := truss_vol_two
        set w := (4 + (2:ℝ) ^ 2) / (80 * √(1 + (2:ℝ) ^ 2)) with hw
        have wp : 0 < w := by rw [hw]; positivity
        have k1 : f 1 = 4000 * √5 := by
          apply le_antisymm _ f2
          by_contra hc
          push Not at hc
          nlinarith [mul_pos wp (sub_pos.2 hc)]
        have k0 : f 0 = w := by
          have : f 0 * (4000 * √5) = w * (4000 * √5) := by rw [← k1, f1, k1, v2]
          exact mul_right_cancel₀ (by positivity) this
        have zz : z = 2 := by
          by_contra hne
          have : 2 < z := lt_of_le_of_ne z2 (Ne.symm hne)
          have := truss_vol_strict le_rfl this
          rw [← gv] at this
          linarith
        rw [gv, gs, zz, k0, k1, truss_stress_two]
        exact ⟨hw, rfl⟩
    · have sf : f 1 ≤ 4000 * √5 := by
        rw [fs, mul_div_assoc]
        have := truss_sqrt_mono (by norm_num : (0:ℝ) < 2) y2
        have e := truss_stress_two
        rw [mul_div_assoc] at e
        rw [← e]
        linarith
      rcases hg with ⟨g0, g1, g2, g3⟩ | ⟨z, z2, z3, gv, gs⟩
      · have e1 : g 1 = 4000 * √5 := by linarith
        have ef1 : f 1 = 4000 * √5 := by linarith
        have v2 := truss_vol_two
        have yy : y = 2 := by
          by_contra hne
          have hlt : 2 < y := lt_of_le_of_ne y2 (Ne.symm hne)
          have q : f 1 < 4000 * √5 := by
            have e := truss_stress_two
            rw [fs, ← e]
            rw [div_lt_div_iff₀ (by linarith) (by norm_num)]
            have e2 : ∀ u v : ℝ, 0 ≤ v → √(1 + u ^ 2) * v = √((1 + u ^ 2) * v ^ 2) := fun u v hv => by
              rw [Real.sqrt_mul (by positivity), Real.sqrt_sq hv]
            have : √(1 + y ^ 2) * 2 < √(1 + 2 ^ 2) * y := by
              rw [e2 y 2 (by norm_num), e2 2 y (by linarith)]
              exact Real.sqrt_lt_sqrt (by positivity) (by nlinarith)
            nlinarith
          linarith
        rw [e1, ef1]
        refine ⟨?_, rfl⟩
        rw [fv, yy]
        rw [e1] at g1
        exact mul_right_cancel₀ (by positivity) (g1.trans v2.symm)
      · have zy : z ≤ y := by
          by_contra hc
          push Not at hc
          have := truss_vol_strict y2 hc
          rw [← fv, ← gv] at this
          linarith
        have : z = y := by
          by_contra hne
          have hlt : z < y := lt_of_le_of_ne zy hne
          have : f 1 < g 1 := by
            rw [fs, gs]
            rw [div_lt_div_iff₀ (by linarith) (by linarith)]
            have e2 : ∀ u v : ℝ, 0 ≤ v → √(1 + u ^ 2) * v = √((1 + u ^ 2) * v ^ 2) := fun u v hv => by
              rw [Real.sqrt_mul (by positivity), Real.sqrt_sq hv]
            have : √(1 + y ^ 2) * z < √(1 + z ^ 2) * y := by
              rw [e2 y z (by linarith), e2 z y (by linarith)]
              exact Real.sqrt_lt_sqrt (by positivity) (by nlinarith)
            nlinarith
          linarith
        rw [gv, gs, fv, fs, this]
        exact ⟨rfl, rfl⟩
  funext i
  fin_cases i
  · exact main.1
  · exact main.2

/-- Below every feasible solution there is a point of the trade-off. -/
theorem truss_below {x1 x2 y : ℝ} (h : trussFeasible x1 x2 y) : ∃ f, TrussTradeoff f ∧ ∀ i, f i ≤ trussF x1 x2 y i := by
  have hp := truss_product h
  have hl := truss_limit h
  obtain ⟨_, _, _, _, h1, h3, _, _, hs, hs5⟩ := truss_feasible h
  have h5 := truss_five_pos
  generalize trussF x1 x2 y = F at *
  have hy : 0 < y := by linarith
  have hF0 : 0 < F 0 := by
    by_contra hc
    push Not at hc
    nlinarith [mul_nonneg (sub_nonneg.2 hc) (mul_pos hs hy).le]
  by_cases hc : 4000 * √5 ≤ F 1
  · refine ⟨![400 / F 1, F 1], Or.inl ⟨by simp; positivity, ?_, hc, hs5⟩, ?_⟩
    · simp
      field_simp
    · intro i
      fin_cases i
      · simp
        rw [div_le_iff₀ hs]
        have : 400 * y ≤ 100 * (4 + y ^ 2) := by nlinarith [sq_nonneg (y - 2)]
        nlinarith
      · simp
  · push Not at hc
    -- the height at which the second bar at its limit has this stress
    have hq : 8000 ^ 2 * (1 + y ^ 2) ≤ (F 1) ^ 2 * y ^ 2 := by
      have a := Real.sq_sqrt (show 0 ≤ 1 + y ^ 2 by positivity)
      have b := Real.sqrt_nonneg (1 + y ^ 2)
      have := mul_self_le_mul_self (by positivity) hl
      nlinarith
    set r := (F 1) ^ 2 - 8000 ^ 2 with hr
    have rp : 0 < r := by
      by_contra hc
      push Not at hc
      nlinarith [mul_nonneg (sub_nonneg.2 hc) (sq_nonneg y)]
    set z := 8000 / √r with hz
    have rs := Real.sq_sqrt rp.le
    have rq : 0 < √r := Real.sqrt_pos.2 rp
    have zp : 0 < z := by positivity
    have z2 : z ^ 2 * r = 8000 ^ 2 := by rw [hz, div_pow, rs]; field_simp
    have zs : (F 1) * z = 8000 * √(1 + z ^ 2) := by
      have : (F 1 * z) ^ 2 = (8000 * √(1 + z ^ 2)) ^ 2 := by
        rw [mul_pow, mul_pow, Real.sq_sqrt (by positivity)]
        nlinarith
      exact (pow_left_inj₀ (by positivity) (by positivity) two_ne_zero).1 this
    have zle : z ≤ y := by
      have : z ^ 2 ≤ y ^ 2 := by nlinarith
      exact (sq_le_sq₀ zp.le hy.le).1 this
    have z2le : 2 ≤ z := by
      have f5 := Real.sq_sqrt (show (0:ℝ) ≤ 5 by norm_num)
      have : (F 1) ^ 2 ≤ 80000000 := by nlinarith
      have : r ≤ 16000000 := by rw [hr]; linarith
      have : (2:ℝ) ^ 2 ≤ z ^ 2 := by
        by_contra hcc
        push Not at hcc
        nlinarith
      exact (sq_le_sq₀ (by norm_num) zp.le).1 this
    have e1 : 8000 * √(1 + z ^ 2) / z = F 1 := by rw [← zs]; field_simp
    refine ⟨![(4 + z ^ 2) / (80 * √(1 + z ^ 2)), 8000 * √(1 + z ^ 2) / z], Or.inr ⟨z, z2le, by linarith, rfl, rfl⟩, ?_⟩
    intro i
    fin_cases i
    · simp only [Fin.zero_eta, Matrix.cons_val_zero]
      have hb := truss_b_product z2le
      rw [e1] at hb
      have m := truss_sum_mono z2le zle
      have m2 : 100 * ((4 + y ^ 2) / y) ≤ F 0 * F 1 := by
        rw [mul_div_assoc', div_le_iff₀ hy]
        exact hp
      have : (4 + z ^ 2) / (80 * √(1 + z ^ 2)) * F 1 ≤ F 0 * F 1 := by rw [hb]; linarith
      exact le_of_mul_le_mul_right this hs
    · simp only [Fin.mk_one, Matrix.cons_val_one, Matrix.cons_val_zero]
      exact e1.le

/-- Joint at height `y`, both bars with the stress `s`. -/
theorem truss_attained {y s : ℝ} (h2 : 2 ≤ y) (h3 : y ≤ 3) (hs : 8000 * √(1 + y ^ 2) ≤ s * y) (h5 : s ≤ 100000) :
    trussFeasible (20 * √(16 + y ^ 2) / (y * s)) (80 * √(1 + y ^ 2) / (y * s)) y ∧
    trussF (20 * √(16 + y ^ 2) / (y * s)) (80 * √(1 + y ^ 2) / (y * s)) y = ![100 * (4 + y ^ 2) / (y * s), s] := by
  have hy : 0 < y := by linarith
  have a1 := Real.sq_sqrt (show 0 ≤ 16 + y ^ 2 by positivity)
  have a2 := Real.sq_sqrt (show 0 ≤ 1 + y ^ 2 by positivity)
  have b1 : 0 < √(16 + y ^ 2) := Real.sqrt_pos.2 (by positivity)
  have b2 : 0 < √(1 + y ^ 2) := Real.sqrt_pos.2 (by positivity)
  have sp : 0 < s := by
    by_contra hc
    push Not at hc
    nlinarith
  have n1 : y * (20 * √(16 + y ^ 2) / (y * s)) ≠ 0 := by positivity
  have n2 : y * (80 * √(1 + y ^ 2) / (y * s)) ≠ 0 := by positivity
  have e1 : 20 * √(16 + y ^ 2) / (y * (20 * √(16 + y ^ 2) / (y * s))) = s := by field_simp
  have e2 : 80 * √(1 + y ^ 2) / (y * (80 * √(1 + y ^ 2) / (y * s))) = s := by field_simp
  have hst : trussStress (20 * √(16 + y ^ 2) / (y * s)) (80 * √(1 + y ^ 2) / (y * s)) y = some s := by
    unfold trussStress
    rw [if_neg (by push Not; exact ⟨n1, n2⟩), e1, e2, max_self]
  have k : √(16 + y ^ 2) ≤ 4 * √(1 + y ^ 2) := by
    rw [show 4 * √(1 + y ^ 2) = √(4 ^ 2 * (1 + y ^ 2)) by rw [Real.sqrt_mul (by positivity), Real.sqrt_sq (by norm_num)]]
    exact Real.sqrt_le_sqrt (by nlinarith)
  refine ⟨⟨⟨⟨by positivity, ?_⟩, ⟨by positivity, ?_⟩, by linarith, h3⟩, s, hst, by unfold trussSmax; linarith⟩, ?_⟩
  · unfold trussAmax
    rw [div_le_iff₀ (by positivity)]
    linarith
  · unfold trussAmax
    rw [div_le_iff₀ (by positivity)]
    linarith
  · funext i
    fin_cases i
    · simp only [trussF, trussVolume, Fin.zero_eta, Matrix.cons_val_zero]
      field_simp
      nlinarith
    · simp [trussF, hst]

/-- C144: the Pareto-optimal objective vectors of the truss problem are exactly the trade-off. -/
theorem C144_front (f : Fin 2 → ℝ) : ParetoPoint (Space3 trussFeasible) (onSpace3 trussF) f ↔ TrussTradeoff f := by
  have h5 := truss_five_pos
  refine front_exact _ _ TrussTradeoff ?_ ?_ f
  · intro f hf
    constructor
    · have key : ∃ x1 x2 y, trussFeasible x1 x2 y ∧ trussF x1 x2 y = f := by
        rcases hf with ⟨f0, f1, f2, f3⟩ | ⟨y, y2, y3, fv, fs⟩
        · have e := truss_stress_two
          obtain ⟨ha, hb⟩ := truss_attained (y := 2) (s := f 1) le_rfl (by norm_num) (by norm_num at e ⊢; linarith) f3
          refine ⟨_, _, _, ha, ?_⟩
          rw [hb]
          have : 0 < f 1 := by linarith
          funext i
          fin_cases i
          · simp
            rw [div_eq_iff (by positivity)]
            nlinarith
          · simp
        · have yp : 0 < y := by linarith
          have bp : 0 < √(1 + y ^ 2) := Real.sqrt_pos.2 (by positivity)
          have le : f 1 ≤ 100000 := by
            rw [fs, div_le_iff₀ yp]
            have : √(1 + y ^ 2) ≤ 12 * y := by
              rw [show 12 * y = √((12 * y) ^ 2) by rw [Real.sqrt_sq (by positivity)]]
              exact Real.sqrt_le_sqrt (by nlinarith)
            linarith
          have e : f 1 * y = 8000 * √(1 + y ^ 2) := by rw [fs]; field_simp
          obtain ⟨ha, hb⟩ := truss_attained (y := y) (s := f 1) y2 y3 e.ge le
          refine ⟨_, _, _, ha, ?_⟩
          rw [hb]
          funext i
          fin_cases i
          · simp only [Fin.zero_eta, Matrix.cons_val_zero]
            rw [mul_comm y, e, fv]
            field_simp
            norm_num
          · simp
      obtain ⟨a, b, c, h1, h2⟩ := key
      exact ⟨[a, b, c], ⟨a, b, c, rfl, h1⟩, h2⟩
    · rintro x ⟨a, b, c, rfl, hx⟩ ⟨hle, i, hi⟩
      obtain ⟨g, hg, hgle⟩ := truss_below hx
      have := truss_antichain hf hg ((hgle 0).trans (hle 0)) ((hgle 1).trans (hle 1))
      rw [this] at hgle
      exact absurd hi (not_lt.2 (hgle i))
  · rintro x ⟨a, b, c, rfl, hx⟩
    exact truss_below hx

theorem truss_T : 1 / 80 * (√5 + 3 / √5) = trussT := by
  have f5 := Real.sq_sqrt (show (0:ℝ) ≤ 5 by norm_num)
  have h5 := truss_five_pos
  unfold trussT trussAmax
  field_simp
  nlinarith

theorem truss_Vmax : trussVmax = (√10 + 3 / √10) / 80 := by
  have h : (0:ℝ) < √10 := Real.sqrt_pos.2 (by norm_num)
  have f := Real.sq_sqrt (show (0:ℝ) ≤ 10 by norm_num)
  have e5 : √(16 + (3:ℝ) ^ 2) = 5 := by
    rw [show (16 + (3:ℝ) ^ 2) = 5 ^ 2 by norm_num, Real.sqrt_sq (by norm_num)]
  have e1 : √((16 + (3:ℝ) ^ 2) / (1 + 3 ^ 2)) = 5 / √10 := by
    rw [Real.sqrt_div (by norm_num), e5]
    norm_num
  have e2 : √(1 + (3:ℝ) ^ 2) = √10 := by norm_num
  simp only [trussVmax, trussF, trussVolume, trussX1, Matrix.cons_val_zero, e1, e2, e5]
  field_simp
  norm_num

theorem truss_quot {V y b : ℝ} (hV : 0 < V) (hy : 0 < y) (k : 4 + y ^ 2 = 80 * V * b) :
    (4 + y ^ 2) / (0.01 * y) / V = 8000 * b / y := by
  rw [k]
  field_simp
  norm_num
  ring

theorem truss_eq_div {V q b : ℝ} (hb : 0 < b) (h : q = 80 * V * b) : V = q / (80 * b) := by
  rw [h]
  field_simp

/-- `calc_y` inverts the volume of part B. -/
theorem truss_solve {V : ℝ} (h1 : trussT ≤ V) (h2 : V ≤ trussVmax) :
    2 ≤ trussY V ∧ trussY V ≤ 3 ∧ V = (4 + trussY V ^ 2) / (80 * √(1 + trussY V ^ 2)) ∧
    trussS V = 8000 * √(1 + trussY V ^ 2) / trussY V := by
  have f5 := Real.sq_sqrt (show (0:ℝ) ≤ 5 by norm_num)
  have h5 := truss_five_pos
  have f10 := Real.sq_sqrt (show (0:ℝ) ≤ 10 by norm_num)
  have h10 : (0:ℝ) < √10 := Real.sqrt_pos.2 (by norm_num)
  have hT : trussT = 0.02 * √5 := by unfold trussT trussAmax; ring
  have Vp : 0.02 * √5 ≤ V := by rw [← hT]; exact h1
  have V0 : 0 < V := by linarith [mul_pos (by norm_num : (0:ℝ) < 0.02) h5]
  have V2 : 0.002 ≤ V ^ 2 := by nlinarith
  have hd : 0 ≤ 6400 * V ^ 2 - 12 := by linarith
  have d1 := Real.sq_sqrt hd
  have d0 := Real.sqrt_nonneg (6400 * V ^ 2 - 12)
  have dlow : 0.4 * √5 ≤ √(6400 * V ^ 2 - 12) := by
    rw [show 0.4 * √5 = √(0.4 ^ 2 * 5) by rw [Real.sqrt_mul (by norm_num), Real.sqrt_sq (by norm_num)]]
    exact Real.sqrt_le_sqrt (by nlinarith)
  set d := √(6400 * V ^ 2 - 12) with hdd
  set s := 40 * V + d / 2 with hs
  have s5 : √5 ≤ s := by rw [hs]; linarith
  have s0 : 0 < s := by linarith
  have hs2 : s ^ 2 = 3200 * V ^ 2 + 40 * V * d - 3 := by rw [hs]; nlinarith
  have hs3 : s * (80 * V - s) = 3 := by rw [hs]; nlinarith
  have hY : trussY V = √(s ^ 2 - 1) := by
    unfold trussY
    rw [hs2, ← hdd]
    congr 1
    ring
  have s25 : 5 ≤ s ^ 2 := by nlinarith
  have Y2 : trussY V ^ 2 = s ^ 2 - 1 := by rw [hY, Real.sq_sqrt (by linarith)]
  have Yn : 0 ≤ trussY V := by rw [hY]; exact Real.sqrt_nonneg _
  have e : √(1 + trussY V ^ 2) = s := by
    rw [Y2, show 1 + (s ^ 2 - 1) = s ^ 2 by ring, Real.sqrt_sq s0.le]
  have y2 : 2 ≤ trussY V := (sq_le_sq₀ (by norm_num) Yn).1 (by linarith)
  have y3 : trussY V ≤ 3 := by
    refine (sq_le_sq₀ Yn (by norm_num)).1 ?_
    rw [truss_Vmax] at h2
    have : s ≤ √10 := by
      by_contra hc
      push Not at hc
      have k1 : 80 * V = s + 3 / s := by
        field_simp
        nlinarith
      have k2 : 80 * V ≤ √10 + 3 / √10 := by linarith
      have : (s + 3 / s) - (√10 + 3 / √10) = (s - √10) * (s * √10 - 3) / (s * √10) := by field_simp; ring
      have : 0 < (s - √10) * (s * √10 - 3) / (s * √10) := by
        apply div_pos (mul_pos (by linarith) (by nlinarith)) (by positivity)
      linarith
    nlinarith
  have k : 4 + trussY V ^ 2 = 80 * V * √(1 + trussY V ^ 2) := by
    rw [e, Y2]
    linarith
  have hyp : 0 < trussY V := by linarith
  have bp : 0 < √(1 + trussY V ^ 2) := by rw [e]; exact s0
  refine ⟨y2, y3, truss_eq_div bp k, ?_⟩
  exact truss_quot V0 hyp k

/-- C144: every returned point is Pareto-optimal. -/
theorem C144_returned : ∀ f ∈ trussFront, ParetoPoint (Space3 trussFeasible) (onSpace3 trussF) f := by
  intro f hf
  rw [C144_front]
  have h5 := truss_five_pos
  have f5 := Real.sq_sqrt (show (0:ℝ) ≤ 5 by norm_num)
  have hT : trussT = 0.02 * √5 := by unfold trussT trussAmax; ring
  have l5 : 2 ≤ √5 := by nlinarith
  rcases List.mem_append.1 hf with hf | hf
  · obtain ⟨v, hv, rfl⟩ := List.mem_map.1 hf
    obtain ⟨h1, h2⟩ := linspace_mem (by rw [hT]; unfold trussSmax; norm_num; nlinarith) hv
    unfold trussSmax at h1
    norm_num at h1
    have vp : 0 < v := by linarith
    refine Or.inl ⟨vp, ?_, ?_, ?_⟩
    · simp
      field_simp
    · simp
      rw [le_div_iff₀ vp]
      rw [hT] at h2
      nlinarith
    · simp
      rw [div_le_iff₀ vp]
      nlinarith
  · obtain ⟨v, hv, rfl⟩ := List.mem_map.1 hf
    have hle : trussT ≤ trussVmax := by
      have e2 := (truss_bar (le_refl (2:ℝ))).1
      have e3 := (truss_bar (show (2:ℝ) ≤ 3 by norm_num)).1
      have := truss_vol_strict (le_refl (2:ℝ)) (show (2:ℝ) < 3 by norm_num)
      rw [e2, e3] at this
      norm_num at this
      rw [truss_Vmax, ← truss_T]
      linarith
    obtain ⟨h1, h2⟩ := linspace_mem hle hv
    obtain ⟨a, b, c, e⟩ := truss_solve h1 h2
    exact Or.inr ⟨_, a, b, c, e⟩

/-- C144: 1100 points are returned, among them both ends of the front. -/
theorem C144_ends : trussFront.length = 1100 ∧ ![(0.004 : ℝ), 100000] ∈ trussFront ∧
    ![13 / (80 * √10), 8000 * √10 / 3] ∈ trussFront := by
  refine ⟨by simp [trussFront, linspace], ?_, ?_⟩
  · refine List.mem_append_left _ (List.mem_map.2 ⟨0.004, ?_, by norm_num⟩)
    refine List.mem_map.2 ⟨0, by simp, ?_⟩
    unfold trussSmax
    norm_num
  · have hv : trussVmax = 13 / (80 * √10) := by
      rw [truss_Vmax]
      have h10 : (0:ℝ) < √10 := Real.sqrt_pos.2 (by norm_num)
      have f10 := Real.sq_sqrt (show (0:ℝ) ≤ 10 by norm_num)
      field_simp
      nlinarith
    have hle : trussT ≤ trussVmax := by
      have e2 := (truss_bar (le_refl (2:ℝ))).1
      have e3 := (truss_bar (show (2:ℝ) ≤ 3 by norm_num)).1
      have := truss_vol_strict (le_refl (2:ℝ)) (show (2:ℝ) < 3 by norm_num)
      rw [e2, e3] at this
      norm_num at this
      rw [truss_Vmax, ← truss_T]
      linarith
    obtain ⟨a, b, c, e⟩ := truss_solve hle le_rfl
    have y3 : trussY trussVmax = 3 := by
      apply le_antisymm b
      by_contra hc
      push Not at hc
      have := truss_vol_strict a hc
      rw [← c, hv] at this
      norm_num at this
    refine List.mem_append_right _ (List.mem_map.2 ⟨trussVmax, ?_, ?_⟩)
    · refine List.mem_map.2 ⟨99, by simp, ?_⟩
      norm_num
      ring
    · rw [y3] at e
      rw [e, hv]
      norm_num

example : TrussTradeoff ![0.004, 100000] := by
  have := C144_returned _ C144_ends.2.1
  rwa [C144_front] at this

example : trussFeasible 0.005 0.005 2 ∧ ¬ trussFeasible 0 0.005 2 := by
  constructor
  · refine ⟨⟨⟨by norm_num, by unfold trussAmax; norm_num⟩, ⟨by norm_num, by unfold trussAmax; norm_num⟩, by norm_num, by norm_num⟩, _,
      by unfold trussStress; rw [if_neg (by norm_num)], ?_⟩
    have h1 : √(16 + (2:ℝ) ^ 2) ≤ 5 := by
      rw [show (5:ℝ) = √(5 ^ 2) by rw [Real.sqrt_sq (by norm_num)]]
      exact Real.sqrt_le_sqrt (by norm_num)
    have h2 : √(1 + (2:ℝ) ^ 2) ≤ 3 := by
      rw [show (3:ℝ) = √(3 ^ 2) by rw [Real.sqrt_sq (by norm_num)]]
      exact Real.sqrt_le_sqrt (by norm_num)
    unfold trussSmax
    rw [sub_nonpos, max_le_iff]
    constructor
    · rw [div_le_iff₀ (by norm_num)]; norm_num at h1 ⊢; linarith
    · rw [div_le_iff₀ (by norm_num)]; norm_num at h2 ⊢; linarith
  · intro h
    exact absurd (truss_feasible h).1 (lt_irrefl _)

end Props
