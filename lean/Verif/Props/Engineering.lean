import Mathlib.Tactic.Linarith
import Mathlib.Tactic.NormNum
import Mathlib.Tactic.FieldSimp
import Mathlib.Tactic.Ring
import Mathlib.Tactic.IntervalCases
import Mathlib.Analysis.Real.Pi.Bounds
import Mathlib.Analysis.Complex.ExponentialBounds
import Verif.Model.Engineering
import Verif.Props.Problem
import Verif.Props.GProblems

/-!
# C151: the engineering design problems
-/

set_option linter.unusedSimpArgs false
set_option linter.unusedVariables false

namespace Props
open Model Spec

private theorem div_some {a b : ℝ} (h : b ≠ 0) : engDiv a b = some (a / b) := by simp [engDiv, h]

private theorem sqrt_some {a : ℝ} (h : 0 ≤ a) : engSqrt a = some √a := by simp [engSqrt, not_lt.2 h]

private theorem within_get {xl xu x : List ℝ} (h : Within xl xu x) (i : ℕ) (hi : i < xl.length) : xl.getD i 0 ≤ col x i ∧ col x i ≤ xu.getD i 0 := by
  have := h.2 i (by rw [h.1]; exact hi)
  simpa [col] using this

/-! ### OSY -/

private theorem osy_quad (a b : ℝ) (h1 : 2 ≤ a + b) (h2 : a + b ≤ 6) (h3 : b ≤ 2 + a) (h4 : a ≤ 2 + 3 * b) : 25 * (a - 2) ^ 2 + (b - 2) ^ 2 ≤ 226 := by
  have b0 : 0 ≤ b := by linarith
  have b4 : b ≤ 4 := by linarith
  have a0 : 0 ≤ a := by linarith
  have a5 : a ≤ 5 := by linarith
  have hb : (b - 2) ^ 2 ≤ 4 := by nlinarith
  rcases le_total a 4.8 with h | h
  · nlinarith [mul_nonneg a0 (sub_nonneg.2 a5)]
  · have hb' : (b - 2) ^ 2 ≤ 4 / 3 := by
      have : 2 - b ≤ 16 / 15 := by linarith
      have : 0 ≤ 2 - b := by linarith
      nlinarith
    have h5 : (b - 2) ^ 2 ≤ (2 - (a - 2) / 3) ^ 2 := by
      have u1 : 0 ≤ 2 - b := by linarith
      have u2 : 2 - b ≤ 2 - (a - 2) / 3 := by linarith
      nlinarith
    nlinarith

private theorem osy_quad' (c d : ℝ) (h1 : 1 ≤ c) (h2 : c ≤ 5) (h3 : 0 ≤ d) (h4 : d ≤ 4 - (c - 3) ^ 2) : (c - 1) ^ 2 + (d - 4) ^ 2 ≤ 32 := by
  have : d ≤ 4 := by nlinarith [sq_nonneg (c - 3)]
  have h5 : (d - 4) ^ 2 ≤ 16 := by nlinarith
  have h6 : (c - 1) ^ 2 ≤ 16 := by nlinarith
  linarith

private theorem osy_sq (e : ℝ) (h1 : 1 ≤ e) (h2 : e ≤ 5) : (e - 1) ^ 2 ≤ 16 := by nlinarith

private theorem osy_low (a b c e : ℝ) (h : 2 ≤ a + b) (hc : 1 ≤ c) (he : 1 ≤ e) : 4 ≤ a ^ 2 + b ^ 2 + c ^ 2 + e ^ 2 := by
  have : 2 ≤ a ^ 2 + b ^ 2 := by nlinarith [sq_nonneg (a - b)]
  have : 1 ≤ c ^ 2 := by nlinarith
  have : 1 ≤ e ^ 2 := by nlinarith
  linarith

/-- **C151 (OSY).** Within the bounds everything is defined; no feasible solution has an objective below -274 or 4, and these values are attained by feasible solutions. -/
theorem C151_osy : osyProblem.WellDefined ∧ (∀ x f, osyProblem.Feasible x f → -274 ≤ f.getD 0 0 ∧ 4 ≤ f.getD 1 0) ∧
    (∃ x f, osyProblem.Feasible x f ∧ f.getD 0 0 = -274) ∧ ∃ x f, osyProblem.Feasible x f ∧ f.getD 1 0 = 4 := by
  refine ⟨⟨by simp [osyProblem], fun x _ => ⟨_, _, rfl, rfl, rfl⟩⟩, ?_, ?_, ?_⟩
  · rintro x f ⟨hw, g, he, hg⟩
    have b0 := within_get hw 0 (by simp [osyProblem])
    have b1 := within_get hw 1 (by simp [osyProblem])
    have b2 := within_get hw 2 (by simp [osyProblem])
    have b3 := within_get hw 3 (by simp [osyProblem])
    have b4 := within_get hw 4 (by simp [osyProblem])
    have b5 := within_get hw 5 (by simp [osyProblem])
    have hl : x.length = 6 := by rw [hw.1]; rfl
    obtain ⟨a, b, c, d, e, k, rfl⟩ : ∃ a b c d e k, x = [a, b, c, d, e, k] := by
      match x, hl with
      | [a, b, c, d, e, k], _ => exact ⟨a, b, c, d, e, k, rfl⟩
    simp [osyProblem, col] at b0 b1 b2 b3 b4 b5
    simp only [osyProblem, Option.some.injEq, Prod.mk.injEq] at he
    obtain ⟨rfl, rfl⟩ := he
    simp [col] at hg
    obtain ⟨h1, h2, h3, h4, h5, h6⟩ := hg
    constructor
    · simp [osyF1, col]
      have e1 := osy_quad a b (by linarith) (by linarith) (by linarith) (by linarith)
      have e2 := osy_quad' c d b2.1 b2.2 b3.1 (by linarith)
      have e3 := osy_sq e b4.1 b4.2
      linarith
    · simp
      have := osy_low a b c e (by linarith) b2.1 b4.1
      linarith [sq_nonneg d, sq_nonneg k]
  · refine ⟨[5, 1, 5, 0, 5, 0], _, ⟨⟨rfl, ?_⟩, _, rfl, ?_⟩, ?_⟩
    · intro i hi; simp at hi; interval_cases i <;> norm_num [osyProblem]
    · simp [col]; norm_num
    · norm_num [osyF1, col]
  · refine ⟨[1, 1, 1, 0, 1, 0], _, ⟨⟨rfl, ?_⟩, _, rfl, ?_⟩, ?_⟩
    · intro i hi; simp at hi; interval_cases i <;> norm_num [osyProblem]
    · simp [col]; norm_num
    · norm_num

/-! ### Car side impact -/

private theorem csi_col (x : List ℝ) : col (0 :: x) 1 = col x 0 ∧ col (0 :: x) 2 = col x 1 ∧ col (0 :: x) 3 = col x 2 ∧ col (0 :: x) 4 = col x 3 ∧ col (0 :: x) 5 = col x 4 ∧
    col (0 :: x) 6 = col x 5 ∧ col (0 :: x) 7 = col x 6 := by simp [col]

private theorem csi_scaled {a b : ℝ} (c : ℝ) (hc : 0 < c) (h : a * c = b) : a ≤ 0 ↔ b ≤ 0 := by
  rw [← h]
  constructor
  · intro ha; nlinarith
  · intro hb; by_contra hn; nlinarith [mul_pos (not_le.1 hn) hc]

/-- **C151 (car side impact).** `Carside` and `CSI` are the same problem: same bounds, and every solution has the same objectives and is feasible for both or for neither (constraint by constraint). -/
theorem C151_carside : carsideProblem.WellDefined ∧ csiProblem.WellDefined ∧ carsideProblem.xl = csiProblem.xl ∧ carsideProblem.xu = csiProblem.xu ∧
    (∀ x f g, carsideProblem.eval x = some (f, g) → ∃ g', csiProblem.eval x = some (f, g') ∧ List.Forall₂ (fun a b => a ≤ 0 ↔ b ≤ 0) g g') ∧
    ∀ x f, carsideProblem.Feasible x f ↔ csiProblem.Feasible x f := by
  have key : ∀ x f g, carsideProblem.eval x = some (f, g) → ∃ g', csiProblem.eval x = some (f, g') ∧ List.Forall₂ (fun a b => a ≤ 0 ↔ b ≤ 0) g g' := by
    intro x f g h
    simp only [carsideProblem, Option.some.injEq, Prod.mk.injEq] at h
    obtain ⟨rfl, rfl⟩ := h
    refine ⟨_, by
      simp only [csiProblem, Option.some.injEq, Prod.mk.injEq]
      refine ⟨?_, rfl⟩
      simp only [csi_col x, List.cons.injEq, and_true, true_and]
      ring, ?_⟩
    simp only [csi_col x, List.forall₂_cons, List.forall₂_nil_left_iff]
    refine ⟨?_, ?_, ?_, ?_, ?_, ?_, ?_, ?_, ?_, ?_, trivial⟩
    all_goals
      generalize col x 0 = x0
      generalize col x 1 = x1
      generalize col x 2 = x2
      generalize col x 3 = x3
      generalize col x 4 = x4
      generalize col x 5 = x5
      generalize col x 6 = x6
    · exact csi_scaled 1 (by norm_num) (by ring)
    · exact csi_scaled 0.32 (by norm_num) (by ring)
    · exact csi_scaled 0.32 (by norm_num) (by ring)
    · exact csi_scaled 0.32 (by norm_num) (by ring)
    · exact csi_scaled 32 (by norm_num) (by ring)
    · exact csi_scaled 32 (by norm_num) (by ring)
    · exact csi_scaled 32 (by norm_num) (by ring)
    · exact csi_scaled 4 (by norm_num) (by ring)
    · exact csi_scaled 9.9 (by norm_num) (by ring)
    · exact csi_scaled 15.7 (by norm_num) (by ring)
  refine ⟨⟨by simp [carsideProblem], fun x _ => ⟨_, _, rfl, rfl, rfl⟩⟩, ⟨by simp [csiProblem], fun x _ => ⟨_, _, rfl, rfl, rfl⟩⟩, rfl, rfl, key, ?_⟩
  intro x f
  constructor
  · rintro ⟨hw, g, he, hg⟩
    obtain ⟨g', he', hr⟩ := key x f g he
    refine ⟨hw, g', he', ?_⟩
    intro v hv
    obtain ⟨i, hi, rfl⟩ := List.mem_iff_getElem.1 hv
    have hi' : i < g.length := by rw [hr.length_eq]; exact hi
    exact (List.forall₂_iff_get.1 hr).2 i hi' hi |>.1 (hg _ (List.getElem_mem hi'))
  · rintro ⟨hw, g, he, hg⟩
    obtain ⟨f', g₀, he₀⟩ : ∃ f' g₀, carsideProblem.eval x = some (f', g₀) := ⟨_, _, rfl⟩
    obtain ⟨g', he', hr⟩ := key x f' g₀ he₀
    rw [he] at he'
    simp only [Option.some.injEq, Prod.mk.injEq] at he'
    obtain ⟨rfl, rfl⟩ := he'
    refine ⟨hw, g₀, he₀, ?_⟩
    intro v hv
    obtain ⟨i, hi, rfl⟩ := List.mem_iff_getElem.1 hv
    have hi' : i < g.length := by rw [← hr.length_eq]; exact hi
    exact (List.forall₂_iff_get.1 hr).2 i hi hi' |>.2 (hg _ (List.getElem_mem hi'))

/-! ### Water resource management -/

private theorem wrm_some {x : List ℝ} (hw : Within wrmProblem.xl wrmProblem.xu x) :
    (0.01 ≤ col x 0 ∧ col x 0 ≤ 0.45) ∧ (0.01 ≤ col x 1 ∧ col x 1 ≤ 0.1) ∧ (0.01 ≤ col x 2 ∧ col x 2 ≤ 0.1) ∧ col x 0 * col x 1 ≠ 0 := by
  have b0 := within_get hw 0 (by simp [wrmProblem])
  have b1 := within_get hw 1 (by simp [wrmProblem])
  have b2 := within_get hw 2 (by simp [wrmProblem])
  simp only [wrmProblem, List.getD_cons_zero, List.getD_cons_succ] at b0 b1 b2
  rw [show (0.10 : ℝ) = 0.1 by norm_num] at b1 b2
  refine ⟨b0, b1, b2, ?_⟩
  have : 0 < col x 0 := by linarith [b0.1, show (0:ℝ) < 0.01 by norm_num]
  have : 0 < col x 1 := by linarith [b1.1, show (0:ℝ) < 0.01 by norm_num]
  positivity

/-- **C151 (water resource management).** Within the bounds everything is defined, with five objectives and seven constraints. The objectives are bounded below by the drainage network cost
63840.2774, the storage cost 30, the treatment cost at 1% of capacity, the flood damage at capacity, and the economic loss 65/9; each bound is the value at a corner of the bounds. -/
theorem C151_wrm : wrmProblem.WellDefined ∧ ∀ x f g, Within wrmProblem.xl wrmProblem.xu x → wrmProblem.eval x = some (f, g) →
    List.Forall₂ (· ≤ ·) [63840.2774, 30, 305700 * 2289 * 0.01 / (137.34 : ℝ) ^ (0.65 : ℝ), 572250 * Real.exp (-1.136), 65 / 9] f := by
  have hp : (0:ℝ) < (0.06 * 2289 : ℝ) ^ (0.65 : ℝ) := Real.rpow_pos_of_pos (by norm_num) _
  constructor
  · refine ⟨by simp [wrmProblem], ?_⟩
    intro x hw
    obtain ⟨b0, b1, b2, h0⟩ := wrm_some hw
    simp only [wrmProblem, csi_col x, div_some hp.ne', div_some h0, Option.bind_eq_bind, Option.bind_some]
    exact ⟨_, _, rfl, rfl, rfl⟩
  · intro x f g hw he
    obtain ⟨b0, b1, b2, h0⟩ := wrm_some hw
    simp only [wrmProblem, csi_col x, div_some hp.ne', div_some h0, Option.bind_eq_bind, Option.bind_some, Option.some.injEq, Prod.mk.injEq] at he
    obtain ⟨rfl, -⟩ := he
    have q0 : 0 < col x 0 := by linarith [b0.1, show (0:ℝ) < 0.01 by norm_num]
    have q1 : 0 < col x 1 := by linarith [b1.1, show (0:ℝ) < 0.01 by norm_num]
    simp only [List.forall₂_cons, List.forall₂_nil_left_iff]
    refine ⟨?_, ?_, ?_, ?_, ?_, trivial⟩
    · norm_num at *; linarith
    · norm_num at *; linarith
    · rw [show (0.06 * 2289 : ℝ) = 137.34 by norm_num] at hp ⊢
      apply div_le_div_of_nonneg_right _ hp.le
      nlinarith [b1.1]
    · have : Real.exp (-1.136) ≤ Real.exp (-39.75 * col x 1 + 9.9 * col x 2 + 2.74) := by
        apply Real.exp_le_exp.2
        norm_num at *; linarith
      linarith
    · have : 1.39 / 0.045 ≤ 1.39 / (col x 0 * col x 1) := by
        apply div_le_div_of_nonneg_left (by norm_num) (by positivity)
        have : col x 0 * col x 1 ≤ 0.45 * 0.1 := mul_le_mul b0.2 b1.2 q1.le (by norm_num)
        linarith [show (0.45 * 0.1 : ℝ) = 0.045 by norm_num]
      generalize 1.39 / (col x 0 * col x 1) = q at this ⊢
      norm_num at *; linarith

/-- A feasible plan exists. -/
theorem C151_wrm_feasible : ∃ f, wrmProblem.Feasible [0.2, 0.05, 0.02] f := by
  have hp : (0:ℝ) < (0.06 * 2289 : ℝ) ^ (0.65 : ℝ) := Real.rpow_pos_of_pos (by norm_num) _
  have hw : Within wrmProblem.xl wrmProblem.xu [0.2, 0.05, 0.02] := by
    refine ⟨rfl, ?_⟩
    intro i hi; simp at hi; interval_cases i <;> norm_num [wrmProblem]
  obtain ⟨b0, b1, b2, h0⟩ := wrm_some hw
  refine ⟨_, hw, _, by
    simp only [wrmProblem, csi_col, div_some hp.ne', div_some h0, Option.bind_eq_bind, Option.bind_some]; rfl, ?_⟩
  simp [col]
  norm_num

/-! ### Kursawe -/

private theorem kur_zero (a b : ℝ) : 0 < Real.exp (-0.2 * √(a ^ 2 + b ^ 2)) ∧ Real.exp (-0.2 * √(a ^ 2 + b ^ 2)) ≤ 1 ∧ (Real.exp (-0.2 * √(a ^ 2 + b ^ 2)) = 1 → a = 0 ∧ b = 0) := by
  have h0 := Real.sqrt_nonneg (a ^ 2 + b ^ 2)
  refine ⟨Real.exp_pos _, Real.exp_le_one_iff.2 (by norm_num), ?_⟩
  intro h
  have h1 : √(a ^ 2 + b ^ 2) = 0 := by
    have := Real.exp_eq_one_iff _ |>.1 h
    norm_num at this
    linarith
  have h2 := (Real.sqrt_eq_zero (by positivity)).1 h1
  constructor <;> nlinarith [sq_nonneg a, sq_nonneg b]

private theorem kur_term (v : ℝ) (h : -5 ≤ v) (h' : v ≤ 5) : -5 < |v| ^ (0.8 : ℝ) + 5 * Real.sin (v ^ 3) ∧ |v| ^ (0.8 : ℝ) + 5 * Real.sin (v ^ 3) ≤ 10 := by
  have h1 := Real.neg_one_le_sin (v ^ 3)
  have h2 := Real.sin_le_one (v ^ 3)
  have ha : |v| ≤ 5 := abs_le.2 ⟨h, h'⟩
  have h5 : |v| ^ (0.8 : ℝ) ≤ 5 := by
    rcases le_total |v| 1 with h | h
    · have := Real.rpow_le_one (abs_nonneg v) h (by norm_num : (0:ℝ) ≤ 0.8)
      linarith
    · calc |v| ^ (0.8 : ℝ) ≤ |v| ^ (1 : ℝ) := Real.rpow_le_rpow_of_exponent_le h (by norm_num)
        _ = |v| := Real.rpow_one _
        _ ≤ 5 := ha
  refine ⟨?_, by linarith⟩
  rcases eq_or_ne v 0 with rfl | hv
  · rw [abs_zero, Real.zero_rpow (show (0.8:ℝ) ≠ 0 by norm_num)]; simp
  · have := Real.rpow_pos_of_pos (abs_pos.2 hv) (0.8 : ℝ)
    linarith

/-- **C151 (Kursawe).** Within the bounds the first objective is between -20 and 0 and the second between -15 and 30; the first is -20 exactly at the origin, which is therefore efficient with objectives
(-20, 0). Reading the variables backwards changes nothing. -/
theorem C151_kursawe : kursaweProblem.WellDefined ∧
    (∀ x f, kursaweProblem.Feasible x f → (-20 ≤ f.getD 0 0 ∧ f.getD 0 0 < 0) ∧ (-15 < f.getD 1 0 ∧ f.getD 1 0 ≤ 30) ∧ (f.getD 0 0 = -20 ↔ x = [0, 0, 0])) ∧
    kursaweProblem.Efficient [0, 0, 0] [-20, 0] ∧
    ∀ x f g, x.length = 3 → kursaweProblem.eval x = some (f, g) → kursaweProblem.eval x.reverse = some (f, g) := by
  have hrange : ∀ x f, kursaweProblem.Feasible x f → (-20 ≤ f.getD 0 0 ∧ f.getD 0 0 < 0) ∧ (-15 < f.getD 1 0 ∧ f.getD 1 0 ≤ 30) ∧ (f.getD 0 0 = -20 ↔ x = [0, 0, 0]) := by
    rintro x f ⟨hw, g, he, -⟩
    have b0 := within_get hw 0 (by simp [kursaweProblem])
    have b1 := within_get hw 1 (by simp [kursaweProblem])
    have b2 := within_get hw 2 (by simp [kursaweProblem])
    have hl : x.length = 3 := by rw [hw.1]; simp [kursaweProblem]
    obtain ⟨a, b, c, rfl⟩ : ∃ a b c, x = [a, b, c] := by
      match x, hl with
      | [a, b, c], _ => exact ⟨a, b, c, rfl⟩
    simp [kursaweProblem, col, List.replicate] at b0 b1 b2
    simp only [kursaweProblem, Option.some.injEq, Prod.mk.injEq] at he
    obtain ⟨rfl, -⟩ := he
    have k0 := kur_term a b0.1 b0.2
    have k1 := kur_term b b1.1 b1.2
    have k2 := kur_term c b2.1 b2.2
    have e0 := kur_zero a b
    have e1 := kur_zero b c
    simp only [List.range_succ, List.range_zero, List.nil_append, List.singleton_append, List.cons_append, List.map_cons, List.map_nil, List.sum_cons, List.sum_nil, List.getD_cons_zero,
      List.getD_cons_succ, col, List.cons.injEq, and_true, zero_add, add_zero]
    refine ⟨⟨by linarith, by linarith⟩, ⟨by linarith, by linarith⟩, ?_⟩
    constructor
    · intro h
      obtain ⟨rfl, rfl⟩ := e0.2.2 (by linarith [e0.2.1, e1.2.1])
      exact ⟨rfl, rfl, (e1.2.2 (by linarith [e0.2.1, e1.2.1])).2⟩
    · rintro ⟨rfl, rfl, rfl⟩
      norm_num
  have hz : kursaweProblem.Feasible [0, 0, 0] [-20, 0] := by
    refine ⟨⟨by simp [kursaweProblem], ?_⟩, [], ?_, by simp⟩
    · intro i hi; simp at hi; interval_cases i <;> norm_num [kursaweProblem, List.replicate]
    · simp [kursaweProblem, col, List.range_succ]
      norm_num
  refine ⟨⟨by simp [kursaweProblem], fun x _ => ⟨_, _, rfl, rfl, rfl⟩⟩, hrange, ⟨hz, ?_⟩, ?_⟩
  · intro y f' hy hle
    have h := hrange y f' hy
    match f', hle with
    | [u, v], hle =>
      simp only [List.forall₂_cons, List.getD_cons_zero, List.getD_cons_succ] at hle h
      have hu : u = -20 := le_antisymm hle.1 h.1.1
      have hy0 := h.2.2.1 hu
      subst hy0
      obtain ⟨-, g, he, -⟩ := hy
      obtain ⟨-, g', he', -⟩ := hz
      rw [he] at he'
      simp only [Option.some.injEq, Prod.mk.injEq] at he'
      exact he'.1
  · intro x f g hl he
    obtain ⟨a, b, c, rfl⟩ : ∃ a b c, x = [a, b, c] := by
      match x, hl with
      | [a, b, c], _ => exact ⟨a, b, c, rfl⟩
    rw [← he]
    simp only [kursaweProblem, col, List.range_succ, List.range_zero, List.nil_append, List.singleton_append, List.cons_append, List.map_cons, List.map_nil, List.sum_cons, List.sum_nil,
      List.getD_cons_zero, List.getD_cons_succ, List.reverse_cons, List.reverse_nil, add_zero, zero_add, Option.some.injEq, Prod.mk.injEq, List.cons.injEq, and_true]
    refine ⟨?_, by ring⟩
    rw [add_comm (c ^ 2), add_comm (b ^ 2) (a ^ 2)]
    ring

/-! ### TNK -/

private theorem tnk_pos {x : List ℝ} (hw : Within tnkProblem.xl tnkProblem.xu x) : 0 ≤ col x 0 ∧ 1e-30 ≤ col x 1 ∧ 0 < col x 1 := by
  have b0 := within_get hw 0 (by simp [tnkProblem])
  have b1 := within_get hw 1 (by simp [tnkProblem])
  simp only [tnkProblem, List.getD_cons_zero, List.getD_cons_succ] at b0 b1
  exact ⟨b0.1, b1.1, lt_of_lt_of_le (by norm_num) b1.1⟩

private theorem tnk_feasible (u v : ℝ) (hu : 0 ≤ u) (hu' : u ≤ Real.pi) (hv : 1e-30 ≤ v) (hv' : v ≤ Real.pi)
    (h1 : 1 + 0.1 * Real.cos (16 * Real.arctan (u / v)) ≤ u ^ 2 + v ^ 2) (h2 : (u - 0.5) ^ 2 + (v - 0.5) ^ 2 ≤ 0.5) : tnkProblem.Feasible [u, v] [u, v] := by
  have hv0 : v ≠ 0 := (lt_of_lt_of_le (by norm_num) hv : (0:ℝ) < v).ne'
  refine ⟨⟨rfl, ?_⟩, _, by simp only [tnkProblem, col, List.getD_cons_zero, List.getD_cons_succ, div_some hv0, Option.bind_eq_bind, Option.bind_some]; rfl, ?_⟩
  · intro i hi; simp at hi; interval_cases i
    · simpa [tnkProblem] using ⟨hu, hu'⟩
    · simpa [tnkProblem] using ⟨hv, hv'⟩
  · simp only [List.forall_mem_cons, List.not_mem_nil, false_implies, implies_true, and_true]
    constructor
    · linarith
    · norm_num at h2 ⊢; linarith

private theorem tnk_inv {x f : List ℝ} (h : tnkProblem.Feasible x f) : ∃ u v, x = [u, v] ∧ f = [u, v] ∧ 0 ≤ u ∧ u ≤ Real.pi ∧ 1e-30 ≤ v ∧ v ≤ Real.pi ∧
    1 + 0.1 * Real.cos (16 * Real.arctan (u / v)) ≤ u ^ 2 + v ^ 2 ∧ (u - 0.5) ^ 2 + (v - 0.5) ^ 2 ≤ 0.5 := by
  obtain ⟨hw, g, he, hg⟩ := h
  obtain ⟨h0, h1, h2⟩ := tnk_pos hw
  have b0 := within_get hw 0 (by simp [tnkProblem])
  have b1 := within_get hw 1 (by simp [tnkProblem])
  have hl : x.length = 2 := by rw [hw.1]; simp [tnkProblem]
  obtain ⟨u, v, rfl⟩ : ∃ u v, x = [u, v] := by
    match x, hl with
    | [u, v], _ => exact ⟨u, v, rfl⟩
  simp only [tnkProblem, div_some h2.ne', Option.bind_eq_bind, Option.bind_some, Option.some.injEq, Prod.mk.injEq] at he
  obtain ⟨rfl, rfl⟩ := he
  simp only [List.forall_mem_cons, col, List.getD_cons_zero, List.getD_cons_succ, List.not_mem_nil, false_implies, implies_true, and_true, tnkProblem] at hg b0 b1 h0 h1
  refine ⟨u, v, rfl, rfl, b0.1, b0.2, b1.1, b1.2, by linarith [hg.1], ?_⟩
  have := hg.2
  norm_num at this ⊢; linarith

private theorem tnk_left {P : ℝ → Prop} {a : ℝ} (h : ∀ᶠ t in nhds a, P t) : ∃ t, t < a ∧ P t := by
  obtain ⟨t, h1, h2⟩ := ((h.filter_mono nhdsWithin_le_nhds).and (self_mem_nhdsWithin : Set.Iio a ∈ nhdsWithin a (Set.Iio a))).exists
  exact ⟨t, h2, h1⟩

/-- **C151 (TNK).** Within the bounds everything is defined. The objectives of a solution are its variables, feasible objectives lie outside the circle with radius √0.9 and within distance √0.5 of (0.5, 0.5), and
every efficient solution lies on the curve `f₁² + f₂² = 1 + 0.1 cos(16 arctan(f₁/f₂))` or on the circle around (0.5, 0.5). -/
theorem C151_tnk : tnkProblem.WellDefined ∧
    (∀ x f, tnkProblem.Feasible x f → f = x ∧ 0.9 ≤ f.getD 0 0 ^ 2 + f.getD 1 0 ^ 2 ∧ (f.getD 0 0 - 0.5) ^ 2 + (f.getD 1 0 - 0.5) ^ 2 ≤ 0.5) ∧
    ∀ x f, tnkProblem.Efficient x f →
      f.getD 0 0 ^ 2 + f.getD 1 0 ^ 2 = 1 + 0.1 * Real.cos (16 * Real.arctan (f.getD 0 0 / f.getD 1 0)) ∨ (f.getD 0 0 - 0.5) ^ 2 + (f.getD 1 0 - 0.5) ^ 2 = 0.5 := by
  refine ⟨⟨by simp [tnkProblem], ?_⟩, ?_, ?_⟩
  · intro x hw
    obtain ⟨h0, h1, h2⟩ := tnk_pos hw
    exact ⟨_, _, by simp only [tnkProblem, div_some h2.ne', Option.bind_eq_bind, Option.bind_some]; rfl, rfl, rfl⟩
  · intro x f h
    obtain ⟨u, v, rfl, rfl, -, -, -, -, h1, h2⟩ := tnk_inv h
    refine ⟨rfl, ?_, h2⟩
    simp only [List.getD_cons_zero, List.getD_cons_succ]
    have := Real.neg_one_le_cos (16 * Real.arctan (u / v))
    norm_num at this h1 ⊢; linarith
  · rintro x f ⟨h, hbest⟩
    obtain ⟨u, v, rfl, rfl, u0, u1, v0, v1, h1, h2⟩ := tnk_inv h
    simp only [List.getD_cons_zero, List.getD_cons_succ]
    by_contra hc
    push Not at hc
    have h1' : 1 + 0.1 * Real.cos (16 * Real.arctan (u / v)) < u ^ 2 + v ^ 2 := lt_of_le_of_ne h1 (Ne.symm hc.1)
    have h2' : (u - 0.5) ^ 2 + (v - 0.5) ^ 2 < 0.5 := lt_of_le_of_ne h2 hc.2
    have hv0 : 0 < v := lt_of_lt_of_le (by norm_num) v0
    rcases eq_or_lt_of_le u0 with hu | hu
    · subst hu
      have hv9 : (0.9 : ℝ) ≤ v ^ 2 := by
        have := Real.neg_one_le_cos (16 * Real.arctan (0 / v))
        norm_num at this h1 ⊢; linarith
      have hvb : (1e-30 : ℝ) < v := by
        by_contra hn
        have : v ≤ 1 / 2 := le_trans (not_lt.1 hn) (by norm_num)
        norm_num at hv9; nlinarith
      have c1 : ContinuousAt (fun t : ℝ => t ^ 2 + 0 ^ 2 - 1 - 0.1 * Real.cos (16 * Real.arctan (0 / t))) v := by
        refine ContinuousAt.sub (by fun_prop) ?_
        refine ContinuousAt.mul (by fun_prop) (Real.continuous_cos.continuousAt.comp ?_)
        refine ContinuousAt.mul (by fun_prop) (Real.continuous_arctan.continuousAt.comp ?_)
        exact ContinuousAt.div (by fun_prop) (by fun_prop) hv0.ne'
      have c2 : ContinuousAt (fun t : ℝ => 0.5 - (0 - 0.5) ^ 2 - (t - 0.5) ^ 2) v := by fun_prop
      have e1 := c1.eventually (lt_mem_nhds (show (0:ℝ) < _ by simp only; linarith))
      have e2 := c2.eventually (lt_mem_nhds (show (0:ℝ) < _ by simp only; linarith))
      have e3 := lt_mem_nhds hvb
      obtain ⟨t, ht, g1, g2, g3⟩ := tnk_left (e1.and (e2.and e3))
      have := hbest [0, t] [0, t] (tnk_feasible 0 t le_rfl Real.pi_pos.le g3.le (by linarith) (by linarith) (by linarith)) (by simp [ht.le])
      simp only [List.cons.injEq, and_true, true_and] at this
      linarith
    · have c1 : ContinuousAt (fun t : ℝ => t ^ 2 + v ^ 2 - 1 - 0.1 * Real.cos (16 * Real.arctan (t / v))) u := by fun_prop
      have c2 : ContinuousAt (fun t : ℝ => 0.5 - (t - 0.5) ^ 2 - (v - 0.5) ^ 2) u := by fun_prop
      have e1 := c1.eventually (lt_mem_nhds (show (0:ℝ) < _ by simp only; linarith))
      have e2 := c2.eventually (lt_mem_nhds (show (0:ℝ) < _ by simp only; linarith))
      have e3 := lt_mem_nhds hu
      obtain ⟨t, ht, g1, g2, g3⟩ := tnk_left (e1.and (e2.and e3))
      have := hbest [t, v] [t, v] (tnk_feasible t v g3.le (by linarith) v0 v1 (by linarith) (by linarith)) (by simp [ht.le])
      simp only [List.cons.injEq, and_true, true_and] at this
      linarith

/-- The hypotheses are met: there are feasible solutions. -/
theorem C151_tnk_feasible : tnkProblem.Feasible [1, 0.9] [1, 0.9] := by
  have := Real.cos_le_one (16 * Real.arctan (1 / 0.9))
  refine tnk_feasible _ _ (by norm_num) (by linarith [Real.pi_gt_three]) (by norm_num) (by linarith [Real.pi_gt_three, show (0.9:ℝ) < 1 by norm_num]) ?_ (by norm_num)
  generalize Real.cos (16 * Real.arctan (1 / 0.9)) = c at *
  norm_num; linarith

/-! ### Welded beam -/

private theorem weld_bounds {x : List ℝ} (hw : Within weldedBeamProblem.xl weldedBeamProblem.xu x) : 0 < col x 0 ∧ 0 < col x 1 ∧ 0 < col x 2 ∧ 0 < col x 3 ∧ col x 2 ≤ 10 := by
  have b0 := within_get hw 0 (by simp [weldedBeamProblem])
  have b1 := within_get hw 1 (by simp [weldedBeamProblem])
  have b2 := within_get hw 2 (by simp [weldedBeamProblem])
  have b3 := within_get hw 3 (by simp [weldedBeamProblem])
  simp only [weldedBeamProblem, List.getD_cons_zero, List.getD_cons_succ] at b0 b1 b2 b3
  exact ⟨lt_of_lt_of_le (by norm_num) b0.1, lt_of_lt_of_le (by norm_num) b1.1, lt_of_lt_of_le (by norm_num) b2.1, lt_of_lt_of_le (by norm_num) b3.1, b2.2⟩

private theorem weld_eval (x : List ℝ) (h : ℝ) (l t b : ℝ) (hh : col x 0 = h) (hl : col x 1 = l) (ht : col x 2 = t) (hb : col x 3 = b) (h0 : 0 < h) (l0 : 0 < l) (t0 : 0 < t) (b0 : 0 < b) :
    weldedBeamProblem.eval x = some ([1.10471 * h ^ 2 * l + 0.04811 * t * b * (14 + l), 2.1952 / (b * t ^ 3)],
      [1 / 13600 * (weldShear h l t - 13600), 1 / 30000 * (504000 / (b * t ^ 2) - 30000), 1 / (5 - 0.125) * (h - b), 1 / 6000 * (6000 - 64746.022 * (1 - 0.0282346 * t) * t * b ^ 3)]) := by
  have hR : 0 < 0.25 * (l ^ 2 + (h + t) ^ 2) := by positivity
  have hR' := Real.sqrt_pos.2 hR
  have hs : 0 < √(0.5 : ℝ) := Real.sqrt_pos.2 (by norm_num)
  have hs2 : 0 < √(2 : ℝ) := Real.sqrt_pos.2 (by norm_num)
  have hJ : 0 < 2 * √0.5 * h * l * (l ^ 2 / 12 + 0.25 * (h + t) ^ 2) := by positivity
  have ht1 : 0 < √2 * h * l := by positivity
  have hq : 0 < (6000 / (√2 * h * l)) ^ 2 + (6000 * (14 + l / 2) * √(0.25 * (l ^ 2 + (h + t) ^ 2)) / (2 * √0.5 * h * l * (l ^ 2 / 12 + 0.25 * (h + t) ^ 2))) ^ 2 +
      6000 / (√2 * h * l) * (6000 * (14 + l / 2) * √(0.25 * (l ^ 2 + (h + t) ^ 2)) / (2 * √0.5 * h * l * (l ^ 2 / 12 + 0.25 * (h + t) ^ 2))) * l / √(0.25 * (l ^ 2 + (h + t) ^ 2)) := by positivity
  have h2 : 2 * √(0.5 : ℝ) = √2 := by
    rw [show (0.5 : ℝ) = 2 / 2 ^ 2 by norm_num, Real.sqrt_div (by norm_num), Real.sqrt_sq (by norm_num)]
    ring
  rw [h2] at hJ hq
  simp only [weldedBeamProblem, hh, hl, ht, hb, div_some (by positivity : b * t ^ 3 ≠ 0), div_some (by positivity : b * t ^ 2 ≠ 0), sqrt_some hR.le, sqrt_some (show (0:ℝ) ≤ 0.5 by norm_num),
    div_some hJ.ne', div_some ht1.ne', div_some hR'.ne', sqrt_some hq.le, Option.bind_eq_bind, Option.bind_some, weldShear, h2]
  rw [show (0.25 : ℝ) * (l ^ 2 + (h + t) ^ 2) = (l ^ 2 + (h + t) ^ 2) / 4 by norm_num; ring, show (0.25 : ℝ) * (h + t) ^ 2 = (h + t) ^ 2 / 4 by norm_num; ring]
  generalize 6000 * (14 + l / 2) * √((l ^ 2 + (h + t) ^ 2) / 4) / (√2 * h * l * (l ^ 2 / 12 + (h + t) ^ 2 / 4)) = τ₂
  generalize 6000 / (√2 * h * l) = τ₁
  rw [show (6 * 6000 * 14 : ℝ) = 504000 by norm_num, show τ₁ * τ₂ * l = l * τ₁ * τ₂ by ring]

/-- **C151 (welded beam).** Within the bounds everything is defined (no division by zero, no root of a negative number). Cost and end deflection are those of the textbook and positive, and a design is feasible
exactly if the shear stress in the weld is at most 13600, the bending stress at most 30000, the weld not thicker than the beam, and the buckling load at least 6000. -/
theorem C151_welded_beam : weldedBeamProblem.WellDefined ∧ ∀ h l t b : ℝ, Within weldedBeamProblem.xl weldedBeamProblem.xu [h, l, t, b] →
    ∀ f, weldedBeamProblem.Feasible [h, l, t, b] f ↔
      f = [1.10471 * h ^ 2 * l + 0.04811 * t * b * (14 + l), 2.1952 / (t ^ 3 * b)] ∧
      weldShear h l t ≤ 13600 ∧ 6 * 6000 * 14 / (b * t ^ 2) ≤ 30000 ∧ h ≤ b ∧ 6000 ≤ 64746.022 * (1 - 0.0282346 * t) * t * b ^ 3 := by
  constructor
  · refine ⟨by simp [weldedBeamProblem], ?_⟩
    intro x hw
    obtain ⟨h0, h1, h2, h3, -⟩ := weld_bounds hw
    exact ⟨_, _, weld_eval x _ _ _ _ rfl rfl rfl rfl h0 h1 h2 h3, rfl, rfl⟩
  · intro h l t b hw f
    obtain ⟨h0, h1, h2, h3, -⟩ := weld_bounds hw
    have he := weld_eval [h, l, t, b] h l t b rfl rfl rfl rfl h0 h1 h2 h3
    simp only [Design.Feasible, he, Option.some.injEq, Prod.mk.injEq]
    rw [show (6 * 6000 * 14 : ℝ) = 504000 by norm_num, mul_comm b (t ^ 3)]
    generalize weldShear h l t = s
    generalize 504000 / (b * t ^ 2) = q
    generalize 64746.022 * (1 - 0.0282346 * t) * t * b ^ 3 = P
    constructor
    · rintro ⟨-, g, ⟨rfl, rfl⟩, hg⟩
      simp only [List.forall_mem_cons, List.not_mem_nil, false_implies, implies_true, and_true] at hg
      norm_num at hg
      refine ⟨rfl, by linarith, by linarith, by linarith, by linarith⟩
    · rintro ⟨rfl, g1, g2, g3, g4⟩
      refine ⟨hw, _, ⟨rfl, rfl⟩, ?_⟩
      simp only [List.forall_mem_cons, List.not_mem_nil, false_implies, implies_true, and_true]
      norm_num
      refine ⟨by linarith, by linarith, by linarith, by linarith⟩

private theorem weld_shear_example : weldShear 1 5 10 ≤ 13600 := by
  have h2 : 1 ≤ √(2:ℝ) := Real.one_le_sqrt.2 (by norm_num)
  have hr : √(((5:ℝ) ^ 2 + (1 + 10) ^ 2) / 4) ≤ 7 := by
    rw [show (7:ℝ) = √(7 ^ 2) by rw [Real.sqrt_sq (by norm_num)]]
    exact Real.sqrt_le_sqrt (by norm_num)
  have hr' : 1 ≤ √(((5:ℝ) ^ 2 + (1 + 10) ^ 2) / 4) := Real.one_le_sqrt.2 (by norm_num)
  simp only [weldShear]
  generalize √(((5:ℝ) ^ 2 + (1 + 10) ^ 2) / 4) = r at *
  generalize √(2:ℝ) = s at *
  have t1 : 6000 / (s * 1 * 5) ≤ 1200 := by rw [div_le_iff₀ (by linarith)]; linarith
  have t1' : 0 ≤ 6000 / (s * 1 * 5) := by positivity
  have t2 : 6000 * (14 + 5 / 2) * r / (s * 1 * 5 * (5 ^ 2 / 12 + (1 + 10) ^ 2 / 4)) ≤ 4500 := by
    rw [div_le_iff₀ (by positivity)]
    norm_num; linarith
  have t2' : 0 ≤ 6000 * (14 + 5 / 2) * r / (s * 1 * 5 * (5 ^ 2 / 12 + (1 + 10) ^ 2 / 4)) := by positivity
  generalize 6000 * (14 + 5 / 2) * r / (s * 1 * 5 * (5 ^ 2 / 12 + (1 + 10) ^ 2 / 4)) = b at *
  generalize 6000 / (s * 1 * 5) = a at *
  have h3 : 5 * a * b / r ≤ 5 * 1200 * 4500 := by
    rw [div_le_iff₀ (by linarith)]
    have : a * b ≤ 1200 * 4500 := mul_le_mul t1 t2 t2' (by norm_num)
    nlinarith
  rw [Real.sqrt_le_left (by norm_num)]
  nlinarith

/-- A feasible welded beam. -/
theorem C151_welded_feasible : ∃ f, weldedBeamProblem.Feasible [1, 5, 10, 1] f := by
  have hw : Within weldedBeamProblem.xl weldedBeamProblem.xu [1, 5, 10, 1] := by
    refine ⟨rfl, ?_⟩
    intro i hi; simp at hi; interval_cases i <;> norm_num [weldedBeamProblem]
  exact ⟨_, (C151_welded_beam.2 1 5 10 1 hw _).2 ⟨rfl, weld_shear_example, by norm_num, le_rfl, by norm_num⟩⟩

/-! ### Clutch -/

private theorem clutch_get (x : List ℕ) (hl : x.length = 5) (hx : ∀ i, i < 5 → x.getD i 0 ≤ clutchUpper.getD i 0) :
    ∃ ri ro t F Z : ℝ, clutchValue 0 x = some ri ∧ clutchValue 1 x = some ro ∧ clutchValue 2 x = some t ∧ clutchValue 3 x = some F ∧ clutchValue 4 x = some Z ∧
      60 ≤ ri ∧ ri ≤ 80 ∧ 90 ≤ ro ∧ ro ≤ 110 ∧ 1 ≤ t ∧ t ≤ 3 ∧ 600 ≤ F ∧ F ≤ 1000 ∧ 2 ≤ Z ∧ Z ≤ 9 := by
  obtain ⟨a, b, c, d, e, rfl⟩ : ∃ a b c d e, x = [a, b, c, d, e] := by
    match x, hl with
    | [a, b, c, d, e], _ => exact ⟨a, b, c, d, e, rfl⟩
  have h0 := hx 0 (by norm_num)
  have h1 := hx 1 (by norm_num)
  have h2 := hx 2 (by norm_num)
  have h3 := hx 3 (by norm_num)
  have h4 := hx 4 (by norm_num)
  simp [clutchUpper] at h0 h1 h2 h3 h4
  have k0 : (a : ℝ) ≤ 20 := by exact_mod_cast h0
  have k1 : (b : ℝ) ≤ 20 := by exact_mod_cast h1
  have k2 : (c : ℝ) ≤ 4 := by exact_mod_cast h2
  have k3 : (d : ℝ) ≤ 400 := by exact_mod_cast h3
  have k4 : (e : ℝ) ≤ 7 := by exact_mod_cast h4
  have p0 : (0:ℝ) ≤ a := Nat.cast_nonneg a
  have p1 : (0:ℝ) ≤ b := Nat.cast_nonneg b
  have p2 : (0:ℝ) ≤ c := Nat.cast_nonneg c
  have p3 : (0:ℝ) ≤ d := Nat.cast_nonneg d
  have p4 : (0:ℝ) ≤ e := Nat.cast_nonneg e
  refine ⟨60 + a, 90 + b, 1 + 0.5 * c, 600 + d, 2 + e, ?_, ?_, ?_, ?_, ?_, by linarith, by linarith, by linarith, by linarith, by norm_num, by norm_num; linarith, by linarith, by linarith, by linarith, by linarith⟩
  · simp [clutchValue, clutchTables, List.getElem?_range (show a < 21 by omega)]
  · simp [clutchValue, clutchTables, List.getElem?_range (show b < 21 by omega)]
  · simp [clutchValue, clutchTables, List.getElem?_range (show c < 5 by omega)]
  · simp [clutchValue, clutchTables, -List.range_succ, List.getElem?_range (show d < 401 by omega)]
  · simp [clutchValue, clutchTables, List.getElem?_range (show e < 9 by omega)]

/-- **C151 (clutch, the row).** For every combination of indices within the bounds the tables have the entry, no division is by zero, and there are two positive objectives (mass and stopping time) and eight
constraints; the constraint on a positive stopping time always holds, and the first one says that the outer radius exceeds the inner one by at least 20. -/
theorem C151_clutch_row (x : List ℕ) (hl : x.length = 5) (hx : ∀ i, i < 5 → x.getD i 0 ≤ clutchUpper.getD i 0) :
    ∃ f g, clutchEval x = some (f, g) ∧ f.length = 2 ∧ g.length = 8 ∧ (∀ v ∈ f, 0 < v) ∧ g.getD 6 0 < 0 ∧
      (g.getD 0 0 ≤ 0 ↔ ((60 + x.getD 0 0 : ℕ) : ℝ) + 20 ≤ (90 + x.getD 1 0 : ℕ)) := by
  obtain ⟨ri, ro, t, F, Z, e0, e1, e2, e3, e4, hri, hri', hro, hro', ht, ht', hF, hF', hZ, hZ'⟩ := clutch_get x hl hx
  have hsq : 0 < ro ^ 2 - ri ^ 2 := by nlinarith
  have hcb : 0 < ro ^ 3 - ri ^ 3 := by
    have : ro ^ 3 - ri ^ 3 = (ro - ri) * (ro ^ 2 + ro * ri + ri ^ 2) := by ring
    rw [this]
    exact mul_pos (by linarith) (by positivity)
  have hA : 0 < Real.pi * (ro ^ 2 - ri ^ 2) := mul_pos Real.pi_pos hsq
  have hM : 0 < 2 / 3 * 0.5 * F * Z * ((ro ^ 3 - ri ^ 3) / (ro ^ 2 - ri ^ 2)) / 1000 + 3 := by
    have : 0 < (ro ^ 3 - ri ^ 3) / (ro ^ 2 - ri ^ 2) := div_pos hcb hsq
    have : 0 < F := by linarith
    have : 0 < Z := by linarith
    positivity
  have hT : 0 < 55 * (Real.pi * 250 / 30) / (2 / 3 * 0.5 * F * Z * ((ro ^ 3 - ri ^ 3) / (ro ^ 2 - ri ^ 2)) / 1000 + 3) := by
    have := Real.pi_pos
    exact div_pos (by positivity) hM
  refine ⟨_, _, by simp only [clutchEval, e0, e1, e2, e3, e4, div_some hsq.ne', div_some hA.ne', div_some hM.ne', Option.bind_eq_bind, Option.bind_some]; rfl, rfl, rfl, ?_, ?_, ?_⟩
  · simp only [List.forall_mem_cons, List.not_mem_nil, false_implies, implies_true, and_true]
    refine ⟨?_, hT⟩
    have : 0 < t := by linarith
    have : 0 < Z + 1 := by linarith
    positivity
  · simp only [List.getD_cons_zero, List.getD_cons_succ]
    linarith
  · obtain ⟨a, b, c, d, e, rfl⟩ : ∃ a b c d e, x = [a, b, c, d, e] := by
      match x, hl with
      | [a, b, c, d, e], _ => exact ⟨a, b, c, d, e, rfl⟩
    have h0 := hx 0 (by norm_num)
    have h1 := hx 1 (by norm_num)
    simp [clutchUpper] at h0 h1
    simp [clutchValue, clutchTables, List.getElem?_range (show a < 21 by omega)] at e0
    simp [clutchValue, clutchTables, List.getElem?_range (show b < 21 by omega)] at e1
    subst e0 e1
    simp only [List.getD_cons_zero, List.getD_cons_succ]
    push_cast
    constructor <;> intro h <;> linarith

example : [10, 0, 1, 400, 1].length = 5 ∧ ∀ i, i < 5 → [10, 0, 1, 400, 1].getD i 0 ≤ clutchUpper.getD i 0 := by decide

/-- **C151 (clutch, refuted).** `Clutch` declares 19 inequality constraints and sets 8: evaluating any non-empty set of solutions within the bounds raises. -/
theorem C151_clutch_refuted (inf : ℝ) (isNan : ℝ → Bool) (X : EvalArg ℕ) (rows : List (List ℕ)) (ret : Option (List OutKey)) (hX : IsRows clutchCfg X rows) (hne : rows ≠ [])
    (hrows : ∀ x ∈ rows, x.length = 5 ∧ ∀ i, i < 5 → x.getD i 0 ≤ clutchUpper.getD i 0) :
    probEvaluate clutchCfg inf isNan (.vectorized clutchOut) X ret = none := by
  refine C55_mismatch clutchCfg inf isNan clutchOut X rows ret hX ?_ .G [rows.length, 19] rfl ⟨[rows.length, 8], (rows.map fun x => (clutchEval x).getD ([], [])).flatMap Prod.snd⟩ ?_ ?_
  · simp [clutchOut]
  · simp [clutchOut, kGet]
  · have : ((rows.map fun x => (clutchEval x).getD ([], [])).flatMap Prod.snd).length = 8 * rows.length := by
      clear hne hX
      induction rows with
      | nil => rfl
      | cons x xs ih =>
        obtain ⟨f, g, he, -, hg, -⟩ := C151_clutch_row x (hrows x (by simp)).1 (hrows x (by simp)).2
        simp only [List.map_cons, List.flatMap_cons, List.length_append, List.length_cons, he, Option.getD_some, hg, ih (fun y hy => hrows y (by simp [hy]))]
        ring
    have hpos : 0 < rows.length := List.length_pos_iff.2 hne
    simp only [this, List.prod_cons, List.prod_nil]
    omega

example : IsRows (E := ℕ) clutchCfg (.matrix [[10, 0, 1, 400, 1]]) [[10, 0, 1, 400, 1]] := Or.inl ⟨rfl, by simp [clutchCfg]⟩

end Props
