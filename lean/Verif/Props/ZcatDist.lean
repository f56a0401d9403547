import Verif.Model.Zcat
import Mathlib.Analysis.SpecialFunctions.Trigonometric.Bounds
import Mathlib.Analysis.Complex.ExponentialBounds
import Mathlib.Analysis.Real.Pi.Bounds
import Mathlib.Tactic.Linarith
import Mathlib.Tactic.Positivity
import Mathlib.Tactic.NormNum
import Mathlib.Tactic.Ring
import Mathlib.Tactic.FieldSimp

/-!
# The distance functions of ZCAT: not negative, zero only on the Pareto set
-/

set_option linter.unusedSimpArgs false
set_option linter.unusedVariables false

namespace Props
open Model

theorem zc_sum_zero {φ : ℝ → ℝ} (J : List ℝ) (h : ∀ v ∈ J, 0 ≤ φ v ∧ (φ v = 0 ↔ v = 0)) :
    0 ≤ (J.map φ).sum ∧ ((J.map φ).sum = 0 ↔ ∀ v ∈ J, v = 0) := by
  induction J with
  | nil => simp
  | cons a l ih =>
    obtain ⟨h1, h2⟩ := ih fun v hv => h v (List.mem_cons_of_mem _ hv)
    obtain ⟨ha, hz⟩ := h a (by simp)
    simp only [List.map_cons, List.sum_cons, List.forall_mem_cons]
    refine ⟨by linarith, ?_⟩
    rw [← hz, ← h2]
    constructor
    · intro h; constructor <;> linarith
    · rintro ⟨p, q⟩; linarith

theorem zcMax_spec (J : List ℝ) : 0 ≤ zcMax J ∧ (∀ v ∈ J, |v| ≤ zcMax J) ∧ (zcMax J = 0 ∨ ∃ v ∈ J, zcMax J = |v|) := by
  have gen : ∀ (l : List ℝ) (c : ℝ), c ≤ l.foldl max c ∧ (∀ v ∈ l, v ≤ l.foldl max c) ∧ (l.foldl max c = c ∨ l.foldl max c ∈ l) := by
    intro l
    induction l with
    | nil => intro c; simp
    | cons a l ih =>
      intro c
      obtain ⟨h1, h2, h3⟩ := ih (max c a)
      refine ⟨le_trans (le_max_left _ _) h1, ?_, ?_⟩
      · intro v hv
        rcases List.mem_cons.1 hv with rfl | hv
        · exact le_trans (le_max_right _ _) h1
        · exact h2 v hv
      · rcases h3 with h | h
        · rcases max_choice c a with hm | hm
          · left; simpa [hm] using h
          · right; simp only [List.foldl_cons]; rw [h, hm]; simp
        · right; exact List.mem_cons_of_mem _ h
  obtain ⟨h1, h2, h3⟩ := gen (J.map fun v => |v|) 0
  refine ⟨h1, fun v hv => h2 _ (List.mem_map_of_mem hv), ?_⟩
  rcases h3 with h | h
  · exact Or.inl h
  · obtain ⟨v, hv, he⟩ := List.mem_map.1 h
    exact Or.inr ⟨v, hv, he.symm⟩

theorem zcMax_zero (J : List ℝ) : zcMax J = 0 ↔ ∀ v ∈ J, v = 0 := by
  obtain ⟨h1, h2, h3⟩ := zcMax_spec J
  constructor
  · intro h v hv
    have := h2 v hv
    rw [h] at this
    exact abs_nonpos_iff.1 this
  · intro h
    rcases h3 with h3 | ⟨v, hv, he⟩
    · exact h3
    · rw [he, h v hv, abs_zero]

/-- What the problem needs of a distance function. -/
def DistOk (z : ℝ) (J : List ℝ) : Prop := 0 ≤ z ∧ (z = 0 ↔ ∀ v ∈ J, v = 0)

theorem zc_scale_ok {z : ℝ} {J : List ℝ} {c : ℝ} (hc : 0 < c) (h : DistOk z J) : DistOk (c * z) J :=
  ⟨mul_nonneg hc.le h.1, by rw [mul_eq_zero]; simp [hc.ne', h.2]⟩

theorem zc_len_pos {J : List ℝ} (hJ : J ≠ []) : 0 < (10 : ℝ) / J.length := by
  have : 0 < J.length := List.length_pos_iff.2 hJ
  positivity

theorem zcZ1_ok (J : List ℝ) (hJ : J ≠ []) : DistOk (zcZ1 J) J :=
  zc_scale_ok (zc_len_pos hJ) (zc_sum_zero J fun v _ => ⟨mul_self_nonneg v, mul_self_eq_zero⟩)

theorem zcZ2_ok (J : List ℝ) : DistOk (zcZ2 J) J := zc_scale_ok (by norm_num) ⟨(zcMax_spec J).1, zcMax_zero J⟩

theorem z3_term (v : ℝ) : 0 ≤ (v ^ 2 - Real.cos ((2 * 5 - 1) * Real.pi * v) + 1) / 3 ∧ ((v ^ 2 - Real.cos ((2 * 5 - 1) * Real.pi * v) + 1) / 3 = 0 ↔ v = 0) := by
  have h1 := Real.cos_le_one ((2 * 5 - 1) * Real.pi * v)
  have h2 := sq_nonneg v
  constructor
  · generalize Real.cos ((2 * 5 - 1) * Real.pi * v) = t at *
    linarith
  constructor
  · intro h
    have : v ^ 2 = 0 := by
      generalize Real.cos ((2 * 5 - 1) * Real.pi * v) = t at *
      linarith
    exact pow_eq_zero_iff (by norm_num) |>.1 this
  · rintro rfl
    simp

theorem zcZ3_ok (J : List ℝ) (hJ : J ≠ []) : DistOk (zcZ3 J) J := zc_scale_ok (zc_len_pos hJ) (zc_sum_zero J fun v _ => z3_term v)

theorem zc_avg {φ : ℝ → ℝ} {lo hi : ℝ} (J : List ℝ) (hJ : J ≠ []) (h : ∀ v ∈ J, lo ≤ φ v ∧ φ v ≤ hi) : lo ≤ (J.map φ).sum / J.length ∧ (J.map φ).sum / J.length ≤ hi := by
  have hl : (0 : ℝ) < J.length := by exact_mod_cast List.length_pos_iff.2 hJ
  rw [le_div_iff₀ hl, div_le_iff₀ hl]
  clear hl hJ
  induction J with
  | nil => simp
  | cons a l ih =>
    obtain ⟨h1, h2⟩ := ih fun v hv => h v (List.mem_cons_of_mem _ hv)
    obtain ⟨ha, hb⟩ := h a (by simp)
    simp only [List.map_cons, List.sum_cons, List.length_cons]
    push_cast
    constructor <;> nlinarith

theorem zc_exp_gt : (27 / 10 : ℝ) < Real.exp 1 := lt_trans (by norm_num) Real.exp_one_gt_d9
theorem zc_exp_lt : Real.exp 1 < (3 : ℝ) := lt_trans Real.exp_one_lt_d9 (by norm_num)

theorem zc_half_cos (t : ℝ) : 0 ≤ 0.5 * (Real.cos t + 1) ∧ 0.5 * (Real.cos t + 1) ≤ 1 := by
  have h1 := Real.cos_le_one t
  have h2 := Real.neg_one_le_cos t
  constructor <;> norm_num <;> linarith

theorem zcZ4_ok (J : List ℝ) (hJ : J ≠ []) : DistOk (zcZ4 J) J := by
  have he := zc_exp_gt
  unfold zcZ4
  apply zc_scale_ok
  · apply div_pos <;> linarith
  · have hs := zc_avg (φ := fun v : ℝ => 0.5 * (Real.cos ((2 * 5 - 1) * Real.pi * v) + 1)) J hJ fun v _ => zc_half_cos _
    have h1 : Real.exp ((J.map fun v : ℝ => 0.5 * (Real.cos ((2 * 5 - 1) * Real.pi * v) + 1)).sum / J.length) ≤ Real.exp 1 := Real.exp_le_exp.2 hs.2
    have h2 : 1 ≤ Real.exp (Real.sqrt (zcMax J)) := Real.one_le_exp (Real.sqrt_nonneg _)
    refine ⟨by linarith, ?_, ?_⟩
    · intro h
      have : Real.exp (Real.sqrt (zcMax J)) = 1 := by linarith
      rw [Real.exp_eq_one_iff, Real.sqrt_eq_zero (zcMax_spec J).1] at this
      exact (zcMax_zero J).1 this
    · intro h
      have hmap : (J.map fun v : ℝ => 0.5 * (Real.cos ((2 * 5 - 1) * Real.pi * v) + 1)) = J.map fun _ => (1 : ℝ) := by
        apply List.map_congr_left
        intro v hv
        rw [h v hv]
        norm_num
      have hl : (J.length : ℝ) ≠ 0 := by exact_mod_cast (List.length_pos_iff.2 hJ).ne'
      rw [(zcMax_zero J).2 h, hmap]
      simp [hl]

/-- `0.7 ^ 500` is the number below which the power 0.002 is less than 0.7. -/
theorem rpow_002 (a : ℝ) (ha : (7 / 10 : ℝ) ^ 500 ≤ a) : (7 / 10 : ℝ) ≤ a ^ (0.002 : ℝ) := by
  have h : ((7 / 10 : ℝ) ^ 500) ^ (0.002 : ℝ) = 7 / 10 := by
    rw [← Real.rpow_natCast, ← Real.rpow_mul (by norm_num)]
    norm_num
  rw [← h]
  exact Real.rpow_le_rpow (by positivity) ha (by norm_num)

theorem zc_one_sub_cos_le (t : ℝ) : 1 - Real.cos t ≤ t ^ 2 / 2 := by
  have := Real.one_sub_sq_div_two_le_cos (x := t)
  linarith

theorem nine_pi_sq : ((2 * 5 - 1) * Real.pi) ^ 2 < 1000 := by
  have h := Real.pi_lt_d2
  have h0 := Real.pi_pos
  nlinarith

theorem z5_term (v : ℝ) (hv : |v| ≤ 1) :
    0 ≤ |v| ^ (0.002 : ℝ) - 0.7 * ((v ^ 2 - Real.cos ((2 * 5 - 1) * Real.pi * v) + 1) / 3) ∧
    (|v| ^ (0.002 : ℝ) - 0.7 * ((v ^ 2 - Real.cos ((2 * 5 - 1) * Real.pi * v) + 1) / 3) = 0 ↔ v = 0) := by
  have hsq : v ^ 2 = |v| ^ 2 := (sq_abs v).symm
  have h0 := abs_nonneg v
  have hc := Real.neg_one_le_cos ((2 * 5 - 1) * Real.pi * v)
  by_cases hz : v = 0
  · subst hz
    simp [Real.zero_rpow (show (0.002 : ℝ) ≠ 0 by norm_num)]
  have hpos : 0 < |v| := abs_pos.2 hz
  have key : 0 < |v| ^ (0.002 : ℝ) - 0.7 * ((v ^ 2 - Real.cos ((2 * 5 - 1) * Real.pi * v) + 1) / 3) := by
    by_cases hb : (7 / 10 : ℝ) ^ 500 ≤ |v|
    · have h1 := rpow_002 |v| hb
      rcases hv.lt_or_eq with hlt | heq
      · have h2 : v ^ 2 < 1 := by rw [hsq]; nlinarith
        generalize Real.cos ((2 * 5 - 1) * Real.pi * v) = t at *
        generalize |v| ^ (0.002 : ℝ) = p at *
        have e : (0.7 : ℝ) = 7 / 10 := by norm_num
        rw [e]
        linarith
      · rw [hsq, heq, Real.one_rpow]
        generalize Real.cos ((2 * 5 - 1) * Real.pi * v) = t at *
        have e : (0.7 : ℝ) = 7 / 10 := by norm_num
        rw [e]
        linarith
    · rw [not_le] at hb
      have hsmall : |v| < 1 / 1000 := by
        refine lt_of_lt_of_le hb (le_trans (pow_le_pow_of_le_one (by norm_num) (by norm_num) (show 50 ≤ 500 by norm_num)) ?_)
        norm_num
      have h1 := zc_one_sub_cos_le ((2 * 5 - 1) * Real.pi * v)
      have h2 : ((2 * 5 - 1) * Real.pi * v) ^ 2 ≤ 1000 * |v| ^ 2 := by
        rw [mul_pow, hsq]
        have := nine_pi_sq
        nlinarith [sq_nonneg |v|]
      have h3 : |v| ≤ |v| ^ (0.002 : ℝ) := by
        have := Real.rpow_le_rpow_of_exponent_ge hpos hv (show (0.002 : ℝ) ≤ 1 by norm_num)
        rwa [Real.rpow_one] at this
      have h4 : |v| ^ 2 ≤ |v| * (1 / 1000) := by nlinarith
      generalize ((2 * 5 - 1) * Real.pi * v) = u at *
      generalize Real.cos u = t at *
      generalize |v| ^ (0.002 : ℝ) = p at *
      have e : (0.7 : ℝ) = 7 / 10 := by norm_num
      rw [e, hsq]
      nlinarith
  exact ⟨key.le, ⟨fun h => absurd h key.ne', fun h => absurd h hz⟩⟩

theorem zcZ5_ok (J : List ℝ) (hJ : J ≠ []) (hv : ∀ v ∈ J, |v| ≤ 1) : DistOk (zcZ5 J) J := by
  have e : zcZ5 J = 10 / J.length * (J.map fun v : ℝ => |v| ^ (0.002 : ℝ) - 0.7 * ((v ^ 2 - Real.cos ((2 * 5 - 1) * Real.pi * v) + 1) / 3)).sum := by
    have hs : ∀ l : List ℝ, (l.map fun v : ℝ => |v| ^ (0.002 : ℝ) - 0.7 * ((v ^ 2 - Real.cos ((2 * 5 - 1) * Real.pi * v) + 1) / 3)).sum =
        (l.map fun v : ℝ => |v| ^ (0.002 : ℝ)).sum - 0.7 * (l.map fun v : ℝ => (v ^ 2 - Real.cos ((2 * 5 - 1) * Real.pi * v) + 1) / 3).sum := by
      intro l
      induction l with
      | nil => simp
      | cons a l ih => simp only [List.map_cons, List.sum_cons, ih]; ring
    rw [hs]
    simp only [zcZ5, zcZ3]
    ring
  rw [e]
  exact zc_scale_ok (zc_len_pos hJ) (zc_sum_zero J fun v h => z5_term v (hv v h))

theorem zc_max_le_sum (J : List ℝ) : zcMax J ≤ (J.map fun v : ℝ => |v|).sum := by
  have hmem : ∀ l : List ℝ, ∀ v ∈ l, |v| ≤ (l.map fun v : ℝ => |v|).sum := by
    intro l
    induction l with
    | nil => simp
    | cons a l ih =>
      intro v hv
      simp only [List.map_cons, List.sum_cons]
      have hn : 0 ≤ (l.map fun v : ℝ => |v|).sum := by
        apply List.sum_nonneg
        intro x hx
        obtain ⟨w, -, rfl⟩ := List.mem_map.1 hx
        exact abs_nonneg w
      rcases List.mem_cons.1 hv with rfl | hv
      · linarith
      · have := ih v hv
        have := abs_nonneg a
        linarith
  rcases (zcMax_spec J).2.2 with h | ⟨v, hv, h⟩
  · rw [h]
    apply List.sum_nonneg
    intro x hx
    obtain ⟨w, -, rfl⟩ := List.mem_map.1 hx
    exact abs_nonneg w
  · rw [h]; exact hmem J v hv

theorem zcZ6_ok (J : List ℝ) (hJ : J ≠ []) (hv : ∀ v ∈ J, |v| ≤ 1) (hN : J.length ≤ 10 ^ 50) : DistOk (zcZ6 J) J := by
  obtain ⟨z40, z4z⟩ := zcZ4_ok J hJ
  obtain ⟨m0, mall, mex⟩ := zcMax_spec J
  have hl : (0 : ℝ) < J.length := by exact_mod_cast List.length_pos_iff.2 hJ
  have hN' : (J.length : ℝ) ≤ 10 ^ 50 := by exact_mod_cast hN
  have hm1 : zcMax J ≤ 1 := by
    rcases mex with h | ⟨v, hv', h⟩
    · rw [h]; norm_num
    · rw [h]; exact hv v hv'
  by_cases hz : ∀ v ∈ J, v = 0
  · have h4 := z4z.2 hz
    have hmap : (J.map fun v : ℝ => |v|) = J.map fun _ => (0 : ℝ) := by
      apply List.map_congr_left
      intro v h
      rw [hz v h, abs_zero]
    have : zcZ6 J = 0 := by
      simp only [zcZ6, h4, hmap]
      simp [Real.zero_rpow (show (0.002 : ℝ) ≠ 0 by norm_num)]
    exact ⟨this.ge, ⟨fun _ => hz, fun _ => this⟩⟩
  have hmpos : 0 < zcMax J := lt_of_le_of_ne m0 fun h => hz ((zcMax_zero J).1 h.symm)
  set mx := zcMax J with hmx
  set a := (J.map fun v : ℝ => |v|).sum / J.length with ha
  have hage : mx / 10 ^ 50 ≤ a := by
    rw [ha, div_le_div_iff₀ (by positivity) hl]
    have := zc_max_le_sum J
    have h0 : 0 ≤ (J.map fun v : ℝ => |v|).sum := le_trans m0 this
    nlinarith
  set s := (J.map fun v : ℝ => 0.5 * (Real.cos ((2 * 5 - 1) * Real.pi * v) + 1)).sum / J.length with hs
  have he1 := zc_exp_gt
  have he2 := zc_exp_lt
  have hc : 0 < 10 / (2 * Real.exp 1 - 2) := by apply div_pos <;> linarith
  have e4 : zcZ4 J = 10 / (2 * Real.exp 1 - 2) * (Real.exp (Real.sqrt mx) - Real.exp s - 1 + Real.exp 1) := rfl
  have key : 0 < zcZ6 J := by
    show 0 < -0.7 * zcZ4 J + 10 * a ^ (0.002 : ℝ)
    by_cases hb : 1 / 10 ^ 20 ≤ mx
    · have hage' : (7 / 10 : ℝ) ^ 500 < a := by
        refine lt_of_lt_of_le ?_ hage
        refine lt_of_lt_of_le (b := 1 / 10 ^ 20 / 10 ^ 50) ?_ ?_
        · have : (7 / 10 : ℝ) ^ 500 = (((7 / 10) ^ 50) ^ 10) := by rw [← pow_mul]
          rw [this]
          have h50 : (7 / 10 : ℝ) ^ 50 < 1 / 10 ^ 7 := by norm_num
          refine lt_of_lt_of_le (pow_lt_pow_left₀ h50 (by positivity) (by norm_num)) ?_
          norm_num
        · exact div_le_div_of_nonneg_right hb (by positivity)
      have h7 : (7 / 10 : ℝ) < a ^ (0.002 : ℝ) := by
        have h : ((7 / 10 : ℝ) ^ 500) ^ (0.002 : ℝ) = 7 / 10 := by
          rw [← Real.rpow_natCast, ← Real.rpow_mul (by norm_num)]
          norm_num
        rw [← h]
        exact Real.rpow_lt_rpow (by positivity) hage' (by norm_num)
      have h10 : zcZ4 J ≤ 10 := by
        rw [e4, div_mul_eq_mul_div, div_le_iff₀ (by linarith)]
        have h1 : Real.exp (Real.sqrt mx) ≤ Real.exp 1 := Real.exp_le_exp.2 (by rw [Real.sqrt_le_one]; exact hm1)
        have h2 : 1 ≤ Real.exp s := Real.one_le_exp (zc_avg (φ := fun v : ℝ => 0.5 * (Real.cos ((2 * 5 - 1) * Real.pi * v) + 1)) J hJ fun v _ => zc_half_cos _).1
        linarith
      norm_num
      linarith
    · rw [not_le] at hb
      set r := Real.sqrt mx with hr
      have hr2 : r ^ 2 = mx := Real.sq_sqrt m0
      have hrpos : 0 < r := Real.sqrt_pos.2 hmpos
      have hr10 : r < 1 / 10 ^ 10 := by
        rw [hr, Real.sqrt_lt' (by positivity)]
        refine lt_of_lt_of_le hb (by norm_num)
      have har : r ≤ a ^ (0.002 : ℝ) := by
        have h : (r ^ 500) ^ (0.002 : ℝ) = r := by
          rw [← Real.rpow_natCast, ← Real.rpow_mul hrpos.le]
          norm_num
        have hle : r ^ 500 ≤ a := by
          refine le_trans ?_ hage
          rw [← hr2, le_div_iff₀ (by positivity)]
          have : r ^ 500 = r ^ 2 * r ^ 498 := by ring
          rw [this]
          have hx : r ^ 498 * 10 ^ 50 ≤ 1 := by
            have h5 : r ^ 498 ≤ (1 / 10 ^ 10) ^ 5 :=
              le_trans (pow_le_pow_of_le_one hrpos.le (by linarith [show (1 / 10 ^ 10 : ℝ) ≤ 1 by norm_num]) (show 5 ≤ 498 by norm_num)) (pow_le_pow_left₀ hrpos.le hr10.le _)
            refine le_trans (mul_le_mul_of_nonneg_right h5 (by positivity)) ?_
            norm_num
          have hr2n : 0 ≤ r ^ 2 := sq_nonneg r
          nlinarith
        calc r = (r ^ 500) ^ (0.002 : ℝ) := h.symm
          _ ≤ a ^ (0.002 : ℝ) := Real.rpow_le_rpow (by positivity) hle (by norm_num)
      have h1 : Real.exp r - 1 ≤ 2 * r := by
        have hle1 : |r| ≤ 1 := by rw [abs_of_pos hrpos]; linarith [show (1 / 10 ^ 10 : ℝ) ≤ 1 by norm_num]
        have := Real.abs_exp_sub_one_le hle1
        rw [abs_of_pos hrpos] at this
        exact le_trans (le_abs_self _) this
      have hsl : 1 - 250 * mx ^ 2 ≤ s := by
        refine (zc_avg (φ := fun v : ℝ => 0.5 * (Real.cos ((2 * 5 - 1) * Real.pi * v) + 1)) (lo := 1 - 250 * mx ^ 2) (hi := 1) J hJ fun v hv' => ⟨?_, (zc_half_cos _).2⟩).1
        have h1 := zc_one_sub_cos_le ((2 * 5 - 1) * Real.pi * v)
        have hvm := mall v hv'
        have h2 : ((2 * 5 - 1) * Real.pi * v) ^ 2 ≤ 1000 * mx ^ 2 := by
          rw [mul_pow, ← sq_abs v]
          have := nine_pi_sq
          have hq : |v| ^ 2 ≤ mx ^ 2 := pow_le_pow_left₀ (abs_nonneg v) hvm 2
          have hq0 : 0 ≤ |v| ^ 2 := sq_nonneg _
          nlinarith
        norm_num at h1 h2 ⊢
        linarith
      have h2 : Real.exp 1 - Real.exp s ≤ 750 * mx ^ 2 := by
        have h3 : Real.exp s = Real.exp 1 * Real.exp (s - 1) := by rw [← Real.exp_add]; ring_nf
        have h4 : 1 + (s - 1) ≤ Real.exp (s - 1) := by have := Real.add_one_le_exp (s - 1); linarith
        have h5 : 1 - s ≤ 250 * mx ^ 2 := by linarith
        have h6 : Real.exp 1 - Real.exp s ≤ Real.exp 1 * (1 - s) := by rw [h3]; nlinarith
        have h7 : 0 ≤ 250 * mx ^ 2 := by positivity
        calc Real.exp 1 - Real.exp s ≤ Real.exp 1 * (1 - s) := h6
          _ ≤ Real.exp 1 * (250 * mx ^ 2) := mul_le_mul_of_nonneg_left h5 (by linarith)
          _ ≤ 3 * (250 * mx ^ 2) := mul_le_mul_of_nonneg_right he2.le h7
          _ = 750 * mx ^ 2 := by ring
      have h750 : 750 * mx ^ 2 ≤ r := by
        rw [← hr2]
        have h3 : r ^ 3 ≤ (1 / 10 ^ 10) ^ 3 := pow_le_pow_left₀ hrpos.le hr10.le 3
        have : 750 * (r ^ 2) ^ 2 = r * (750 * r ^ 3) := by ring
        rw [this]
        have hx : 750 * r ^ 3 ≤ 1 := by
          refine le_trans (mul_le_mul_of_nonneg_left h3 (by norm_num)) (by norm_num)
        nlinarith
      have h10 : zcZ4 J ≤ 10 * r := by
        rw [e4, div_mul_eq_mul_div, div_le_iff₀ (by linarith)]
        nlinarith
      norm_num
      linarith
  exact ⟨key.le, ⟨fun h => absurd h key.ne', fun h => absurd h hz⟩⟩

/-- The distance function chosen by the parameters. -/
theorem zcZ_ok (J : List ℝ) (k : ℕ) (imb : Bool) (level : ℤ) (hJ : J ≠ []) (hv : ∀ v ∈ J, |v| ≤ 1) (hN : level = 6 → J.length ≤ 10 ^ 50) : DistOk (zcZ J k imb level) J := by
  unfold zcZ
  split_ifs with h1 h2 h3 h4 h5 h6 h7 h8
  · exact zcZ4_ok J hJ
  · exact zcZ1_ok J hJ
  · exact zcZ1_ok J hJ
  · exact zcZ2_ok J
  · exact zcZ3_ok J hJ
  · exact zcZ4_ok J hJ
  · exact zcZ5_ok J hJ hv
  · exact zcZ6_ok J hJ hv (hN h8)
  · exact zcZ1_ok J hJ

/-! ### The values every objective is given -/

theorem zcJ_mem (k M : ℕ) (w : ℕ → ℝ) (size : ℕ) (hs : 0 < size) : zcJ k M w size ≠ [] ∧ ∀ v ∈ zcJ k M w size, ∃ i < size, v = w i := by
  simp only [zcJ]
  split
  · exact ⟨by simp, fun v hv => ⟨0, hs, by simpa using hv⟩⟩
  · rename_i h
    refine ⟨h, fun v hv => ?_⟩
    obtain ⟨i, hi, rfl⟩ := List.mem_map.1 hv
    exact ⟨i, by simpa using (List.mem_filter.1 hi).1, rfl⟩

theorem zcJ_length (k M : ℕ) (w : ℕ → ℝ) (size : ℕ) (hs : 0 < size) : (zcJ k M w size).length ≤ size := by
  simp only [zcJ]
  split
  · exact hs
  · rw [List.length_map]
    exact le_trans (List.length_filter_le _ _) (by simp)

/-- Every value is given to some objective. -/
theorem zcJ_cover (M : ℕ) (hM : 0 < M) (w : ℕ → ℝ) (size i : ℕ) (hi : i < size) : ∃ k : Fin M, w i ∈ zcJ (k + 1) M w size := by
  refine ⟨⟨i % M, Nat.mod_lt _ hM⟩, ?_⟩
  have hmem : i ∈ (List.range size).filter fun j : ℕ => (((j + 1 : ℕ) : ℤ) - ((i % M + 1 : ℕ) : ℤ)) % (M : ℤ) = 0 := by
    rw [List.mem_filter]
    refine ⟨by simpa using hi, ?_⟩
    simp only [decide_eq_true_eq]
    push_cast
    have : ((i : ℤ) + 1 - ((i : ℤ) % (M : ℤ) + 1)) = (M : ℤ) * ((i : ℤ) / (M : ℤ)) := by
      have := Int.mul_ediv_add_emod (i : ℤ) (M : ℤ)
      linarith
    rw [this, Int.mul_emod_right]
  have hne : (((List.range size).filter fun j : ℕ => (((j + 1 : ℕ) : ℤ) - ((i % M + 1 : ℕ) : ℤ)) % (M : ℤ) = 0).map w) ≠ [] := by
    intro h
    rw [List.map_eq_nil_iff] at h
    rw [h] at hmem
    simp at hmem
  simp only [zcJ]
  rw [if_neg hne]
  exact List.mem_map_of_mem hmem

/-! ### The surface of the Pareto set lies in the unit cube -/

theorem zc_mean {φ : ℕ → ℝ} {lo hi : ℝ} (m : ℕ) (hm : 0 < m) (h : ∀ i < m, lo ≤ φ i ∧ φ i ≤ hi) :
    lo ≤ (∑ i ∈ Finset.range m, φ i) / m ∧ (∑ i ∈ Finset.range m, φ i) / m ≤ hi := by
  have hm' : (0 : ℝ) < m := by exact_mod_cast hm
  rw [le_div_iff₀ hm', div_le_iff₀ hm']
  constructor
  · have := Finset.card_nsmul_le_sum (Finset.range m) φ lo fun i hi => (h i (Finset.mem_range.1 hi)).1
    simp at this; linarith
  · have := Finset.sum_le_card_nsmul (Finset.range m) φ hi fun i hi => (h i (Finset.mem_range.1 hi)).2
    simp at this; linarith

theorem zc_half_div (x m : ℝ) : x / (2 * m) = x / m / 2 := by
  rw [mul_comm, div_div]

theorem zcG_unit (id : ℕ) (y : ℕ → ℝ) (m n j : ℕ) (hid : id ≤ 10) (hm : 0 < m) (hy : ∀ i < m, 0 ≤ y i ∧ y i ≤ 1) : ∃ g, zcG id y m n j = some g ∧ 0 ≤ g ∧ g ≤ 1 := by
  have hm' : (0 : ℝ) < m := by exact_mod_cast hm
  have hs := fun t => Real.neg_one_le_sin t
  have hs' := fun t => Real.sin_le_one t
  have hc := fun t => Real.neg_one_le_cos t
  have hc' := fun t => Real.cos_le_one t
  have hmu : 0 ≤ zcMu y m ∧ zcMu y m ≤ 1 := zc_mean m hm hy
  have he1 := zc_exp_gt
  have hem : Real.exp (-1) < 1 := by rw [Real.exp_lt_one_iff]; norm_num
  have hem0 := Real.exp_pos (-1)
  have hid' : id = 0 ∨ id = 1 ∨ id = 2 ∨ id = 3 ∨ id = 4 ∨ id = 5 ∨ id = 6 ∨ id = 7 ∨ id = 8 ∨ id = 9 ∨ id = 10 := by omega
  have abs1 : ∀ t, 0 ≤ |Real.sin t| ∧ |Real.sin t| ≤ 1 := fun t => ⟨abs_nonneg _, Real.abs_sin_le_one t⟩
  have cube : ∀ x : ℝ, -1 ≤ x → x ≤ 1 → -1 ≤ x ^ 3 ∧ x ^ 3 ≤ 1 := by
    intro x h1 h2
    have hx : |x ^ 3| ≤ 1 := by rw [abs_pow]; exact pow_le_one₀ (abs_nonneg x) (abs_le.2 ⟨h1, h2⟩)
    exact abs_le.1 hx
  rcases hid' with rfl | rfl | rfl | rfl | rfl | rfl | rfl | rfl | rfl | rfl | rfl
  · exact ⟨_, rfl, by norm_num, by norm_num⟩
  · refine ⟨_, rfl, ?_⟩
    rw [zc_half_div]
    have := zc_mean (φ := fun i => Real.sin (1.5 * Real.pi * y i + zcTheta j m n)) (lo := -1) (hi := 1) m hm fun i _ => ⟨hs _, hs' _⟩
    constructor <;> norm_num at this ⊢ <;> linarith [this.1, this.2]
  · refine ⟨_, rfl, ?_⟩
    rw [zc_half_div]
    have := zc_mean (φ := fun i => y i ^ 2 * Real.sin (4.5 * Real.pi * y i + zcTheta j m n)) (lo := -1) (hi := 1) m hm fun i hi => by
      have h1 : 0 ≤ y i ^ 2 := sq_nonneg _
      have h2 : y i ^ 2 ≤ 1 := pow_le_one₀ (hy i hi).1 (hy i hi).2
      have h3 := hs (4.5 * Real.pi * y i + zcTheta j m n)
      have h4 := hs' (4.5 * Real.pi * y i + zcTheta j m n)
      constructor <;> nlinarith
    constructor <;> norm_num at this ⊢ <;> linarith [this.1, this.2]
  · refine ⟨_, rfl, ?_⟩
    exact zc_mean (φ := fun i => Real.cos (Real.pi * y i + zcTheta j m n) ^ 2) m hm fun i _ => ⟨sq_nonneg _, by
      have h1 := hc (Real.pi * y i + zcTheta j m n)
      have h2 := hc' (Real.pi * y i + zcTheta j m n)
      nlinarith⟩
  · refine ⟨_, rfl, ?_⟩
    have h1 := hc (4 * Real.pi * zcMu y m + zcTheta j m n)
    have h2 := hc' (4 * Real.pi * zcMu y m + zcTheta j m n)
    constructor <;> norm_num <;> nlinarith [hmu.1, hmu.2]
  · refine ⟨_, rfl, ?_⟩
    rw [zc_half_div]
    have := zc_mean (φ := fun i => Real.sin (2 * Real.pi * y i - 1 + zcTheta j m n) ^ 3) (lo := -1) (hi := 1) m hm fun i _ => cube _ (hs _) (hs' _)
    constructor <;> norm_num at this ⊢ <;> linarith [this.1, this.2]
  · refine ⟨_, rfl, ?_⟩
    have k1 := zc_mean (φ := fun i => y i ^ 2) (lo := 0) (hi := 1) m hm fun i hi => ⟨sq_nonneg _, pow_le_one₀ (hy i hi).1 (hy i hi).2⟩
    have k2 := zc_mean (φ := fun i => Real.cos (11 * Real.pi * y i + zcTheta j m n) ^ 3) (lo := -1) (hi := 1) m hm fun i _ => cube _ (hc _) (hc' _)
    have a0 := Real.sqrt_nonneg ((∑ i ∈ Finset.range m, y i ^ 2) / m)
    have a1 : Real.sqrt ((∑ i ∈ Finset.range m, y i ^ 2) / m) ≤ 1 := by rw [Real.sqrt_le_one]; exact k1.2
    have b1 : Real.exp (-2 / 5 * Real.sqrt ((∑ i ∈ Finset.range m, y i ^ 2) / m)) ≤ 1 := by
      rw [Real.exp_le_one_iff]; nlinarith
    have b2 : Real.exp (-2 / 5) ≤ Real.exp (-2 / 5 * Real.sqrt ((∑ i ∈ Finset.range m, y i ^ 2) / m)) := by
      rw [Real.exp_le_exp]; nlinarith
    have b3 := Real.exp_le_exp.2 k2.1
    have b4 := Real.exp_le_exp.2 k2.2
    have b5 : Real.exp (-2 / 5) < 1 := by rw [Real.exp_lt_one_iff]; norm_num
    have hden : 0 < -10 * Real.exp (-2 / 5) - Real.exp (-1) + 10 + Real.exp 1 := by linarith
    rw [le_div_iff₀ hden, div_le_iff₀ hden]
    constructor <;> linarith
  · refine ⟨_, rfl, ?_⟩
    have hden : 0 < 1 + Real.exp 1 - Real.exp (-1) := by linarith
    have b1 := Real.exp_le_exp.2 (hs (7 * Real.pi * zcMu y m - Real.pi / 2 + zcTheta j m n))
    have b2 := Real.exp_le_exp.2 (hs' (7 * Real.pi * zcMu y m - Real.pi / 2 + zcTheta j m n))
    rw [le_div_iff₀ hden, div_le_iff₀ hden]
    constructor <;> linarith [hmu.1, hmu.2]
  · exact ⟨_, rfl, zc_mean (φ := fun i => |Real.sin (2.5 * Real.pi * (y i - 0.5) + zcTheta j m n)|) m hm fun i _ => abs1 _⟩
  · refine ⟨_, rfl, ?_⟩
    rw [zc_half_div]
    have := zc_mean (φ := fun i => |Real.sin (2.5 * Real.pi * y i - Real.pi / 2 + zcTheta j m n)|) m hm fun i _ => abs1 _
    constructor <;> norm_num at this ⊢ <;> linarith [this.1, this.2, hmu.1, hmu.2]
  · refine ⟨_, rfl, ?_⟩
    have := zc_mean (φ := fun i => Real.sin ((4 * y i - 2) * Real.pi + zcTheta j m n)) (lo := -1) (hi := 1) m hm fun i _ => ⟨hs _, hs' _⟩
    have h3 := cube _ this.1 this.2
    rw [div_pow] at h3
    rw [zc_half_div]
    constructor <;> norm_num at h3 ⊢ <;> linarith [h3.1, h3.2]

end Props
