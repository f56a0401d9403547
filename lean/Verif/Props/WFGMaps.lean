import Mathlib.Tactic.Linarith
import Mathlib.Tactic.Ring
import Mathlib.Tactic.NormNum
import Mathlib.Tactic.FieldSimp
import Mathlib.Tactic.Positivity
import Mathlib.Topology.Order.IntermediateValue
import Mathlib.Analysis.SpecialFunctions.Pow.Continuity
import Mathlib.Analysis.Convex.Combination
import Mathlib.Analysis.Convex.Function
import Mathlib.Analysis.Convex.Jensen
import Verif.Model.WFG
import Verif.Props.DTLZ

/-! # The transformations and reductions of the WFG problems map the unit interval to itself; where they vanish, and that they are onto -/

namespace Props
open Spec Model

theorem correct01_unit {x : ℝ} (h : Unit01 x) : correct01 x = x := by
  unfold correct01
  rw [if_neg (fun h' => absurd h.1 (by linarith [h'.1])), if_neg (fun h' => absurd h.2 (by linarith [h'.1]))]

/-- **C133** The correction applied after every transformation only repairs rounding: a value within `1e-10` of the unit
interval becomes the nearest value of the unit interval, and any other value is kept. -/
theorem C133_correct_nearest (x : ℝ) :
    (-1e-10 ≤ x ∧ x ≤ 1 + 1e-10 → Unit01 (correct01 x) ∧ ∀ y, Unit01 y → |correct01 x - x| ≤ |y - x|) ∧
    (x < -1e-10 ∨ 1 + 1e-10 < x → correct01 x = x) := by
  unfold correct01
  constructor
  · rintro ⟨h0, h1⟩
    rcases lt_or_ge x 0 with hx | hx
    · rw [if_pos ⟨hx, by linarith⟩]
      refine ⟨⟨le_refl 0, zero_le_one⟩, fun y hy => ?_⟩
      rw [abs_of_pos (by linarith), abs_of_pos (by linarith [hy.1])]
      linarith [hy.1]
    · rw [if_neg (fun h => absurd h.1 (not_lt.2 hx))]
      rcases lt_or_ge 1 x with h | h
      · rw [if_pos ⟨h, h1⟩]
        refine ⟨⟨zero_le_one, le_refl 1⟩, fun y hy => ?_⟩
        rw [abs_of_neg (by linarith), abs_of_neg (by linarith [hy.2])]
        linarith [hy.2]
      · rw [if_neg (fun h' => absurd h'.1 (not_lt.2 h))]
        refine ⟨⟨hx, h⟩, fun y _ => ?_⟩
        rw [sub_self, abs_zero]
        exact abs_nonneg _
  · intro h
    rw [if_neg, if_neg]
    · rintro ⟨h1, h2⟩
      rcases h with h | h
      · norm_num at *; linarith
      · linarith
    · rintro ⟨h1, h2⟩
      rcases h with h | h
      · norm_num at *; linarith
      · norm_num at *; linarith

/-! ### Shifts -/

theorem shift_low {v : ℝ} (h0 : 0 ≤ v) (h1 : v ≤ 0.35) : wfgShiftLinear 0.35 v = (0.35 - v) / 0.35 := by
  have hf : ⌊(0.35 : ℝ) - v⌋ = 0 := by rw [Int.floor_eq_iff]; constructor <;> norm_num at * <;> linarith
  unfold wfgShiftLinear
  rw [hf, abs_of_nonpos (by linarith : v - 0.35 ≤ 0)]
  have : |((0 : ℤ) : ℝ) + 0.35| = 0.35 := by norm_num
  rw [this, correct01_unit, neg_sub]
  constructor
  · rw [neg_sub]; exact div_nonneg (by linarith) (by norm_num)
  · rw [neg_sub, div_le_one (by norm_num)]; linarith

theorem shift_high {v : ℝ} (h0 : 0.35 < v) (h1 : v ≤ 1) : wfgShiftLinear 0.35 v = (v - 0.35) / 0.65 := by
  have hf : ⌊(0.35 : ℝ) - v⌋ = -1 := by rw [Int.floor_eq_iff]; constructor <;> norm_num at * <;> linarith
  unfold wfgShiftLinear
  rw [hf, abs_of_pos (by linarith : 0 < v - 0.35)]
  have : |((-1 : ℤ) : ℝ) + 0.35| = 0.65 := by norm_num [abs_of_neg]
  rw [this, correct01_unit]
  exact ⟨div_nonneg (by linarith) (by norm_num), by rw [div_le_one (by norm_num)]; norm_num at *; linarith⟩

theorem shift_unit {v : ℝ} (h : Unit01 v) : Unit01 (wfgShiftLinear 0.35 v) := by
  rcases le_or_gt v 0.35 with hv | hv
  · rw [shift_low h.1 hv]
    exact ⟨div_nonneg (by linarith) (by norm_num), by rw [div_le_one (by norm_num)]; linarith [h.1]⟩
  · rw [shift_high hv h.2]
    exact ⟨div_nonneg (by linarith) (by norm_num), by rw [div_le_one (by norm_num)]; have := h.2; norm_num at *; linarith⟩

theorem shift_zero {v : ℝ} (h : Unit01 v) : wfgShiftLinear 0.35 v = 0 ↔ v = 0.35 := by
  rcases le_or_gt v 0.35 with hv | hv
  · rw [shift_low h.1 hv, div_eq_zero_iff]
    constructor
    · rintro (h' | h')
      · linarith
      · norm_num at h'
    · intro h'; left; linarith
  · rw [shift_high hv h.2, div_eq_zero_iff]
    constructor
    · rintro (h' | h')
      · linarith
      · norm_num at h'
    · intro h'; left; linarith

/-! ### Deceptive -/

theorem dec_low {y : ℝ} (h0 : 0 ≤ y) (h1 : y < 0.349) : wfgDeceptive 0.35 0.001 0.05 y = 1 - 0.95 * (0.349 - y) / 0.349 := by
  have hf1 : ⌊y - 0.35 + 0.001⌋ = -1 := by rw [Int.floor_eq_iff]; constructor <;> norm_num at * <;> linarith
  have hf2 : ⌊(0.35 : ℝ) + 0.001 - y⌋ = 0 := by rw [Int.floor_eq_iff]; constructor <;> norm_num at * <;> linarith
  simp only [wfgDeceptive]
  rw [hf1, hf2, abs_of_neg (by norm_num at *; linarith)]
  have : 1 + (-(y - 0.35) - 0.001) * (((-1 : ℤ) : ℝ) * (1 - 0.05 + (0.35 - 0.001) / 0.001) / (0.35 - 0.001)
      + ((0 : ℤ) : ℝ) * (1 - 0.05 + (1 - 0.35 - 0.001) / 0.001) / (1 - 0.35 - 0.001) + 1 / 0.001) = 1 - 0.95 * (0.349 - y) / 0.349 := by
    push_cast; ring
  rw [this, correct01_unit]
  constructor <;> norm_num at * <;> linarith

theorem dec_mid {y : ℝ} (h0 : 0.349 ≤ y) (h1 : y ≤ 0.351) : wfgDeceptive 0.35 0.001 0.05 y = |y - 0.35| / 0.001 := by
  have hf1 : ⌊y - 0.35 + 0.001⌋ = 0 := by rw [Int.floor_eq_iff]; constructor <;> norm_num at * <;> linarith
  have hf2 : ⌊(0.35 : ℝ) + 0.001 - y⌋ = 0 := by rw [Int.floor_eq_iff]; constructor <;> norm_num at * <;> linarith
  simp only [wfgDeceptive]
  rw [hf1, hf2]
  have ha : |y - 0.35| ≤ 0.001 := by rw [abs_le]; constructor <;> norm_num at * <;> linarith
  have : 1 + (|y - 0.35| - 0.001) * (((0 : ℤ) : ℝ) * (1 - 0.05 + (0.35 - 0.001) / 0.001) / (0.35 - 0.001)
      + ((0 : ℤ) : ℝ) * (1 - 0.05 + (1 - 0.35 - 0.001) / 0.001) / (1 - 0.35 - 0.001) + 1 / 0.001) = |y - 0.35| / 0.001 := by
    push_cast; ring
  rw [this, correct01_unit]
  exact ⟨div_nonneg (abs_nonneg _) (by norm_num), by rw [div_le_one (by norm_num)]; exact ha⟩

theorem dec_high {y : ℝ} (h0 : 0.351 < y) (h1 : y ≤ 1) : wfgDeceptive 0.35 0.001 0.05 y = 1 - 0.95 * (y - 0.351) / 0.649 := by
  have hf1 : ⌊y - 0.35 + 0.001⌋ = 0 := by rw [Int.floor_eq_iff]; constructor <;> norm_num at * <;> linarith
  have hf2 : ⌊(0.35 : ℝ) + 0.001 - y⌋ = -1 := by rw [Int.floor_eq_iff]; constructor <;> norm_num at * <;> linarith
  simp only [wfgDeceptive]
  rw [hf1, hf2, abs_of_pos (by norm_num at *; linarith)]
  have : 1 + (y - 0.35 - 0.001) * (((0 : ℤ) : ℝ) * (1 - 0.05 + (0.35 - 0.001) / 0.001) / (0.35 - 0.001)
      + ((-1 : ℤ) : ℝ) * (1 - 0.05 + (1 - 0.35 - 0.001) / 0.001) / (1 - 0.35 - 0.001) + 1 / 0.001) = 1 - 0.95 * (y - 0.351) / 0.649 := by
    push_cast; ring
  rw [this, correct01_unit]
  constructor <;> norm_num at * <;> linarith

theorem dec_unit {y : ℝ} (h : Unit01 y) : Unit01 (wfgDeceptive 0.35 0.001 0.05 y) := by
  have h0 := h.1
  have h1 := h.2
  rcases lt_or_ge y 0.349 with ha | ha
  · rw [dec_low h.1 ha]; constructor <;> norm_num at * <;> linarith
  rcases le_or_gt y 0.351 with hb | hb
  · rw [dec_mid ha hb]
    have : |y - 0.35| ≤ 0.001 := by rw [abs_le]; constructor <;> norm_num at * <;> linarith
    exact ⟨div_nonneg (abs_nonneg _) (by norm_num), by rw [div_le_one (by norm_num)]; exact this⟩
  · rw [dec_high hb h.2]; constructor <;> norm_num at * <;> linarith

theorem dec_zero {y : ℝ} (h : Unit01 y) : wfgDeceptive 0.35 0.001 0.05 y = 0 ↔ y = 0.35 := by
  have h0 := h.1
  have h1 := h.2
  rcases lt_or_ge y 0.349 with ha | ha
  · rw [dec_low h.1 ha]
    constructor <;> intro h' <;> norm_num at * <;> linarith
  rcases le_or_gt y 0.351 with hb | hb
  · rw [dec_mid ha hb, div_eq_zero_iff, abs_eq_zero, sub_eq_zero]
    simp only [or_iff_left_iff_imp]
    intro h'; norm_num at h'
  · rw [dec_high hb h.2]
    constructor <;> intro h' <;> norm_num at * <;> linarith

theorem dec_onto {w : ℝ} (h : Unit01 w) : ∃ v, Unit01 v ∧ wfgDeceptive 0.35 0.001 0.05 v = w := by
  have h0 := h.1
  have h1 := h.2
  refine ⟨0.35 + 0.001 * w, ⟨by norm_num; linarith, by norm_num at *; linarith⟩, ?_⟩
  rw [dec_mid (by norm_num at *; linarith) (by norm_num at *; linarith), abs_of_nonneg (by norm_num at *; linarith)]
  norm_num

/-! ### Multi-modal -/

theorem mm_low {B y : ℝ} (hB : 0 < B) (h0 : 0 ≤ y) (h1 : y ≤ 0.35) :
    wfgMultiModal 30 B 0.35 y = (1 + Real.cos (122 * Real.pi * (0.5 - (0.35 - y) / 0.7)) + 4 * B * ((0.35 - y) / 0.7) ^ 2) / (B + 2) ∧
      Unit01 ((1 + Real.cos (122 * Real.pi * (0.5 - (0.35 - y) / 0.7)) + 4 * B * ((0.35 - y) / 0.7) ^ 2) / (B + 2)) := by
  have hu : Unit01 ((1 + Real.cos (122 * Real.pi * (0.5 - (0.35 - y) / 0.7)) + 4 * B * ((0.35 - y) / 0.7) ^ 2) / (B + 2)) := by
    have hq : ((0.35 - y) / 0.7) ^ 2 ≤ 1 / 4 := by
      have h2 : 0 ≤ (0.35 - y) / 0.7 := div_nonneg (by linarith) (by norm_num)
      have h3 : (0.35 - y) / 0.7 ≤ 1 / 2 := by rw [div_le_iff₀ (by norm_num)]; norm_num at *; linarith
      nlinarith
    constructor
    · apply div_nonneg _ (by linarith)
      have := Real.neg_one_le_cos (122 * Real.pi * (0.5 - (0.35 - y) / 0.7))
      have h4 : 0 ≤ 4 * B * ((0.35 - y) / 0.7) ^ 2 := by positivity
      linarith
    · rw [div_le_one (by linarith)]
      have := Real.cos_le_one (122 * Real.pi * (0.5 - (0.35 - y) / 0.7))
      have h4 : 4 * B * ((0.35 - y) / 0.7) ^ 2 ≤ 4 * B * (1 / 4) := mul_le_mul_of_nonneg_left hq (by linarith)
      linarith
  refine ⟨?_, hu⟩
  have hf : ⌊(0.35 : ℝ) - y⌋ = 0 := by rw [Int.floor_eq_iff]; constructor <;> norm_num at * <;> linarith
  simp only [wfgMultiModal]
  rw [hf, abs_of_nonpos (by linarith : y - 0.35 ≤ 0)]
  have e1 : -(y - 0.35) / (2 * (((0 : ℤ) : ℝ) + 0.35)) = (0.35 - y) / 0.7 := by push_cast; ring
  have e2 : (4 * (30 : ℝ) + 2) = 122 := by norm_num
  rw [e1, e2, correct01_unit hu]

theorem mm_high {B y : ℝ} (hB : 0 < B) (h0 : 0.35 < y) (h1 : y ≤ 1) :
    wfgMultiModal 30 B 0.35 y = (1 + Real.cos (122 * Real.pi * (0.5 + (y - 0.35) / 1.3)) + 4 * B * ((y - 0.35) / 1.3) ^ 2) / (B + 2) ∧
      Unit01 ((1 + Real.cos (122 * Real.pi * (0.5 + (y - 0.35) / 1.3)) + 4 * B * ((y - 0.35) / 1.3) ^ 2) / (B + 2)) := by
  have hu : Unit01 ((1 + Real.cos (122 * Real.pi * (0.5 + (y - 0.35) / 1.3)) + 4 * B * ((y - 0.35) / 1.3) ^ 2) / (B + 2)) := by
    have hq : ((y - 0.35) / 1.3) ^ 2 ≤ 1 / 4 := by
      have h2 : 0 ≤ (y - 0.35) / 1.3 := div_nonneg (by linarith) (by norm_num)
      have h3 : (y - 0.35) / 1.3 ≤ 1 / 2 := by rw [div_le_iff₀ (by norm_num)]; norm_num at *; linarith
      nlinarith
    constructor
    · apply div_nonneg _ (by linarith)
      have := Real.neg_one_le_cos (122 * Real.pi * (0.5 + (y - 0.35) / 1.3))
      have h4 : 0 ≤ 4 * B * ((y - 0.35) / 1.3) ^ 2 := by positivity
      linarith
    · rw [div_le_one (by linarith)]
      have := Real.cos_le_one (122 * Real.pi * (0.5 + (y - 0.35) / 1.3))
      have h4 : 4 * B * ((y - 0.35) / 1.3) ^ 2 ≤ 4 * B * (1 / 4) := mul_le_mul_of_nonneg_left hq (by linarith)
      linarith
  refine ⟨?_, hu⟩
  have hf : ⌊(0.35 : ℝ) - y⌋ = -1 := by rw [Int.floor_eq_iff]; constructor <;> norm_num at * <;> linarith
  simp only [wfgMultiModal]
  rw [hf, abs_of_pos (by linarith : 0 < y - 0.35)]
  have e1 : (y - 0.35) / (2 * (((-1 : ℤ) : ℝ) + 0.35)) = - ((y - 0.35) / 1.3) := by push_cast; ring
  have e2 : (4 * (30 : ℝ) + 2) = 122 := by norm_num
  rw [e1, e2, sub_neg_eq_add, neg_sq, correct01_unit hu]

theorem mm_unit {B y : ℝ} (hB : 0 < B) (h : Unit01 y) : Unit01 (wfgMultiModal 30 B 0.35 y) := by
  rcases le_or_gt y 0.35 with hv | hv
  · rw [(mm_low hB h.1 hv).1]; exact (mm_low hB h.1 hv).2
  · rw [(mm_high hB hv h.2).1]; exact (mm_high hB hv h.2).2

theorem cos_odd61 : Real.cos (122 * Real.pi * 0.5) = -1 := by
  have : 122 * Real.pi * 0.5 = ((30 : ℕ) : ℝ) * (2 * Real.pi) + Real.pi := by push_cast; ring
  rw [this, Real.cos_nat_mul_two_pi_add_pi]

theorem mm_zero {B y : ℝ} (hB : 0 < B) (h : Unit01 y) : wfgMultiModal 30 B 0.35 y = 0 ↔ y = 0.35 := by
  constructor
  · intro h'
    rcases le_or_gt y 0.35 with hv | hv
    · rw [(mm_low hB h.1 hv).1, div_eq_zero_iff] at h'
      rcases h' with h' | h'
      · have := Real.neg_one_le_cos (122 * Real.pi * (0.5 - (0.35 - y) / 0.7))
        have h4 : 0 ≤ 4 * B * ((0.35 - y) / 0.7) ^ 2 := by positivity
        have h5 : 4 * B * ((0.35 - y) / 0.7) ^ 2 = 0 := by linarith
        rcases mul_eq_zero.1 h5 with h6 | h6
        · linarith
        · have := pow_eq_zero_iff (two_ne_zero) |>.1 h6
          rw [div_eq_zero_iff] at this
          rcases this with h7 | h7
          · linarith
          · norm_num at h7
      · linarith
    · rw [(mm_high hB hv h.2).1, div_eq_zero_iff] at h'
      rcases h' with h' | h'
      · have := Real.neg_one_le_cos (122 * Real.pi * (0.5 + (y - 0.35) / 1.3))
        have h4 : 0 < 4 * B * ((y - 0.35) / 1.3) ^ 2 := by
          have : 0 < (y - 0.35) / 1.3 := div_pos (by linarith) (by norm_num)
          positivity
        linarith
      · linarith
  · rintro rfl
    rw [(mm_low hB h.1 le_rfl).1]
    have : (0.5 - ((0.35 : ℝ) - 0.35) / 0.7) = 0.5 := by norm_num
    rw [this, cos_odd61]; norm_num

theorem mm_onto {B w : ℝ} (hB : 0 < B) (h : Unit01 w) : ∃ v, Unit01 v ∧ wfgMultiModal 30 B 0.35 v = w := by
  set f : ℝ → ℝ := fun y => (1 + Real.cos (122 * Real.pi * (0.5 - (0.35 - y) / 0.7)) + 4 * B * ((0.35 - y) / 0.7) ^ 2) / (B + 2) with hf
  have hc : ContinuousOn f (Set.Icc 0 0.35) := by
    apply Continuous.continuousOn
    rw [hf]; fun_prop
  have h0 : f 0.35 = 0 := by
    have := (mm_low hB (by norm_num) (le_refl (0.35 : ℝ))).1
    exact this.symm.trans ((mm_zero hB ⟨by norm_num, by norm_num⟩).2 rfl)
  have h1 : f 0 = 1 := by
    simp only [hf]
    have : (0.5 - ((0.35 : ℝ) - 0) / 0.7) = 0 := by norm_num
    rw [this, mul_zero, Real.cos_zero, div_eq_one_iff_eq (by linarith)]; norm_num; ring
  obtain ⟨v, hv, hw⟩ := intermediate_value_Icc' (by norm_num : (0 : ℝ) ≤ 0.35) hc (show w ∈ Set.Icc (f 0.35) (f 0) by rw [h0, h1]; exact h)
  have hv1 := hv.1
  have hv2 := hv.2
  exact ⟨v, ⟨hv1, by norm_num at *; linarith⟩, by rw [(mm_low hB hv1 hv2).1]; exact hw⟩

/-! ### Biases -/

theorem flat_val {y : ℝ} (h : Unit01 y) : (y < 0.75 ∧ wfgBiasFlat 0.8 0.75 0.85 y = 0.8 * y / 0.75) ∨
    (0.75 ≤ y ∧ wfgBiasFlat 0.8 0.75 0.85 y ∈ Set.Icc (0.8 : ℝ) 1) := by
  have h0 := h.1
  have h1 := h.2
  rcases lt_or_ge y 0.75 with ha | ha
  · left
    refine ⟨ha, ?_⟩
    have hf1 : ⌊y - 0.75⌋ = -1 := by rw [Int.floor_eq_iff]; constructor <;> norm_num at * <;> linarith
    have hf2 : ⌊(0.85 : ℝ) - y⌋ = 0 := by rw [Int.floor_eq_iff]; constructor <;> norm_num at * <;> linarith
    unfold wfgBiasFlat
    rw [hf1, hf2]
    have e : (0.8 : ℝ) + min 0 (((-1 : ℤ)) : ℝ) * (0.8 * (0.75 - y) / 0.75) - min 0 ((0 : ℤ) : ℝ) * ((1 - 0.8) * (y - 0.85) / (1 - 0.85)) = 0.8 * y / 0.75 := by
      push_cast
      rw [min_eq_right (by norm_num), min_self]; ring
    rw [e, correct01_unit]
    constructor <;> norm_num at * <;> linarith
  · right
    refine ⟨ha, ?_⟩
    have hf1 : ⌊y - 0.75⌋ = 0 := by rw [Int.floor_eq_iff]; constructor <;> norm_num at * <;> linarith
    unfold wfgBiasFlat
    rw [hf1]
    rcases le_or_gt y 0.85 with hb | hb
    · have hf2 : ⌊(0.85 : ℝ) - y⌋ = 0 := by rw [Int.floor_eq_iff]; constructor <;> norm_num at * <;> linarith
      rw [hf2]
      have e : (0.8 : ℝ) + min 0 (((0 : ℤ)) : ℝ) * (0.8 * (0.75 - y) / 0.75) - min 0 ((0 : ℤ) : ℝ) * ((1 - 0.8) * (y - 0.85) / (1 - 0.85)) = 0.8 := by
        push_cast; rw [min_self]; ring
      rw [e, correct01_unit ⟨by norm_num, by norm_num⟩]
      exact ⟨le_rfl, by norm_num⟩
    · have hf2 : ⌊(0.85 : ℝ) - y⌋ = -1 := by rw [Int.floor_eq_iff]; constructor <;> norm_num at * <;> linarith
      rw [hf2]
      have e : (0.8 : ℝ) + min 0 (((0 : ℤ)) : ℝ) * (0.8 * (0.75 - y) / 0.75) - min 0 ((-1 : ℤ) : ℝ) * ((1 - 0.8) * (y - 0.85) / (1 - 0.85)) = 0.8 + 0.2 * (y - 0.85) / 0.15 := by
        push_cast; rw [min_self, min_eq_right (by norm_num)]; ring
      rw [e]
      have hm : (0.8 + 0.2 * (y - 0.85) / 0.15 : ℝ) ∈ Set.Icc (0.8 : ℝ) 1 := by
        constructor <;> norm_num at * <;> linarith
      rw [correct01_unit ⟨by have := hm.1; norm_num at *; linarith, hm.2⟩]
      exact hm

theorem flat_unit {y : ℝ} (h : Unit01 y) : Unit01 (wfgBiasFlat 0.8 0.75 0.85 y) := by
  have h0 := h.1
  rcases flat_val h with ⟨ha, hv⟩ | ⟨ha, hv⟩
  · rw [hv]; constructor <;> norm_num at * <;> linarith
  · exact ⟨le_trans (by norm_num) hv.1, hv.2⟩

theorem flat_zero {y : ℝ} (h : Unit01 y) : wfgBiasFlat 0.8 0.75 0.85 y = 0 ↔ y = 0 := by
  rcases flat_val h with ⟨ha, hv⟩ | ⟨ha, hv⟩
  · rw [hv]; constructor <;> intro h' <;> norm_num at * <;> linarith
  · constructor
    · intro h'; rw [h'] at hv; have := hv.1; norm_num at this
    · rintro rfl; norm_num at ha

theorem rpow_unit' {y e : ℝ} (h : Unit01 y) (he : 0 < e) : Unit01 (y ^ e) := ⟨Real.rpow_nonneg h.1 _, Real.rpow_le_one h.1 h.2 he.le⟩

theorem poly_eq {y : ℝ} (h : Unit01 y) : wfgBiasPoly 0.02 y = y ^ (0.02 : ℝ) := correct01_unit (rpow_unit' h (by norm_num))

theorem poly_unit {y : ℝ} (h : Unit01 y) : Unit01 (wfgBiasPoly 0.02 y) := by rw [poly_eq h]; exact rpow_unit' h (by norm_num)

theorem poly_zero {y : ℝ} (h : Unit01 y) : wfgBiasPoly 0.02 y = 0 ↔ y = 0 := by
  rw [poly_eq h, Real.rpow_eq_zero h.1 (by norm_num)]

theorem rpow_inv' {w e : ℝ} (hw : Unit01 w) (he : 0 < e) : (w ^ e⁻¹) ^ e = w := by
  rw [← Real.rpow_mul hw.1, inv_mul_cancel₀ he.ne', Real.rpow_one]

theorem poly_onto {w : ℝ} (h : Unit01 w) : ∃ v, Unit01 v ∧ wfgBiasPoly 0.02 v = w :=
  ⟨w ^ (0.02 : ℝ)⁻¹, rpow_unit' h (by norm_num), by rw [poly_eq (rpow_unit' h (by norm_num)), rpow_inv' h (by norm_num)]⟩

theorem expo_low {u : ℝ} (h0 : 0 ≤ u) (h1 : u ≤ 0.5) : wfgExponent (0.98 / 49.98) 0.02 50 u = 0.02 + 1.96 * u := by
  have hf : ⌊(0.5 : ℝ) - u⌋ = 0 := by rw [Int.floor_eq_iff]; constructor <;> norm_num at * <;> linarith
  unfold wfgExponent
  rw [hf, abs_of_pos (by norm_num)]
  push_cast; ring

theorem expo_pos {u : ℝ} (h : Unit01 u) : 0 < wfgExponent (0.98 / 49.98) 0.02 50 u := by
  have h0 := h.1
  have h1 := h.2
  rcases le_or_gt u 0.5 with hv | hv
  · rw [expo_low h.1 hv]; norm_num; linarith
  · have hf : ⌊(0.5 : ℝ) - u⌋ = -1 := by rw [Int.floor_eq_iff]; constructor <;> norm_num at * <;> linarith
    unfold wfgExponent
    rw [hf, abs_of_neg (by norm_num)]
    push_cast; norm_num at *; linarith

theorem param_eq {y u : ℝ} (h : Unit01 y) (hu : Unit01 u) : wfgParam y u = y ^ wfgExponent (0.98 / 49.98) 0.02 50 u :=
  correct01_unit (rpow_unit' h (expo_pos hu))

theorem param_unit {y u : ℝ} (h : Unit01 y) (hu : Unit01 u) : Unit01 (wfgParam y u) := by
  rw [param_eq h hu]; exact rpow_unit' h (expo_pos hu)

theorem param_inv {w u : ℝ} (hw : Unit01 w) (hu : Unit01 u) :
    Unit01 (w ^ (wfgExponent (0.98 / 49.98) 0.02 50 u)⁻¹) ∧ wfgParam (w ^ (wfgExponent (0.98 / 49.98) 0.02 50 u)⁻¹) u = w := by
  have h := rpow_unit' hw (inv_pos.2 (expo_pos hu))
  exact ⟨h, by rw [param_eq h hu, rpow_inv' hw (expo_pos hu)]⟩

theorem param_val {y u w : ℝ} (h : Unit01 y) (hu : Unit01 u) (hw : Unit01 w) :
    wfgParam y u = w ↔ y = w ^ (wfgExponent (0.98 / 49.98) 0.02 50 u)⁻¹ := by
  constructor
  · intro h'
    rw [← h', param_eq h hu, ← Real.rpow_mul h.1, mul_inv_cancel₀ (expo_pos hu).ne', Real.rpow_one]
  · rintro rfl; exact (param_inv hw hu).2

/-! ### Reductions -/

theorem sum_unit {n : ℕ} {y : List ℝ} (h : Cube n 0 1 y) : 0 ≤ y.sum ∧ y.sum ≤ n := by
  obtain ⟨hl, h⟩ := h
  subst hl
  constructor
  · exact List.sum_nonneg fun v hv => (h v hv).1
  · have := List.sum_le_card_nsmul y 1 fun v hv => (h v hv).2
    simpa using this

theorem mean_eq {n : ℕ} (hn : 0 < n) {y : List ℝ} (h : Cube n 0 1 y) : Unit01 (y.sum / y.length) ∧ wfgMean y = y.sum / y.length := by
  have hs := sum_unit h
  have hp : (0 : ℝ) < n := by exact_mod_cast hn
  have hu : Unit01 (y.sum / y.length) := by
    rw [h.1]; exact ⟨div_nonneg hs.1 hp.le, (div_le_one hp).2 hs.2⟩
  exact ⟨hu, correct01_unit hu⟩

theorem mean_unit {n : ℕ} (hn : 0 < n) {y : List ℝ} (h : Cube n 0 1 y) : Unit01 (wfgMean y) := by
  rw [(mean_eq hn h).2]; exact (mean_eq hn h).1

theorem sum_zero {y : List ℝ} (h : ∀ v ∈ y, 0 ≤ v) : y.sum = 0 ↔ ∀ v ∈ y, v = 0 := by
  induction y with
  | nil => simp
  | cons a y ih =>
    have ha := h a List.mem_cons_self
    have hy : ∀ v ∈ y, 0 ≤ v := fun v hv => h v (List.mem_cons_of_mem _ hv)
    rw [List.sum_cons, List.forall_mem_cons, ← ih hy]
    have := List.sum_nonneg hy
    constructor
    · intro h'; exact ⟨by linarith, by linarith⟩
    · rintro ⟨h1, h2⟩; linarith

theorem mean_zero {n : ℕ} (hn : 0 < n) {y : List ℝ} (h : Cube n 0 1 y) : wfgMean y = 0 ↔ ∀ v ∈ y, v = 0 := by
  have hp : (y.length : ℝ) ≠ 0 := by rw [h.1]; exact_mod_cast hn.ne'
  rw [(mean_eq hn h).2, div_eq_zero_iff, or_iff_left hp, sum_zero fun v hv => (h.2 v hv).1]

theorem mean_rep {n : ℕ} (hn : 0 < n) {v : ℝ} (h : Unit01 v) : wfgMean (List.replicate n v) = v := by
  have hp : (n : ℝ) ≠ 0 := by exact_mod_cast hn.ne'
  unfold wfgMean
  rw [List.sum_replicate, List.length_replicate, nsmul_eq_mul, mul_div_cancel_left₀ _ hp, correct01_unit h]

theorem zip_bounds : ∀ (y w : List ℝ), y.length = w.length → (∀ v ∈ y, 0 ≤ v ∧ v ≤ 1) → (∀ v ∈ w, 0 < v) →
    0 ≤ (List.zipWith (fun a b => a * b) y w).sum ∧ (List.zipWith (fun a b => a * b) y w).sum ≤ w.sum ∧
      ((List.zipWith (fun a b => a * b) y w).sum = 0 ↔ ∀ v ∈ y, v = 0)
  | [], [], _, _, _ => by simp
  | a :: y, b :: w, hl, hy, hw => by
    have ⟨h1, h2, h3⟩ := zip_bounds y w (by simpa using hl) (fun v hv => hy v (List.mem_cons_of_mem _ hv)) (fun v hv => hw v (List.mem_cons_of_mem _ hv))
    have ha := hy a List.mem_cons_self
    have hb := hw b List.mem_cons_self
    have hab : 0 ≤ a * b := mul_nonneg ha.1 hb.le
    have hab' : a * b ≤ b := by nlinarith [ha.2]
    rw [List.zipWith_cons_cons, List.sum_cons, List.sum_cons, List.forall_mem_cons, ← h3]
    refine ⟨by linarith, by linarith, ?_⟩
    constructor
    · intro h'
      have : a * b = 0 := by linarith
      exact ⟨(mul_eq_zero.1 this).resolve_right hb.ne', by linarith⟩
    · rintro ⟨h', h''⟩; rw [h', h'']; simp

theorem weighted_eq {n : ℕ} (hn : 0 < n) {y w : List ℝ} (h : Cube n 0 1 y) (hl : w.length = n) (hw : ∀ v ∈ w, 0 < v) :
    Unit01 (wfgWeighted w y) ∧ (wfgWeighted w y = 0 ↔ ∀ v ∈ y, v = 0) := by
  have ⟨h1, h2, h3⟩ := zip_bounds y w (by rw [h.1, hl]) h.2 hw
  have hp : 0 < w.sum := List.sum_pos _ hw (by intro h'; rw [h'] at hl; simp at hl; omega)
  have hu : Unit01 ((List.zipWith (fun a b => a * b) y w).sum / w.sum) := ⟨div_nonneg h1 hp.le, (div_le_one hp).2 h2⟩
  unfold wfgWeighted
  rw [correct01_unit hu]
  exact ⟨hu, by rw [div_eq_zero_iff, or_iff_left hp.ne', h3]⟩

theorem zip_rep (v : ℝ) : ∀ (w : List ℝ), (List.zipWith (fun a b => a * b) (List.replicate w.length v) w).sum = v * w.sum
  | [] => by simp
  | b :: w => by
    rw [List.length_cons, List.replicate_succ, List.zipWith_cons_cons, List.sum_cons, List.sum_cons, zip_rep v w]; ring

theorem weighted_rep {w : List ℝ} (h0 : w ≠ []) (hw : ∀ v ∈ w, 0 < v) {v : ℝ} (h : Unit01 v) :
    wfgWeighted w (List.replicate w.length v) = v := by
  have hp : 0 < w.sum := List.sum_pos _ hw h0
  unfold wfgWeighted
  rw [zip_rep, mul_div_cancel_right₀ _ hp.ne', correct01_unit h]

/-! ### The non-separable reduction -/

theorem list_sum_range (n : ℕ) (f : ℕ → ℝ) : ((List.range n).map f).sum = ∑ i ∈ Finset.range n, f i := rfl

theorem rot_sum (m : ℕ) (g : ℕ → ℝ) (c : ℕ) : ∑ k ∈ Finset.range m, g ((c + k) % m) = ∑ i ∈ Finset.range m, g i := by
  induction c with
  | zero =>
    apply Finset.sum_congr rfl
    intro k hk
    rw [zero_add, Nat.mod_eq_of_lt (Finset.mem_range.1 hk)]
  | succ c ih =>
    rw [← ih]
    have h1 := Finset.sum_range_succ (fun k => g ((c + k) % m)) m
    have h2 := Finset.sum_range_succ' (fun k => g ((c + k) % m)) m
    simp only [Nat.add_zero, Nat.add_mod_right] at h1 h2
    have h3 : ∑ k ∈ Finset.range m, g ((c + 1 + k) % m) = ∑ k ∈ Finset.range m, g ((c + (k + 1)) % m) :=
      Finset.sum_congr rfl fun k _ => by congr 2; ring
    rw [h3]; linarith

/-- The sum of the entries and of all the distances between two of them. -/
noncomputable def spread {m : ℕ} (y : Fin m → ℝ) : ℝ := ∑ j, y j + ∑ j, ∑ i, |y j - y i|

theorem nonSepNum_eq {m : ℕ} {y : List ℝ} (hl : y.length = m) : wfgNonSepNum m y = spread fun j : Fin m => y.getD j 0 := by
  unfold wfgNonSepNum spread
  rw [list_sum_range, ← Finset.sum_add_distrib, hl, Finset.sum_range]
  apply Finset.sum_congr rfl
  intro j _
  congr 1
  rw [list_sum_range]
  have hm : 0 < m := j.pos
  have h := rot_sum m (fun i => |y.getD j 0 - y.getD i 0|) (1 + j)
  have h2 := Finset.sum_range_succ (fun k => |y.getD j 0 - y.getD ((1 + j + k) % m) 0|) (m - 1)
  have h3 : (1 + (j : ℕ) + (m - 1)) % m = j := by
    have : 1 + (j : ℕ) + (m - 1) = j + m := by omega
    rw [this, Nat.add_mod_right, Nat.mod_eq_of_lt j.isLt]
  rw [h3, sub_self, abs_zero, add_zero, Nat.sub_add_cancel hm] at h2
  rw [← h2, h, Finset.sum_range]

theorem spread_vertex {m : ℕ} {b : Fin m → ℝ} (h : ∀ j, b j = 0 ∨ b j = 1) :
    spread b = (∑ j, b j) * (1 + 2 * m - 2 * ∑ j, b j) ∧ ∃ q : ℕ, ∑ j, b j = q := by
  constructor
  · have : ∀ j i, |b j - b i| = b j + b i - 2 * (b j * b i) := by
      intro j i
      rcases h j with hj | hj <;> rcases h i with hi | hi <;> rw [hj, hi] <;> norm_num
    unfold spread
    simp only [this, Finset.sum_add_distrib, Finset.sum_sub_distrib, Finset.sum_const, Finset.card_univ, Fintype.card_fin, nsmul_eq_mul]
    simp only [← Finset.mul_sum, ← Finset.sum_mul]
    ring
  · refine ⟨(Finset.univ.filter fun j => b j = 1).card, ?_⟩
    rw [Finset.card_filter]
    push_cast
    apply Finset.sum_congr rfl
    intro j _
    rcases h j with hj | hj <;> rw [hj] <;> norm_num

/-- `np.ceil(A / 2.0)`. -/
theorem ceil_half (m : ℕ) : ((⌈(m : ℝ) / 2⌉ : ℤ) : ℝ) = ((m + 1) / 2 : ℕ) := by
  have : ⌈(m : ℝ) / 2⌉ = (((m + 1) / 2 : ℕ) : ℤ) := by
    rw [Int.ceil_eq_iff]
    rcases Nat.even_or_odd' m with ⟨a, rfl | rfl⟩
    · have : (2 * a + 1) / 2 = a := by omega
      rw [Int.cast_natCast, this]; push_cast; constructor <;> linarith
    · have : (2 * a + 1 + 1) / 2 = a + 1 := by omega
      rw [Int.cast_natCast, this]; push_cast; constructor <;> linarith
  rw [this, Int.cast_natCast]

theorem half_max (m q : ℕ) : (q : ℝ) * (1 + 2 * m - 2 * q) ≤ ((m + 1) / 2 : ℕ) * (1 + 2 * m - 2 * ((m + 1) / 2 : ℕ)) := by
  rcases Nat.even_or_odd' m with ⟨a, rfl | rfl⟩
  · have : (2 * a + 1) / 2 = a := by omega
    rw [this]
    have hz : (0 : ℤ) ≤ ((a : ℤ) - q) * (1 + 2 * ((a : ℤ) - q)) := by
      rcases le_or_gt 0 ((a : ℤ) - q) with h | h
      · positivity
      · exact mul_nonneg_of_nonpos_of_nonpos h.le (by omega)
    have hr : (0 : ℝ) ≤ ((a : ℝ) - q) * (1 + 2 * ((a : ℝ) - q)) := by exact_mod_cast hz
    push_cast; nlinarith
  · have : (2 * a + 1 + 1) / 2 = a + 1 := by omega
    rw [this]
    have hz : (0 : ℤ) ≤ ((a : ℤ) + 1 - q) * (1 + 2 * ((a : ℤ) - q)) := by
      rcases le_or_gt 0 ((a : ℤ) - q) with h | h
      · exact mul_nonneg (by omega) (by omega)
      · exact mul_nonneg_of_nonpos_of_nonpos (by omega) (by omega)
    have hr : (0 : ℝ) ≤ ((a : ℝ) + 1 - q) * (1 + 2 * ((a : ℝ) - q)) := by exact_mod_cast hz
    push_cast; nlinarith

theorem half_pos {m : ℕ} (hm : 0 < m) : (0 : ℝ) < ((m + 1) / 2 : ℕ) * (1 + 2 * m - 2 * ((m + 1) / 2 : ℕ)) := by
  have h1 : 0 < (m + 1) / 2 := by omega
  have h2 : (m + 1) / 2 ≤ m := by omega
  have h1' : (0 : ℝ) < ((m + 1) / 2 : ℕ) := by exact_mod_cast h1
  have h2' : (((m + 1) / 2 : ℕ) : ℝ) ≤ m := by exact_mod_cast h2
  apply mul_pos h1'; linarith

theorem spread_convex (m : ℕ) : ConvexOn ℝ Set.univ (spread (m := m)) := by
  refine ⟨convex_univ, fun x _ y _ a b ha hb _ => ?_⟩
  unfold spread
  simp only [Pi.add_apply, Pi.smul_apply, smul_eq_mul, mul_add, Finset.mul_sum, Finset.sum_add_distrib]
  have : ∑ j, ∑ i, |a * x j + b * y j - (a * x i + b * y i)| ≤ ∑ j, ∑ i, a * |x j - x i| + ∑ j, ∑ i, b * |y j - y i| := by
    rw [← Finset.sum_add_distrib]
    refine Finset.sum_le_sum fun j _ => ?_
    rw [← Finset.sum_add_distrib]
    refine Finset.sum_le_sum fun i _ => ?_
    have e : a * x j + b * y j - (a * x i + b * y i) = a * (x j - x i) + b * (y j - y i) := by ring
    rw [e]
    calc |a * (x j - x i) + b * (y j - y i)| ≤ |a * (x j - x i)| + |b * (y j - y i)| := abs_add_le _ _
      _ = _ := by rw [abs_mul, abs_mul, abs_of_nonneg ha, abs_of_nonneg hb]
  linarith

theorem spread_le {m : ℕ} {y : Fin m → ℝ} (h : ∀ j, Unit01 (y j)) :
    spread y ≤ ((m + 1) / 2 : ℕ) * (1 + 2 * m - 2 * ((m + 1) / 2 : ℕ)) := by
  have hy : y ∈ convexHull ℝ (Set.univ.pi fun _ : Fin m => ({0, 1} : Set ℝ)) := by
    apply mem_convexHull_pi
    intro j _
    rw [convexHull_pair, segment_eq_Icc (by norm_num)]
    exact h j
  obtain ⟨b, hb, hle⟩ := (spread_convex m).exists_ge_of_mem_convexHull (Set.subset_univ _) hy
  have hb' : ∀ j, b j = 0 ∨ b j = 1 := fun j => by simpa using hb j (Set.mem_univ j)
  obtain ⟨h1, q, hq⟩ := spread_vertex hb'
  rw [h1, hq] at hle
  exact hle.trans (half_max m q)

theorem getD_unit' {n : ℕ} {y : List ℝ} (h : Cube n 0 1 y) (j : ℕ) : Unit01 (y.getD j 0) := by
  rcases Nat.lt_or_ge j y.length with hj | hj
  · rw [List.getD_eq_getElem?_getD, List.getElem?_eq_getElem hj]
    exact h.2 _ (List.getElem_mem hj)
  · rw [List.getD_eq_getElem?_getD, List.getElem?_eq_none hj]
    exact ⟨le_rfl, zero_le_one⟩

theorem nonSep_eq {m : ℕ} (hm : 0 < m) {y : List ℝ} (hl : y.length = m) :
    wfgNonSep m y = correct01 ((spread fun j : Fin m => y.getD j 0) / (((m + 1) / 2 : ℕ) * (1 + 2 * m - 2 * ((m + 1) / 2 : ℕ)))) := by
  simp only [wfgNonSep]
  rw [nonSepNum_eq hl, ceil_half, hl]
  have : (m : ℝ) ≠ 0 := by exact_mod_cast hm.ne'
  congr 2
  field_simp

theorem spread_nonneg {m : ℕ} {y : Fin m → ℝ} (h : ∀ j, 0 ≤ y j) : 0 ≤ spread y :=
  add_nonneg (Finset.sum_nonneg fun j _ => h j) (Finset.sum_nonneg fun _ _ => Finset.sum_nonneg fun _ _ => abs_nonneg _)

theorem nonSep_unit {m : ℕ} (hm : 0 < m) {y : List ℝ} (h : Cube m 0 1 y) :
    Unit01 ((spread fun j : Fin m => y.getD j 0) / (((m + 1) / 2 : ℕ) * (1 + 2 * m - 2 * ((m + 1) / 2 : ℕ)))) ∧ Unit01 (wfgNonSep m y) := by
  have hu : Unit01 ((spread fun j : Fin m => y.getD j 0) / (((m + 1) / 2 : ℕ) * (1 + 2 * m - 2 * ((m + 1) / 2 : ℕ)))) :=
    ⟨div_nonneg (spread_nonneg fun j => (getD_unit' h j).1) (half_pos hm).le, (div_le_one (half_pos hm)).2 (spread_le fun j => getD_unit' h j)⟩
  exact ⟨hu, by rw [nonSep_eq hm h.1, correct01_unit hu]; exact hu⟩

theorem nonSep_zero {m : ℕ} (hm : 0 < m) {y : List ℝ} (h : Cube m 0 1 y) : wfgNonSep m y = 0 ↔ ∀ v ∈ y, v = 0 := by
  rw [nonSep_eq hm h.1, correct01_unit (nonSep_unit hm h).1, div_eq_zero_iff, or_iff_left (half_pos hm).ne']
  constructor
  · intro h' v hv
    obtain ⟨j, hj, rfl⟩ := List.getElem_of_mem hv
    have hs : ∑ j : Fin m, y.getD j 0 = 0 := by
      unfold spread at h'
      have h1 : 0 ≤ ∑ j : Fin m, y.getD j 0 := Finset.sum_nonneg fun j _ => (getD_unit' h j).1
      have h2 : 0 ≤ ∑ j : Fin m, ∑ i : Fin m, |y.getD j 0 - y.getD i 0| := Finset.sum_nonneg fun _ _ => Finset.sum_nonneg fun _ _ => abs_nonneg _
      linarith
    have := (Finset.sum_eq_zero_iff_of_nonneg (fun (j : Fin m) _ => (getD_unit' h j).1)).1 hs ⟨j, by rw [← h.1]; exact hj⟩ (Finset.mem_univ _)
    simpa [List.getD, hj] using this
  · intro h'
    have h0 : ∀ j : Fin m, y.getD j 0 = 0 := fun j => by
      have hj : (j : ℕ) < y.length := by rw [h.1]; exact j.isLt
      rw [List.getD_eq_getElem?_getD, List.getElem?_eq_getElem hj]
      exact h' _ (List.getElem_mem hj)
    unfold spread
    simp only [h0, Finset.sum_const_zero, sub_self, abs_zero, add_zero]

theorem nonSep_onto {m : ℕ} (hm : 0 < m) {v : ℝ} (hv : Unit01 v) : ∃ y, Cube m 0 1 y ∧ wfgNonSep m y = v := by
  set p := (m + 1) / 2 with hp
  have hpm : p ≤ m := by omega
  refine ⟨List.replicate p v ++ List.replicate (m - p) 0, ⟨by simp; omega, ?_⟩, ?_⟩
  · intro w hw
    rw [List.mem_append] at hw
    rcases hw with hw | hw
    · rw [(List.mem_replicate.1 hw).2]; exact hv
    · rw [(List.mem_replicate.1 hw).2]; exact ⟨le_rfl, zero_le_one⟩
  · have hl : (List.replicate p v ++ List.replicate (m - p) (0 : ℝ)).length = m := by simp; omega
    rw [nonSep_eq hm hl]
    set b : Fin m → ℝ := fun j => if (j : ℕ) < p then 1 else 0 with hb
    have hb' : ∀ j, b j = 0 ∨ b j = 1 := fun j => by simp only [hb]; split <;> simp
    have hg : (fun j : Fin m => (List.replicate p v ++ List.replicate (m - p) (0 : ℝ)).getD j 0) = fun j => v * b j := by
      funext j
      simp only [hb, List.getD_eq_getElem?_getD]
      split
      · rename_i hj
        rw [List.getElem?_append_left (by simpa using hj)]
        simp [hj]
      · rename_i hj
        rw [List.getElem?_append_right (by simpa using hj)]
        rcases Nat.lt_or_ge (j - p) (m - p) with h | h <;> simp [h]
    have hs : spread (fun j => v * b j) = v * spread b := by
      unfold spread
      rw [mul_add, Finset.mul_sum, Finset.mul_sum]
      congr 1
      refine Finset.sum_congr rfl fun j _ => ?_
      rw [Finset.mul_sum]
      refine Finset.sum_congr rfl fun i _ => ?_
      rw [← mul_sub, abs_mul, abs_of_nonneg hv.1]
    have hsum : ∑ j, b j = p := by
      simp only [hb]
      rw [Finset.sum_boole]
      congr 1
      have : (Finset.univ.filter fun j : Fin m => (j : ℕ) < p).card = p := by
        rw [Fin.card_filter_val_lt]; omega
      exact this
    rw [hg, hs, (spread_vertex hb').1, hsum, ← hp, mul_div_cancel_right₀ _ (hp ▸ (half_pos hm).ne'), correct01_unit hv]

end Props
