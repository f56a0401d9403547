import Mathlib.Algebra.BigOperators.Field
import Verif.Props.Zcat

/-!
# C143: the ranges of the objectives of ZCAT1-ZCAT20 and the ends of the front
-/

set_option linter.unusedSimpArgs false
set_option linter.unusedVariables false

namespace Props
open Spec Model

private def U (v : ℝ) : Prop := 0 ≤ v ∧ v ≤ 1

private theorem U.sub {v : ℝ} (h : U v) : U (1 - v) := ⟨by linarith [h.2], by linarith [h.1]⟩
private theorem U.mul {v w : ℝ} (h : U v) (h' : U w) : U (v * w) := ⟨mul_nonneg h.1 h'.1, mul_le_one₀ h.2 h'.1 h'.2⟩
private theorem U.fix {v : ℝ} (h : U v) : U (zcFix v) := by rw [zcFix_id h.1 h.2]; exact h

private theorem zcProd_U {a b : ℝ → ℝ} (ha : ∀ v, U v → U (a v)) (hb : ∀ v, U v → U (b v)) {M : ℕ} (hM : 2 ≤ M) {y : ℕ → ℝ} (hy : ZcUnit (M - 1) y) {j : ℕ} (h1 : 1 ≤ j) (h2 : j < M) :
    U (zcProd a b M y j) := by
  unfold zcProd
  split_ifs with h
  · exact zc_prod_unit (fun u h0 h1 => ha u ⟨h0, h1⟩) hy _ le_rfl
  · exact U.mul (zc_prod_unit (fun u h0 h1 => ha u ⟨h0, h1⟩) hy _ (by omega)) (hb _ (hy _ (by omega)))

private theorem zcMean_U {a b : ℝ → ℝ} (ha : ∀ v, U v → U (a v)) (hb : ∀ v, U v → U (b v)) {M : ℕ} (hM : 2 ≤ M) {y : ℕ → ℝ} (hy : ZcUnit (M - 1) y) {j : ℕ} (h1 : 1 ≤ j) (h2 : j < M) :
    U (zcMean a b M y j) := by
  have hs : ∀ k, k ≤ M - 1 → 0 ≤ ∑ i ∈ Finset.range k, a (y i) ∧ ∑ i ∈ Finset.range k, a (y i) ≤ k := by
    intro k hk
    refine ⟨Finset.sum_nonneg fun i hi => (ha _ (hy i (by have := Finset.mem_range.1 hi; omega))).1, ?_⟩
    have := Finset.sum_le_card_nsmul (Finset.range k) (fun i => a (y i)) 1 fun i hi => (ha _ (hy i (by have := Finset.mem_range.1 hi; omega))).2
    simpa using this
  unfold zcMean
  split_ifs with h
  · have := hs (M - 1) le_rfl
    rw [Nat.cast_sub (by omega), Nat.cast_one] at this
    have hp := zc_mpos hM
    exact ⟨div_nonneg this.1 hp.le, by rw [div_le_one hp]; exact this.2⟩
  · have := hs (M - j) (by omega)
    rw [Nat.cast_sub (by omega)] at this
    have hb' := hb _ (hy (M - j) (by omega))
    have hp : (0 : ℝ) < (M : ℝ) - j + 1 := by
      have : (j : ℝ) < M := by exact_mod_cast h2
      linarith
    exact ⟨div_nonneg (by linarith [this.1, hb'.1]) hp.le, by rw [div_le_one hp]; linarith [this.2, hb'.2]⟩

private theorem zcExp_ends : zcExp 0 = 0 ∧ zcExp 1 = 1 := by
  have h1 : (1 : ℝ) < Real.exp 1 ^ 8 := one_lt_pow₀ (Real.one_lt_exp_iff.2 one_pos) (by norm_num)
  exact ⟨by simp [zcExp], div_self (by linarith)⟩

private theorem zcLogistic_ends : zcLogistic 0 = 1 ∧ zcLogistic 1 = 0 := by
  have h3 : (1 + Real.exp 40)⁻¹ < (1 + Real.exp (-40))⁻¹ := inv_strictAnti₀ (by positivity) (by
    have : Real.exp (-40) < Real.exp 40 := Real.exp_lt_exp.2 (by norm_num)
    linarith)
  have h4 : (1 + Real.exp (-40))⁻¹ - (1 + Real.exp 40)⁻¹ + 0.05 ≠ 0 := by
    have : (0 : ℝ) < 0.05 := by norm_num
    linarith
  constructor
  · unfold zcLogistic
    rw [show 2 * 40 * (0 : ℝ) - 40 = -40 by norm_num, mul_zero, sub_zero]
    exact div_self h4
  · unfold zcLogistic
    rw [show 2 * 40 * (1 : ℝ) - 40 = 40 by norm_num, mul_one, div_eq_zero_iff]
    left; ring

private theorem zcCosine_ends : zcCosine 0 = 1 ∧ zcCosine 1 = 0 := by
  have e0 : 1 - (0 : ℝ) - Real.cos (2 * 5 * Real.pi * 0 + Real.pi / 2) / (2 * 5 * Real.pi) = 1 := by simp
  have e1 : 1 - (1 : ℝ) - Real.cos (2 * 5 * Real.pi * 1 + Real.pi / 2) / (2 * 5 * Real.pi) = 0 := by
    have : Real.sin (2 * 5 * Real.pi * 1) = 0 := by
      have := Real.sin_nat_mul_pi 10
      rw [← this]; congr 1; push_cast; ring
    rw [Real.cos_add_pi_div_two, this]; simp
  unfold zcCosine
  rw [e0, e1]
  exact ⟨zcFix_id (by norm_num) le_rfl, zcFix_id le_rfl (by norm_num)⟩

private theorem between {φ : ℝ → ℝ} (hφ : ∀ s t, 0 ≤ s → s < t → t ≤ 1 → φ t < φ s) (h0 : φ 0 = 1) (h1 : φ 1 = 0) {v : ℝ} (hv : U v) : U (φ v) := by
  constructor
  · rcases hv.2.eq_or_lt with rfl | h
    · exact h1.ge
    · exact h1 ▸ (hφ _ _ hv.1 h le_rfl).le
  · rcases hv.1.eq_or_lt with rfl | h
    · exact h0.le
    · exact h0 ▸ (hφ _ _ le_rfl h hv.2).le

private theorem zcExp_U {v : ℝ} (hv : U v) : U (zcExp v) := by
  have := between (φ := fun s => zcExp (1 - s)) (fun s t _ h _ => zcExp_lt (by linarith)) (by norm_num [zcExp_ends.2]) (by norm_num [zcExp_ends.1]) hv.sub
  simpa using this

private theorem zcQuintic1_ends : zcQuintic1 0 = 1 ∧ zcQuintic1 1 = 0 := by constructor <;> norm_num [zcQuintic1]

private theorem zcQuintic1_U {v : ℝ} (hv : U v) : U (zcQuintic1 v) :=
  between (fun s t _ h _ => by
    have := quint_lt h
    unfold zcQuintic1
    exact div_lt_div_of_pos_right (by linarith) (by norm_num)) zcQuintic1_ends.1 zcQuintic1_ends.2 hv

private theorem zcQuintic_U {M : ℕ} (hM : 2 ≤ M) {y : ℕ → ℝ} (hy : ZcUnit (M - 1) y) : U (zcQuintic M y) := by
  have hp := zc_mpos hM
  have hm := zc_mean_unit hM (u := fun i => zcQuintic1 (y i)) fun i hi => zcQuintic1_U (hy i hi)
  have e : (∑ i ∈ Finset.range (M - 1), zcQuintic1 (y i)) / ((M : ℝ) - 1) = zcQuintic M y := by
    unfold zcQuintic1 zcQuintic
    have hc : (∑ i ∈ Finset.range (M - 1), (0.5 : ℝ) ^ 5) = ((M : ℝ) - 1) * 0.5 ^ 5 := by
      rw [Finset.sum_const, Finset.card_range, nsmul_eq_mul, Nat.cast_sub (by omega), Nat.cast_one]
    rw [← Finset.sum_div, Finset.sum_add_distrib, hc]
    generalize (∑ i ∈ Finset.range (M - 1), (0.5 - y i) ^ 5) = S
    field_simp
    norm_num
    ring
  rw [← e]; exact hm

private theorem rippled_U {k : ℝ} (hk : 1 ≤ k) {v : ℝ} (hv : U v) : U (rippled k v) := by
  have hc := Real.cos_le_one ((2 * k - 1) * (Real.pi * v))
  have hc' := Real.neg_one_le_cos ((2 * k - 1) * (Real.pi * v))
  have e : rippled k v = (4 * k * (1 - v) + 2 * v - 1 + Real.cos ((2 * k - 1) * (Real.pi * v))) / (4 * k) := by
    unfold rippled; field_simp; ring
  have hp : 0 < 4 * k := by linarith
  rw [e]
  generalize Real.cos ((2 * k - 1) * (Real.pi * v)) = w at hc hc'
  refine ⟨div_nonneg ?_ hp.le, (div_le_one hp).2 ?_⟩
  · nlinarith [mul_nonneg (show 0 ≤ 4 * k - 2 by linarith) (show 0 ≤ 1 - v by linarith [hv.2])]
  · nlinarith [mul_nonneg (show 0 ≤ 4 * k - 2 by linarith) hv.1]

private theorem sin_U {v : ℝ} (h : U v) : U (zcSin v) := zcSin_mem h.1 h.2
private theorem cos_U {v : ℝ} (h : U v) : U (zcCos v) := zcCos_mem h.1 h.2
private theorem rpow_U {v e : ℝ} (h : U v) (he : 0 ≤ e) : U (v ^ e) := ⟨Real.rpow_nonneg h.1 _, Real.rpow_le_one h.1 h.2 he⟩
private theorem osc_U (w : ℝ) : U (0.5 * (1 + Real.sin w)) := by
  have := Real.sin_le_one w
  have := Real.neg_one_le_sin w
  generalize Real.sin w = s at *
  constructor <;> norm_num <;> linarith

theorem zcF_unit {id M : ℕ} (h1 : 1 ≤ id) (h20 : id ≤ 20) (hM : 2 ≤ M) {y : ℕ → ℝ} (hy : ZcUnit (M - 1) y) {j : ℕ} (hj1 : 1 ≤ j) (hjM : j ≤ M) :
    ∃ v, zcF id M y j = some v ∧ 0 ≤ v ∧ v ≤ 1 := by
  have y0 : U (y 0) := hy 0 (by omega)
  have hm : U ((∑ i ∈ Finset.range (M - 1), y i) / ((M : ℝ) - 1)) := zc_mean_unit hM hy
  have hcm : U ((∑ i ∈ Finset.range (M - 1), (1 - y i)) / ((M : ℝ) - 1)) := zc_mean_unit hM (u := fun i => 1 - y i) fun i hi => U.sub (hy i hi)
  have hid : ∀ v, U v → U v := fun _ h => h
  have hsub : ∀ v, U v → U (1 - v) := fun _ h => h.sub
  have hyj : j ≠ M → U (y (j - 1)) := fun h => hy _ (by omega)
  have hlog : U (zcLogistic ((∑ i ∈ Finset.range (M - 1), y i) / ((M : ℝ) - 1))) :=
    between (fun s t _ h _ => zcLogistic_lt h) zcLogistic_ends.1 zcLogistic_ends.2 hm
  have hcosi : ∀ v, U v → U (zcCosine v) := fun v hv => between (fun s t => zcCosine_lt) zcCosine_ends.1 zcCosine_ends.2 hv
  have hjr : (0 : ℝ) ≤ (j : ℝ) - 1 := by
    have : (1 : ℝ) ≤ j := by exact_mod_cast hj1
    linarith
  have hM2 : (0 : ℝ) ≤ (M : ℝ) - 2 := by
    have : (2 : ℝ) ≤ M := by exact_mod_cast hM
    linarith
  have hMp : (0 : ℝ) ≤ M := by positivity
  have hinv : U ((0.02⁻¹ - ((∑ i ∈ Finset.range (M - 1), (1 - y i)) / ((M : ℝ) - 1) + 0.02)⁻¹) / (0.02⁻¹ - (1 + 0.02)⁻¹)) := by
    generalize (∑ i ∈ Finset.range (M - 1), (1 - y i)) / ((M : ℝ) - 1) = w at hcm
    have := between (φ := fun s : ℝ => (0.02⁻¹ - ((1 - s) + 0.02)⁻¹) / (0.02⁻¹ - (1 + 0.02)⁻¹)) (fun s t h0 h h1 => by
      refine div_lt_div_of_pos_right ?_ (by norm_num)
      have a : (0 : ℝ) < 1 - t + 0.02 := by norm_num; linarith
      have b : 1 - t + 0.02 < 1 - s + 0.02 := by linarith
      have := inv_strictAnti₀ a b
      linarith) (by norm_num) (by norm_num) hcm.sub
    simpa using this
  rcases (show id = 1 ∨ id = 2 ∨ id = 3 ∨ id = 4 ∨ id = 5 ∨ id = 6 ∨ id = 7 ∨ id = 8 ∨ id = 9 ∨ id = 10 ∨ id = 11 ∨ id = 12 ∨ id = 13 ∨ id = 14 ∨ id = 15 ∨ id = 16 ∨ id = 17 ∨ id = 18 ∨
    id = 19 ∨ id = 20 by omega) with rfl | rfl | rfl | rfl | rfl | rfl | rfl | rfl | rfl | rfl | rfl | rfl | rfl | rfl | rfl | rfl | rfl | rfl | rfl | rfl <;>
    refine ⟨_, rfl, ?_⟩ <;> change U _
  · apply U.fix
    split_ifs with h
    · exact (sin_U y0).sub
    · exact zcProd_U (fun _ => sin_U) (fun _ => cos_U) hM hy hj1 (by omega)
  · split_ifs with h
    · exact (sin_U y0).sub
    · exact zcProd_U (fun _ h => (cos_U h).sub) (fun _ h => (sin_U h).sub) hM hy hj1 (by omega)
  · split_ifs with h
    · exact y0.sub
    · exact zcMean_U hid hsub hM hy hj1 (by omega)
  · split_ifs with h
    · exact hm.sub
    · exact hyj h
  · split_ifs with h
    · exact zcExp_U hcm
    · exact hyj h
  · split_ifs with h
    · exact hlog
    · exact hyj h
  · split_ifs with h
    · exact zcQuintic_U hM hy
    · exact hyj h
  · split_ifs with h
    · exact cos_U y0
    · exact (zcProd_U (fun _ h => (sin_U h).sub) (fun _ h => (cos_U h).sub) hM hy hj1 (by omega)).sub
  · split_ifs with h
    · exact cos_U y0
    · exact zcMean_U (fun _ => sin_U) (fun _ => cos_U) hM hy hj1 (by omega)
  · split_ifs with h
    · exact hinv
    · exact hyj h
  · rw [zcWave_eq (by norm_num)]
    split_ifs with h
    · exact rippled_U (by norm_num) y0
    · exact zcMean_U hid hsub hM hy hj1 (by omega)
  · rw [zcWave_eq (by norm_num)]
    split_ifs with h
    · exact rippled_U (by norm_num) y0
    · exact (zcProd_U hsub hid hM hy hj1 (by omega)).sub
  · rw [zcWave_eq (by norm_num)]
    split_ifs with h
    · exact (rippled_U (by norm_num) y0).sub
    · exact (zcMean_U (fun _ => sin_U) (fun _ => cos_U) hM hy hj1 (by omega)).sub
  · split_ifs with h h' h''
    · exact cos_U y0
    · exact osc_U _
    · exact rpow_U (sin_U y0) (by norm_num)
    · exact rpow_U (sin_U y0) (by positivity)
  · rw [zcWave_eq (by norm_num)]
    split_ifs with h
    · exact rippled_U (by norm_num) y0
    · exact rpow_U y0 (by positivity)
  · rw [zcWave_eq (by norm_num)]
    split_ifs with h h' h''
    · exact rippled_U (by norm_num) y0
    · exact osc_U _
    · exact sin_U y0
    · exact rpow_U (sin_U y0) (by positivity)
  · split_ifs with h h' h'
    · exact zcExp_U y0.sub
    · exact y0
    · exact zcExp_U hcm
    · exact hyj h'
  · split_ifs with h h' h'
    · exact zcQuintic1_U y0
    · exact y0
    · exact zcQuintic_U hM hy
    · exact hyj h'
  · split_ifs with h h' h'
    · exact hcosi _ y0
    · exact y0.fix
    · exact hcosi _ hm
    · exact (hyj h').fix
  · split_ifs with h h' h'
    · exact zcQuintic1_U y0
    · exact y0
    · exact zcQuintic_U hM hy
    · exact hyj h'

/-- No feasible solution has a negative objective, and on the Pareto front objective `k` (counted from 1) is at most `k ^ 2`. -/
theorem C143_range (c : Zcat) (hc : c.Accepted) (hN : c.level = 6 → c.n ≤ 10 ^ 50) :
    (∀ x, WideningBox c.n x → ∀ k : Fin c.M, 0 ≤ c.eval x k) ∧
    ∀ f, ParetoPoint (WideningBox c.n) c.eval f → ∀ k : Fin c.M, 0 ≤ f k ∧ f k ≤ ((k : ℝ) + 1) ^ 2 := by
  constructor
  · intro x hx k
    obtain ⟨s, hs1, hs2, -⟩ := C143_distance c hc hN hx
    obtain ⟨v, hv, h0, -⟩ := zcF_unit hc.1.1 hc.1.2 hc.2.1 (zcY_unit hx _) (j := k + 1) (by omega) (by omega)
    rw [hs1] at hv
    have := Option.some.inj hv
    exact le_trans (mul_nonneg (by positivity) (by rw [this]; exact h0)) (hs2 k)
  · intro f hf k
    obtain ⟨y, hy, -, hk⟩ := (C143_front c hc hN f).1 hf
    obtain ⟨v, hv, h0, h1⟩ := zcF_unit hc.1.1 hc.1.2 hc.2.1 (y := y) hy (j := k + 1) (by omega) (by omega)
    rw [hk] at hv
    have := Option.some.inj hv
    have hp : (0 : ℝ) < ((k : ℝ) + 1) ^ 2 := by positivity
    rw [← this] at h0 h1
    exact ⟨by rwa [le_div_iff₀ hp, zero_mul] at h0, by rwa [div_le_one hp] at h1⟩

private theorem zc_sum_c {M : ℕ} (hM : 2 ≤ M) {y : ℕ → ℝ} {w : ℝ} (hy : ∀ i < M - 1, y i = w) (g : ℝ → ℝ) : (∑ i ∈ Finset.range (M - 1), g (y i)) / ((M : ℝ) - 1) = g w := by
  rw [← zc_const_sum hM (g w)]
  congr 1
  exact Finset.sum_congr rfl fun i hi => by rw [hy i (Finset.mem_range.1 hi)]

private theorem zc_quintic_c {M : ℕ} (hM : 2 ≤ M) {y : ℕ → ℝ} {w : ℝ} (hy : ∀ i < M - 1, y i = w) : zcQuintic M y = zcQuintic1 w := by
  rw [← quintic_const hM w]
  unfold zcQuintic
  congr 2
  exact Finset.sum_congr rfl fun i hi => by rw [hy i (Finset.mem_range.1 hi)]

private theorem rippled_ends : (∀ k : ℝ, rippled k 0 = 1) ∧ rippled 3 1 = 0 ∧ rippled 4 1 = 0 ∧ rippled 5 1 = 0 := by
  have hodd : ∀ n : ℕ, Real.cos ((2 * n + 1) * Real.pi) = -1 := by
    intro n
    have : (2 * (n : ℝ) + 1) * Real.pi = Real.pi + n * (2 * Real.pi) := by ring
    rw [this, Real.cos_add_nat_mul_two_pi, Real.cos_pi]
  refine ⟨fun k => by simp [rippled], ?_, ?_, ?_⟩ <;> unfold rippled <;> rw [mul_one]
  · rw [show (2 * 3 - 1 : ℝ) * Real.pi = (2 * (2 : ℕ) + 1) * Real.pi by norm_num, hodd]; norm_num
  · rw [show (2 * 4 - 1 : ℝ) * Real.pi = (2 * (3 : ℕ) + 1) * Real.pi by norm_num, hodd]; norm_num
  · rw [show (2 * 5 - 1 : ℝ) * Real.pi = (2 * (4 : ℕ) + 1) * Real.pi by norm_num, hodd]; norm_num

private theorem zcF_ends {id M : ℕ} (h1 : 1 ≤ id) (h20 : id ≤ 20) (hM : 2 ≤ M) {y : ℕ → ℝ} :
    ((∀ i < M - 1, y i = 0) → zcF id M y M = some (if id = 13 then 0 else 1)) ∧ ((∀ i < M - 1, y i = 1) → zcF id M y M = some (if id = 13 then 1 else 0)) := by
  obtain ⟨r0, r3, r4, r5⟩ := rippled_ends
  have s0 : zcSin 0 = 0 := by simp [zcSin]
  have s1 : zcSin 1 = 1 := by simp [zcSin]
  have c0 : zcCos 0 = 1 := by simp [zcCos]
  have c1 : zcCos 1 = 0 := by simp [zcCos]
  have f0 : zcFix 0 = 0 := zcFix_id le_rfl (by norm_num)
  have f1 : zcFix 1 = 1 := zcFix_id (by norm_num) le_rfl
  constructor
  · intro hy
    have y0 := hy 0 (by omega)
    have m1 := zc_sum_c hM hy fun v => v
    have m2 := zc_sum_c hM hy fun v => 1 - v
    have q := zc_quintic_c hM hy
    rcases (show id = 1 ∨ id = 2 ∨ id = 3 ∨ id = 4 ∨ id = 5 ∨ id = 6 ∨ id = 7 ∨ id = 8 ∨ id = 9 ∨ id = 10 ∨ id = 11 ∨ id = 12 ∨ id = 13 ∨ id = 14 ∨ id = 15 ∨ id = 16 ∨ id = 17 ∨ id = 18 ∨
      id = 19 ∨ id = 20 by omega) with rfl | rfl | rfl | rfl | rfl | rfl | rfl | rfl | rfl | rfl | rfl | rfl | rfl | rfl | rfl | rfl | rfl | rfl | rfl | rfl <;>
      simp [-Finset.sum_sub_distrib, zcF, y0, m1, m2, q, s0, s1, c0, c1, f0, f1, zcWave_eq, r0, zcExp_ends, zcLogistic_ends, zcQuintic1_ends, zcCosine_ends]
    norm_num
  · intro hy
    have y0 := hy 0 (by omega)
    have m1 := zc_sum_c hM hy fun v => v
    have m2 := zc_sum_c hM hy fun v => 1 - v
    have q := zc_quintic_c hM hy
    rcases (show id = 1 ∨ id = 2 ∨ id = 3 ∨ id = 4 ∨ id = 5 ∨ id = 6 ∨ id = 7 ∨ id = 8 ∨ id = 9 ∨ id = 10 ∨ id = 11 ∨ id = 12 ∨ id = 13 ∨ id = 14 ∨ id = 15 ∨ id = 16 ∨ id = 17 ∨ id = 18 ∨
      id = 19 ∨ id = 20 by omega) with rfl | rfl | rfl | rfl | rfl | rfl | rfl | rfl | rfl | rfl | rfl | rfl | rfl | rfl | rfl | rfl | rfl | rfl | rfl | rfl <;>
      simp [-Finset.sum_sub_distrib, zcF, y0, m1, m2, q, s0, s1, c0, c1, f0, f1, zcWave_eq, r3, r4, r5, zcExp_ends, zcLogistic_ends, zcQuintic1_ends, zcCosine_ends]

/-- The two ends of the front: with the first variables at their lower bounds (and the others on the surface) the last objective has its worst value `M ^ 2`, with all at their upper bounds
its best value 0; for ZCAT13 the other way around. -/
theorem C143_ends (c : Zcat) (hc : c.Accepted) (hN : c.level = 6 → c.n ≤ 10 ^ 50) {x : List ℝ} (hx : WideningBox c.n x) (hs : ZcOnSurface c x) (last : Fin c.M) (hl : (last : ℕ) + 1 = c.M) :
    ((∀ i < c.M - 1, x.getD i 0 = -(((i : ℝ) + 1) / 2)) → c.eval x last = if c.id = 13 then 0 else (c.M : ℝ) ^ 2) ∧
    ((∀ i < c.M - 1, x.getD i 0 = ((i : ℝ) + 1) / 2) → c.eval x last = if c.id = 13 then (c.M : ℝ) ^ 2 else 0) := by
  obtain ⟨s, hs1, -, hs2⟩ := C143_distance c hc hN hx
  have he := hs2.2 hs last
  have hf := hs1 last
  rw [hl] at hf
  have hcast : ((last : ℕ) : ℝ) + 1 = c.M := by exact_mod_cast hl
  rw [he, hcast]
  constructor
  · intro h
    have := (zcF_ends hc.1.1 hc.1.2 hc.2.1 (y := zcY x)).1 fun i hi => by
      rw [zcY_eq, h i hi]
      have : (0 : ℝ) < (i : ℝ) + 1 := by positivity
      field_simp; ring
    rw [hf] at this
    rw [Option.some.inj this]
    split_ifs <;> ring
  · intro h
    have := (zcF_ends hc.1.1 hc.1.2 hc.2.1 (y := zcY x)).2 fun i hi => by
      rw [zcY_eq, h i hi]
      have : (0 : ℝ) < (i : ℝ) + 1 := by positivity
      field_simp; ring
    rw [hf] at this
    rw [Option.some.inj this]
    split_ifs <;> ring

/-- The hypotheses of the second part can be met: the bi-objective ZCAT6 with two variables. -/
example : ∃ x, WideningBox 2 x ∧ ∀ i < 1, x.getD i 0 = -(((i : ℝ) + 1) / 2) := by
  refine ⟨[-1 / 2, 0], ⟨rfl, ?_⟩, ?_⟩
  · intro i hi
    have : i = 0 ∨ i = 1 := by omega
    rcases this with rfl | rfl <;> norm_num
  · intro i hi
    have : i = 0 := by omega
    subst this; norm_num

end Props
