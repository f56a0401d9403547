import Verif.Props.ZcatShape
import Mathlib.Tactic.IntervalCases

/-!
# The shapes of the ZCAT fronts, problem by problem
-/

set_option linter.unusedSimpArgs false
set_option linter.unusedVariables false

namespace Props
open Model Spec

theorem zcEps_pos : 0 < zcEps := by unfold zcEps; norm_num

theorem zcFix_id {v : ℝ} (h0 : 0 ≤ v) (h1 : v ≤ 1) : zcFix v = v := by
  unfold zcFix
  split_ifs with h h'
  · exact (le_antisymm h.1 h0).symm
  · exact (le_antisymm h1 h'.1).symm
  · rfl

/-- From vectors to objectives `j`. -/
theorem zcS_le {id M : ℕ} (hM : 2 ≤ M) {G G' : ℕ → ℝ} {y y' : ℕ → ℝ} (e : ∀ j, 1 ≤ j → j ≤ M → zcF id M y j = some (G j)) (e' : ∀ j, 1 ≤ j → j ≤ M → zcF id M y' j = some (G' j)) :
    ((∀ k, zcS id M y' k ≤ zcS id M y k) ↔ (G' M ≤ G M ∧ ∀ j, 1 ≤ j → j < M → G' j ≤ G j)) ∧
    (zcS id M y' = zcS id M y ↔ (G' M = G M ∧ ∀ j, 1 ≤ j → j < M → G' j = G j)) := by
  have v : ∀ k : Fin M, zcS id M y k = G (k + 1) := fun k => by simp [zcS, e (k + 1) (by omega) (by have := k.2; omega)]
  have v' : ∀ k : Fin M, zcS id M y' k = G' (k + 1) := fun k => by simp [zcS, e' (k + 1) (by omega) (by have := k.2; omega)]
  constructor
  · constructor
    · intro h
      exact zc_objs hM fun k => by rw [← v, ← v']; exact h k
    · rintro ⟨hl, h⟩ k
      rw [v, v']
      by_cases hk : (k : ℕ) + 1 = M
      · rw [hk]; exact hl
      · exact h _ (by omega) (by have := k.2; omega)
  · constructor
    · intro h
      refine ⟨?_, fun j h1 h2 => ?_⟩
      · have := congrFun h ⟨M - 1, by omega⟩
        rw [v, v'] at this
        simpa [show M - 1 + 1 = M by omega] using this
      · have := congrFun h ⟨j - 1, by omega⟩
        rw [v, v'] at this
        simpa [show j - 1 + 1 = j by omega] using this
    · rintro ⟨hl, h⟩
      funext k
      rw [v, v']
      exact zc_objs_eq hl h k

/-- Nothing that is nowhere worse differs. -/
def ZcRigid (id M : ℕ) (y : ℕ → ℝ) : Prop := ∀ y', ZcUnit (M - 1) y' → (∀ k, zcS id M y' k ≤ zcS id M y k) → zcS id M y' = zcS id M y

theorem rigid_iff {id M : ℕ} {y : ℕ → ℝ} : ZcRigid id M y ↔ ∀ y', ZcUnit (M - 1) y' → ¬ Dominates (zcS id M y') (zcS id M y) := by
  constructor
  · rintro h y' hy' ⟨h1, i, h2⟩
    rw [h y' hy' h1] at h2
    exact lt_irrefl _ h2
  · intro h y' hy' h1
    by_contra hne
    apply h y' hy'
    refine ⟨h1, ?_⟩
    by_contra hc
    simp only [not_exists, not_lt] at hc
    exact hne (funext fun k => le_antisymm (h1 k) (hc k))

theorem zc_prod_unit {a : ℝ → ℝ} {N : ℕ} {y : ℕ → ℝ} (h0 : ∀ u, 0 ≤ u → u ≤ 1 → 0 ≤ a u ∧ a u ≤ 1) (hy : ZcUnit N y) (k : ℕ) (hk : k ≤ N) :
    0 ≤ ∏ i ∈ Finset.range k, a (y i) ∧ ∏ i ∈ Finset.range k, a (y i) ≤ 1 :=
  ⟨prod_nonneg_of (fun u h1 h2 => (h0 u h1 h2).1) hy k hk, Finset.prod_le_one (fun i hi => by
    have := hy i (by have := Finset.mem_range.1 hi; omega)
    exact (h0 _ this.1 this.2).1) (fun i hi => by
    have := hy i (by have := Finset.mem_range.1 hi; omega)
    exact (h0 _ this.1 this.2).2)⟩

theorem zcF1_eq {M : ℕ} (hM : 2 ≤ M) {y : ℕ → ℝ} (hy : ZcUnit (M - 1) y) (j : ℕ) (h1 : 1 ≤ j) (h2 : j ≤ M) :
    zcF 1 M y j = some (if j = M then 1 - zcSin (y 0) else zcProd zcSin zcCos M y j) := by
  have h0 := hy 0 (by omega)
  have hs := zcSin_mem h0.1 h0.2
  simp only [zcF]
  congr 1
  apply zcFix_id
  · split_ifs with h
    · linarith
    · have hj : j < M := by omega
      by_cases hj1 : j = 1
      · rw [hj1, (zcProd_at hM y).1]
        exact (zc_prod_unit (fun u => zcSin_mem) hy _ le_rfl).1
      · rw [show j = M - (M - j) by omega, (zcProd_at hM y).2 _ (by omega) (by omega)]
        have := hy (M - j) (by omega)
        exact mul_nonneg (zc_prod_unit (fun u => zcSin_mem) hy _ (by omega)).1 (zcCos_mem this.1 this.2).1
  · split_ifs with h
    · linarith
    · have hj : j < M := by omega
      by_cases hj1 : j = 1
      · rw [hj1, (zcProd_at hM y).1]
        exact (zc_prod_unit (fun u => zcSin_mem) hy _ le_rfl).2
      · rw [show j = M - (M - j) by omega, (zcProd_at hM y).2 _ (by omega) (by omega)]
        have := hy (M - j) (by omega)
        have p := zc_prod_unit (fun u => zcSin_mem) hy (M - j) (by omega)
        exact mul_le_one₀ p.2 (zcCos_mem this.1 this.2).1 (zcCos_mem this.1 this.2).2

theorem rigid_1 {M : ℕ} (hM : 2 ≤ M) {y : ℕ → ℝ} (hy : ZcUnit (M - 1) y) : ZcRigid 1 M y := by
  intro y' hy' h
  obtain ⟨hle, heq⟩ := zcS_le hM (zcF1_eq hM hy) (zcF1_eq hM hy')
  obtain ⟨hl, hj⟩ := hle.1 h
  simp only [if_true] at hl
  have hj' : ∀ j, 1 ≤ j → j < M → zcProd zcSin zcCos M y' j ≤ zcProd zcSin zcCos M y j := fun j a b => by
    have := hj j a b
    rwa [if_neg (by omega), if_neg (by omega)] at this
  obtain ⟨c1, c2⟩ := zcProd_le hM hj'
  obtain ⟨e0, e1, e2⟩ := prod_chain pair_sincos (s := 1) (by omega) hy hy' (by simp; linarith) (fun k a b => c2 k a b) c1
  refine heq.2 ⟨?_, fun j a b => ?_⟩
  · simp only [if_true]
    simp only [Finset.prod_range_one] at e0
    rw [e0]
  · rw [if_neg (by omega), if_neg (by omega)]
    exact zcProd_eq hM e1 e2 j a b

/-- Product shapes whose last objective continues the chain. -/
theorem rigid_prod {id M : ℕ} {a b : ℝ → ℝ} (hp : ZcPosPair a b) (hM : 2 ≤ M) (e : ∀ y j, zcF id M y j = some (if j = M then b (y 0) else zcProd a b M y j)) {y : ℕ → ℝ} (hy : ZcUnit (M - 1) y) : ZcRigid id M y := by
  intro y' hy' h
  obtain ⟨hle, heq⟩ := zcS_le hM (fun j _ _ => e y j) (fun j _ _ => e y' j)
  obtain ⟨hl, hj⟩ := hle.1 h
  simp only [if_true] at hl
  have hj' : ∀ j, 1 ≤ j → j < M → zcProd a b M y' j ≤ zcProd a b M y j := fun j p q => by
    have := hj j p q
    rwa [if_neg (by omega), if_neg (by omega)] at this
  obtain ⟨c1, c2⟩ := zcProd_le hM hj'
  obtain ⟨e0, e1, e2⟩ := prod_chain hp (s := 0) (by omega) hy hy' (by simp) (fun k p q => by
    rcases Nat.eq_zero_or_pos k with rfl | hk
    · simpa using hl
    · exact c2 k hk q) c1
  refine heq.2 ⟨?_, fun j p q => ?_⟩
  · simp only [if_true]
    have := e2 0 le_rfl (by omega)
    simpa using this
  · rw [if_neg (by omega), if_neg (by omega)]
    exact zcProd_eq hM e1 (fun k _ q => e2 k (by omega) q) j p q

/-- The same with `1 -` in front of every objective. -/
theorem rigid_prod' {id M : ℕ} {a b : ℝ → ℝ} (hp : ZcPosPair a b) (hM : 2 ≤ M) (e : ∀ y j, zcF id M y j = some (if j = M then 1 - b (y 0) else 1 - zcProd a b M y j)) {y : ℕ → ℝ} (hy : ZcUnit (M - 1) y) : ZcRigid id M y := by
  intro y' hy' h
  obtain ⟨hle, heq⟩ := zcS_le hM (fun j _ _ => e y j) (fun j _ _ => e y' j)
  obtain ⟨hl, hj⟩ := hle.1 h
  simp only [if_true] at hl
  have hj' : ∀ j, 1 ≤ j → j < M → zcProd a b M y j ≤ zcProd a b M y' j := fun j p q => by
    have := hj j p q
    rw [if_neg (by omega), if_neg (by omega)] at this
    linarith
  obtain ⟨c1, c2⟩ := zcProd_le hM hj'
  obtain ⟨e0, e1, e2⟩ := prod_chain hp (s := 0) (by omega) hy' hy (by simp) (fun k p q => by
    rcases Nat.eq_zero_or_pos k with rfl | hk
    · simp only [Finset.range_zero, Finset.prod_empty, one_mul]; linarith
    · exact c2 k hk q) c1
  refine heq.2 ⟨?_, fun j p q => ?_⟩
  · simp only [if_true]
    have := e2 0 le_rfl (by omega)
    simp only [Finset.range_zero, Finset.prod_empty, one_mul] at this
    rw [this]
  · rw [if_neg (by omega), if_neg (by omega)]
    rw [zcProd_eq hM e1 (fun k _ q => e2 k (by omega) q) j p q]

/-- Mean shapes whose last objective continues the chain. -/
theorem rigid_mean {id M : ℕ} {a b : ℝ → ℝ} (hp : ZcPair a b) (hM : 2 ≤ M) (e : ∀ y j, zcF id M y j = some (if j = M then b (y 0) else zcMean a b M y j)) {y : ℕ → ℝ} (hy : ZcUnit (M - 1) y) : ZcRigid id M y := by
  intro y' hy' h
  obtain ⟨hle, heq⟩ := zcS_le hM (fun j _ _ => e y j) (fun j _ _ => e y' j)
  obtain ⟨hl, hj⟩ := hle.1 h
  simp only [if_true] at hl
  have hj' : ∀ j, 1 ≤ j → j < M → zcMean a b M y' j ≤ zcMean a b M y j := fun j p q => by
    have := hj j p q
    rwa [if_neg (by omega), if_neg (by omega)] at this
  obtain ⟨c1, c2⟩ := zcMean_le hM hj'
  obtain ⟨e0, e1, e2⟩ := sum_chain hp (s := 0) (by omega) hy hy' (by simp) (fun k p q => by
    rcases Nat.eq_zero_or_pos k with rfl | hk
    · simpa using hl
    · exact c2 k hk q) c1
  refine heq.2 ⟨?_, fun j p q => ?_⟩
  · simp only [if_true]
    have := e2 0 le_rfl (by omega)
    simpa using this
  · rw [if_neg (by omega), if_neg (by omega)]
    exact zcMean_eq hM e1 (fun k _ q => e2 k (by omega) q) j p q

/-- Shapes that are graphs: the first objectives are the parameters, the last one falls if a parameter grows. -/
theorem graph_rigid {M : ℕ} (hM : 2 ≤ M) {φ : (ℕ → ℝ) → ℝ} {u u' : ℕ → ℝ}
    (anti : ∀ u u' : ℕ → ℝ, ZcUnit (M - 1) u → ZcUnit (M - 1) u' → (∀ i < M - 1, u' i ≤ u i) → (∃ i < M - 1, u' i < u i) → φ u < φ u')
    (hu : ZcUnit (M - 1) u) (hu' : ZcUnit (M - 1) u') (hl : φ u' ≤ φ u) (hj : ∀ j, 1 ≤ j → j < M → u' (j - 1) ≤ u (j - 1)) : ∀ i < M - 1, u' i = u i := by
  have hle : ∀ i < M - 1, u' i ≤ u i := fun i hi => by simpa using hj (i + 1) (by omega) (by omega)
  by_contra hc
  push Not at hc
  obtain ⟨i, hi, hne⟩ := hc
  exact absurd hl (not_le.2 (anti u u' hu hu' hle ⟨i, hi, lt_of_le_of_ne (hle i hi) hne⟩))

theorem rigid_graph {id M : ℕ} (hM : 2 ≤ M) {φ : (ℕ → ℝ) → ℝ}
    (anti : ∀ u u' : ℕ → ℝ, ZcUnit (M - 1) u → ZcUnit (M - 1) u' → (∀ i < M - 1, u' i ≤ u i) → (∃ i < M - 1, u' i < u i) → φ u < φ u')
    (congr : ∀ u u' : ℕ → ℝ, (∀ i < M - 1, u' i = u i) → φ u' = φ u)
    (lift : (ℕ → ℝ) → ℕ → ℝ) (hlift : ∀ y, ZcUnit (M - 1) y → ZcUnit (M - 1) (lift y))
    (e : ∀ y, ZcUnit (M - 1) y → ∀ j, 1 ≤ j → j ≤ M → zcF id M y j = some (if j = M then φ (lift y) else lift y (j - 1))) {y : ℕ → ℝ} (hy : ZcUnit (M - 1) y) : ZcRigid id M y := by
  intro y' hy' h
  obtain ⟨hle, heq⟩ := zcS_le hM (e y hy) (e y' hy')
  obtain ⟨hl, hj⟩ := hle.1 h
  simp only [if_true] at hl
  have hall := graph_rigid hM anti (hlift y hy) (hlift y' hy') hl fun j p q => by
    have := hj j p q
    rwa [if_neg (by omega), if_neg (by omega)] at this
  refine heq.2 ⟨?_, fun j p q => ?_⟩
  · simp only [if_true]
    exact congr _ _ hall
  · rw [if_neg (by omega), if_neg (by omega)]
    exact hall _ (by omega)

theorem sum_lt_of {M : ℕ} {f : ℝ → ℝ} (hf : ∀ u v, 0 ≤ u → u < v → v ≤ 1 → f u < f v) {u u' : ℕ → ℝ} (hu : ZcUnit (M - 1) u) (hu' : ZcUnit (M - 1) u')
    (hle : ∀ i < M - 1, u' i ≤ u i) (hlt : ∃ i < M - 1, u' i < u i) : ∑ i ∈ Finset.range (M - 1), f (u' i) < ∑ i ∈ Finset.range (M - 1), f (u i) := by
  obtain ⟨i, hi, h⟩ := hlt
  refine Finset.sum_lt_sum (fun j hj => ?_) ⟨i, Finset.mem_range.2 hi, hf _ _ (hu' i hi).1 h (hu i hi).2⟩
  have hj := Finset.mem_range.1 hj
  rcases (hle j hj).eq_or_lt with h | h
  · rw [h]
  · exact (hf _ _ (hu' j hj).1 h (hu j hj).2).le

theorem sum_gt_of {M : ℕ} {f : ℝ → ℝ} (hf : ∀ u v, 0 ≤ u → u < v → v ≤ 1 → f v < f u) {u u' : ℕ → ℝ} (hu : ZcUnit (M - 1) u) (hu' : ZcUnit (M - 1) u')
    (hle : ∀ i < M - 1, u' i ≤ u i) (hlt : ∃ i < M - 1, u' i < u i) : ∑ i ∈ Finset.range (M - 1), f (u i) < ∑ i ∈ Finset.range (M - 1), f (u' i) := by
  have := sum_lt_of (f := fun v => -f v) (fun u v a b c => neg_lt_neg (hf u v a b c)) hu hu' hle hlt
  simp only [Finset.sum_neg_distrib] at this
  linarith

theorem sum_congr_of {N : ℕ} (f : ℝ → ℝ) {u u' : ℕ → ℝ} (h : ∀ i < N, u' i = u i) : ∑ i ∈ Finset.range N, f (u' i) = ∑ i ∈ Finset.range N, f (u i) :=
  Finset.sum_congr rfl fun i hi => by rw [h i (Finset.mem_range.1 hi)]

/-! The last objectives of the graphs. -/

theorem zcExp_lt {s t : ℝ} (h : s < t) : zcExp s < zcExp t := by
  unfold zcExp
  have h1 : (1 : ℝ) < Real.exp 1 ^ 8 := one_lt_pow₀ (Real.one_lt_exp_iff.2 one_pos) (by norm_num)
  have h2 : Real.exp s ^ 8 < Real.exp t ^ 8 := pow_lt_pow_left₀ (Real.exp_lt_exp.2 h) (Real.exp_pos s).le (by norm_num)
  exact div_lt_div_of_pos_right (by linarith) (by linarith)

theorem zcLogistic_lt {s t : ℝ} (h : s < t) : zcLogistic t < zcLogistic s := by
  unfold zcLogistic
  have h1 : Real.exp (2 * 40 * s - 40) < Real.exp (2 * 40 * t - 40) := Real.exp_lt_exp.2 (by linarith)
  have h2 : (1 + Real.exp (2 * 40 * t - 40))⁻¹ < (1 + Real.exp (2 * 40 * s - 40))⁻¹ :=
    inv_strictAnti₀ (by positivity) (by linarith)
  have h3 : (1 + Real.exp 40)⁻¹ < (1 + Real.exp (-40))⁻¹ := inv_strictAnti₀ (by positivity) (by
    have : Real.exp (-40) < Real.exp 40 := Real.exp_lt_exp.2 (by norm_num)
    linarith)
  refine div_lt_div_of_pos_right ?_ ?_
  · have : (0.05 : ℝ) * s < 0.05 * t := by norm_num; linarith
    linarith
  · have : (0 : ℝ) < 0.05 := by norm_num
    linarith

theorem quint_lt {s t : ℝ} (h : s < t) : (0.5 - t) ^ 5 < (0.5 - s) ^ 5 := by
  have : Odd 5 := by decide
  exact this.strictMono_pow (by linarith)

theorem zcCosine_raw_lt {s t : ℝ} (h : s < t) :
    1 - t - Real.cos (2 * 5 * Real.pi * t + Real.pi / 2) / (2 * 5 * Real.pi) < 1 - s - Real.cos (2 * 5 * Real.pi * s + Real.pi / 2) / (2 * 5 * Real.pi) := by
  have hp := Real.pi_pos
  rw [Real.cos_add_pi_div_two, Real.cos_add_pi_div_two]
  have hc : 0 < 2 * 5 * Real.pi := by positivity
  have hd : 0 < 2 * 5 * Real.pi * t - 2 * 5 * Real.pi * s := by nlinarith
  have hs : Real.sin (2 * 5 * Real.pi * t) - Real.sin (2 * 5 * Real.pi * s) < 2 * 5 * Real.pi * t - 2 * 5 * Real.pi * s := by
    rw [Real.sin_sub_sin]
    set d := (2 * 5 * Real.pi * t - 2 * 5 * Real.pi * s) / 2 with hd'
    have hdp : 0 < d := by rw [hd']; linarith
    have h1 : |Real.sin d| < d := by
      have := Real.abs_sin_lt_abs hdp.ne'
      rwa [abs_of_pos hdp] at this
    have h2 := Real.abs_cos_le_one ((2 * 5 * Real.pi * t + 2 * 5 * Real.pi * s) / 2)
    have h3 : 2 * Real.sin d * Real.cos ((2 * 5 * Real.pi * t + 2 * 5 * Real.pi * s) / 2) ≤ 2 * |Real.sin d| := by
      refine le_trans (le_abs_self _) ?_
      rw [abs_mul, abs_mul, abs_two]
      have := abs_nonneg (Real.sin d)
      nlinarith
    linarith
  have e : ∀ v, 1 - v - -Real.sin (2 * 5 * Real.pi * v) / (2 * 5 * Real.pi) = 1 + (Real.sin (2 * 5 * Real.pi * v) - 2 * 5 * Real.pi * v) / (2 * 5 * Real.pi) := by
    intro v; field_simp; ring
  rw [e, e]
  have := div_lt_div_of_pos_right (show Real.sin (2 * 5 * Real.pi * t) - 2 * 5 * Real.pi * t < Real.sin (2 * 5 * Real.pi * s) - 2 * 5 * Real.pi * s by linarith) hc
  linarith

theorem zcCosine_raw_unit {s : ℝ} (h0 : 0 ≤ s) (h1 : s ≤ 1) :
    0 ≤ 1 - s - Real.cos (2 * 5 * Real.pi * s + Real.pi / 2) / (2 * 5 * Real.pi) ∧ 1 - s - Real.cos (2 * 5 * Real.pi * s + Real.pi / 2) / (2 * 5 * Real.pi) ≤ 1 := by
  have e0 : 1 - (0 : ℝ) - Real.cos (2 * 5 * Real.pi * 0 + Real.pi / 2) / (2 * 5 * Real.pi) = 1 := by simp
  have e1 : 1 - (1 : ℝ) - Real.cos (2 * 5 * Real.pi * 1 + Real.pi / 2) / (2 * 5 * Real.pi) = 0 := by
    have : Real.sin (2 * 5 * Real.pi * 1) = 0 := by
      have := Real.sin_nat_mul_pi 10
      rw [← this]; congr 1; push_cast; ring
    rw [Real.cos_add_pi_div_two, this]; simp
  constructor
  · rcases h1.eq_or_lt with rfl | h
    · exact e1.ge
    · have := zcCosine_raw_lt h
      rw [e1] at this; exact this.le
  · rcases h0.eq_or_lt with rfl | h
    · exact e0.le
    · have := zcCosine_raw_lt h
      rw [e0] at this; exact this.le

theorem zcCosine_lt {s t : ℝ} (h0 : 0 ≤ s) (h : s < t) (h1 : t ≤ 1) : zcCosine t < zcCosine s := by
  have a := zcCosine_raw_unit h0 (by linarith)
  have b := zcCosine_raw_unit (le_trans h0 h.le) h1
  unfold zcCosine
  rw [zcFix_id a.1 a.2, zcFix_id b.1 b.2]
  exact zcCosine_raw_lt h

theorem mean_lt_of {M : ℕ} (hM : 2 ≤ M) {u u' : ℕ → ℝ} (hu : ZcUnit (M - 1) u) (hu' : ZcUnit (M - 1) u')
    (hle : ∀ i < M - 1, u' i ≤ u i) (hlt : ∃ i < M - 1, u' i < u i) :
    (∑ i ∈ Finset.range (M - 1), u' i) / ((M : ℝ) - 1) < (∑ i ∈ Finset.range (M - 1), u i) / ((M : ℝ) - 1) :=
  div_lt_div_of_pos_right (sum_lt_of (f := fun v => v) (fun _ _ _ h _ => h) hu hu' hle hlt) (zc_mpos hM)

theorem zc_mean_unit {M : ℕ} (hM : 2 ≤ M) {u : ℕ → ℝ} (hu : ZcUnit (M - 1) u) :
    0 ≤ (∑ i ∈ Finset.range (M - 1), u i) / ((M : ℝ) - 1) ∧ (∑ i ∈ Finset.range (M - 1), u i) / ((M : ℝ) - 1) ≤ 1 := by
  have hp := zc_mpos hM
  have h0 : 0 ≤ ∑ i ∈ Finset.range (M - 1), u i := Finset.sum_nonneg fun i hi => (hu i (Finset.mem_range.1 hi)).1
  have h1 : ∑ i ∈ Finset.range (M - 1), u i ≤ (M : ℝ) - 1 := by
    have := Finset.sum_le_card_nsmul (Finset.range (M - 1)) u 1 fun i hi => (hu i (Finset.mem_range.1 hi)).2
    simp only [Finset.card_range, nsmul_eq_mul, mul_one] at this
    rwa [Nat.cast_sub (by omega), Nat.cast_one] at this
  exact ⟨div_nonneg h0 hp.le, by rw [div_le_one hp]; exact h1⟩

theorem comean_lt_of {M : ℕ} (hM : 2 ≤ M) {u u' : ℕ → ℝ} (hu : ZcUnit (M - 1) u) (hu' : ZcUnit (M - 1) u')
    (hle : ∀ i < M - 1, u' i ≤ u i) (hlt : ∃ i < M - 1, u' i < u i) :
    (∑ i ∈ Finset.range (M - 1), (1 - u i)) / ((M : ℝ) - 1) < (∑ i ∈ Finset.range (M - 1), (1 - u' i)) / ((M : ℝ) - 1) :=
  div_lt_div_of_pos_right (sum_gt_of (f := fun v => 1 - v) (fun _ _ _ h _ => by linarith) hu hu' hle hlt) (zc_mpos hM)

theorem quintic_lt_of {M : ℕ} (hM : 2 ≤ M) {u u' : ℕ → ℝ} (hu : ZcUnit (M - 1) u) (hu' : ZcUnit (M - 1) u')
    (hle : ∀ i < M - 1, u' i ≤ u i) (hlt : ∃ i < M - 1, u' i < u i) : zcQuintic M u < zcQuintic M u' := by
  unfold zcQuintic
  have h := sum_gt_of (f := fun v => (0.5 - v) ^ 5) (fun _ _ _ h _ => quint_lt h) hu hu' hle hlt
  have hp := zc_mpos hM
  have : (0 : ℝ) < 2 * ((M : ℝ) - 1) * 0.5 ^ 5 := by positivity
  have := div_lt_div_of_pos_right h this
  linarith

theorem zc_const_sum {M : ℕ} (hM : 2 ≤ M) (c : ℝ) : (∑ i ∈ Finset.range (M - 1), c) / ((M : ℝ) - 1) = c := by
  have hp := zc_mpos hM
  rw [Finset.sum_const, Finset.card_range, nsmul_eq_mul, Nat.cast_sub (by omega), Nat.cast_one]
  field_simp

theorem quintic_const {M : ℕ} (hM : 2 ≤ M) (c : ℝ) : zcQuintic M (fun _ => c) = zcQuintic1 c := by
  have hp := zc_mpos hM
  have := zc_const_sum hM ((0.5 - c) ^ 5)
  unfold zcQuintic zcQuintic1
  have e : (∑ i ∈ Finset.range (M - 1), (0.5 - c) ^ 5) / (2 * ((M : ℝ) - 1) * 0.5 ^ 5) = (∑ i ∈ Finset.range (M - 1), (0.5 - c) ^ 5) / ((M : ℝ) - 1) / (2 * 0.5 ^ 5) := by
    rw [div_div]; congr 1; ring
  rw [e, this, add_div]
  congr 1
  norm_num

/-- Fifteen of the shapes have no dominated point. -/
theorem zc_rigid {id M : ℕ} (hid : id ∈ [1, 2, 3, 4, 5, 6, 7, 8, 9, 10, 14, 17, 18, 19, 20]) (hM : 2 ≤ M) {y : ℕ → ℝ} (hy : ZcUnit (M - 1) y) : ZcRigid id M y := by
  classical
  have hp := zc_mpos hM
  have hconst : ∀ y, ZcUnit (M - 1) y → ZcUnit (M - 1) (fun _ => y 0) := fun y h i hi => h 0 (by omega)
  simp only [List.mem_cons, List.not_mem_nil, or_false] at hid
  rcases hid with rfl | rfl | rfl | rfl | rfl | rfl | rfl | rfl | rfl | rfl | rfl | rfl | rfl | rfl | rfl
  · exact rigid_1 hM hy
  · exact rigid_prod pair_f2 hM (fun y j => rfl) hy
  · exact rigid_mean pair_f3 hM (fun y j => rfl) hy
  · exact rigid_graph hM (φ := fun u => 1 - (∑ i ∈ Finset.range (M - 1), u i) / ((M : ℝ) - 1))
      (fun u u' a b c d => by have := mean_lt_of hM a b c d; linarith) (fun u u' h => by rw [sum_congr_of (fun v => v) h]) (fun y => y) (fun _ h => h) (fun y _ j _ _ => rfl) hy
  · exact rigid_graph hM (φ := fun u => zcExp ((∑ i ∈ Finset.range (M - 1), (1 - u i)) / ((M : ℝ) - 1)))
      (fun u u' a b c d => zcExp_lt (comean_lt_of hM a b c d)) (fun u u' h => by rw [sum_congr_of (fun v => 1 - v) h]) (fun y => y) (fun _ h => h) (fun y _ j _ _ => rfl) hy
  · exact rigid_graph hM (φ := fun u => zcLogistic ((∑ i ∈ Finset.range (M - 1), u i) / ((M : ℝ) - 1)))
      (fun u u' a b c d => zcLogistic_lt (mean_lt_of hM a b c d)) (fun u u' h => by rw [sum_congr_of (fun v => v) h]) (fun y => y) (fun _ h => h) (fun y _ j _ _ => rfl) hy
  · exact rigid_graph hM (φ := zcQuintic M) (fun u u' a b c d => quintic_lt_of hM a b c d)
      (fun u u' h => by unfold zcQuintic; rw [sum_congr_of (fun v => (0.5 - v) ^ 5) h]) (fun y => y) (fun _ h => h) (fun y _ j _ _ => rfl) hy
  · exact rigid_prod' pair_f8 hM (fun y j => by simp [zcF]) hy
  · exact rigid_mean pair_sincos.toZcPair hM (fun y j => rfl) hy
  · refine rigid_graph hM (φ := fun u => (0.02⁻¹ - ((∑ i ∈ Finset.range (M - 1), (1 - u i)) / ((M : ℝ) - 1) + 0.02)⁻¹) / (0.02⁻¹ - (1 + 0.02)⁻¹))
      (fun u u' a b c d => ?_) (fun u u' h => by rw [sum_congr_of (fun v => 1 - v) h]) (fun y => y) (fun _ h => h) (fun y _ j _ _ => rfl) hy
    have h := comean_lt_of hM a b c d
    have h0 : 0 ≤ (∑ i ∈ Finset.range (M - 1), (1 - u i)) / ((M : ℝ) - 1) :=
      div_nonneg (Finset.sum_nonneg fun i hi => by have := (a i (Finset.mem_range.1 hi)).2; linarith) hp.le
    have h2 : (0 : ℝ) < 0.02 := by norm_num
    refine div_lt_div_of_pos_right ?_ (by norm_num)
    have := inv_strictAnti₀ (show 0 < (∑ i ∈ Finset.range (M - 1), (1 - u i)) / ((M : ℝ) - 1) + 0.02 by linarith) (show _ < (∑ i ∈ Finset.range (M - 1), (1 - u' i)) / ((M : ℝ) - 1) + 0.02 by linarith)
    linarith
  · intro y' hy' h
    have h0 := hy 0 (by omega)
    have h0' := hy' 0 (by omega)
    obtain ⟨hle, heq⟩ := zcS_le (id := 14) (y := y) (y' := y') hM (fun j _ _ => rfl) (fun j _ _ => rfl)
    obtain ⟨hl, hj⟩ := hle.1 h
    simp only [if_true] at hl
    have h1 := hj 1 le_rfl (by omega)
    have n1 : ¬ 1 = M := by omega
    have n2 : ¬ (2 < M ∧ 1 = M - 1) := by omega
    simp only [if_neg n1, if_neg n2, if_true] at h1
    have hyy : y' 0 = y 0 := by
      rcases lt_trichotomy (y' 0) (y 0) with hlt | he | hlt
      · exact absurd hl (not_le.2 (zcCos_lt h0'.1 hlt h0.2))
      · exact he
      · have := zcSin_lt h0.1 hlt h0'.2
        exact absurd h1 (not_le.2 (Real.rpow_lt_rpow (zcSin_mem h0.1 h0.2).1 this (by norm_num)))
    exact heq.2 ⟨by rw [hyy], fun j _ _ => by rw [hyy]⟩
  · refine rigid_graph hM (φ := fun u => zcExp ((∑ i ∈ Finset.range (M - 1), (1 - u i)) / ((M : ℝ) - 1)))
      (fun u u' a b c d => zcExp_lt (comean_lt_of hM a b c d)) (fun u u' h => by rw [sum_congr_of (fun v => 1 - v) h])
      (fun y => if zcWedge17 M y then fun _ => y 0 else y) (fun y h => by split_ifs; exacts [hconst y h, h]) (fun y _ j _ _ => ?_) hy
    simp only [zcF]
    by_cases hw : zcWedge17 M y
    · simp only [if_pos hw, zc_const_sum hM]
    · simp only [if_neg hw]
  · refine rigid_graph hM (φ := zcQuintic M) (fun u u' a b c d => quintic_lt_of hM a b c d)
      (fun u u' h => by unfold zcQuintic; rw [sum_congr_of (fun v => (0.5 - v) ^ 5) h])
      (fun y => if zcWedge18 M y then fun _ => y 0 else y) (fun y h => by split_ifs; exacts [hconst y h, h]) (fun y _ j _ _ => ?_) hy
    simp only [zcF]
    by_cases hw : zcWedge18 M y
    · simp only [if_pos hw, quintic_const hM]
    · simp only [if_neg hw]
  · refine rigid_graph hM (φ := fun u => zcCosine ((∑ i ∈ Finset.range (M - 1), u i) / ((M : ℝ) - 1)))
      (fun u u' a b c d => zcCosine_lt (zc_mean_unit hM b).1 (mean_lt_of hM a b c d) (zc_mean_unit hM a).2) (fun u u' h => by rw [sum_congr_of (fun v => v) h])
      (fun y => if zcDeg19 (y 0) then fun _ => y 0 else y) (fun y h => by split_ifs; exacts [hconst y h, h]) (fun y hy j _ hjM => ?_) hy
    simp only [zcF]
    have h0 := hy 0 (by omega)
    by_cases hw : zcDeg19 (y 0)
    · simp only [if_pos hw, zc_const_sum hM, zcFix_id h0.1 h0.2]
    · simp only [if_neg hw]
      by_cases hj : j = M
      · simp only [if_pos hj]
      · have := hy (j - 1) (by omega)
        simp only [if_neg hj, zcFix_id this.1 this.2]
  · refine rigid_graph hM (φ := zcQuintic M) (fun u u' a b c d => quintic_lt_of hM a b c d)
      (fun u u' h => by unfold zcQuintic; rw [sum_congr_of (fun v => (0.5 - v) ^ 5) h])
      (fun y => if zcDeg20 (y 0) then fun _ => y 0 else y) (fun y h => by split_ifs; exacts [hconst y h, h]) (fun y _ j _ _ => ?_) hy
    simp only [zcF]
    by_cases hw : zcDeg20 (y 0)
    · simp only [if_pos hw, quintic_const hM]
    · simp only [if_neg hw]

end Props
