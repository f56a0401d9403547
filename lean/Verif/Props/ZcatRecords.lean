import Verif.Props.ZcatFront

/-!
# The shapes of ZCAT11, 12, 13, 15, 16: part of the parameters give dominated points
-/

set_option linter.unusedSimpArgs false
set_option linter.unusedVariables false

namespace Props
open Model Spec

/-- The first parameter replaced. -/
def zcSet (y : ℕ → ℝ) (t : ℝ) : ℕ → ℝ := fun i => if i = 0 then t else y i

theorem zcSet_zero (y : ℕ → ℝ) (t : ℝ) : zcSet y t 0 = t := rfl
theorem zcSet_pos (y : ℕ → ℝ) (t : ℝ) {i : ℕ} (h : 1 ≤ i) : zcSet y t i = y i := if_neg (by omega)
theorem zcSet_succ (y : ℕ → ℝ) (t : ℝ) (i : ℕ) : zcSet y t (i + 1) = y (i + 1) := if_neg (by omega)

theorem zcSet_unit {N : ℕ} {y : ℕ → ℝ} {t : ℝ} (hy : ZcUnit N y) (h0 : 0 ≤ t) (h1 : t ≤ 1) : ZcUnit N (zcSet y t) := by
  intro i hi
  by_cases h : i = 0
  · rw [h, zcSet_zero]; exact ⟨h0, h1⟩
  · rw [zcSet_pos y t (by omega)]; exact hy i hi

theorem zcSet_sum (a : ℝ → ℝ) (y : ℕ → ℝ) (t : ℝ) {k : ℕ} (hk : 1 ≤ k) :
    ∑ i ∈ Finset.range k, a (zcSet y t i) = (∑ i ∈ Finset.range k, a (y i)) + (a t - a (y 0)) := by
  obtain ⟨m, rfl⟩ : ∃ m, k = m + 1 := ⟨k - 1, by omega⟩
  rw [Finset.sum_range_succ', Finset.sum_range_succ']
  simp only [zcSet_succ, zcSet_zero]
  ring

theorem zcSet_prod (a : ℝ → ℝ) (y : ℕ → ℝ) (t : ℝ) {k : ℕ} (hk : 1 ≤ k) :
    ∏ i ∈ Finset.range k, a (zcSet y t i) = (∏ i ∈ Finset.range (k - 1), a (y (i + 1))) * a t := by
  obtain ⟨m, rfl⟩ : ∃ m, k = m + 1 := ⟨k - 1, by omega⟩
  rw [Finset.prod_range_succ']
  simp only [zcSet_succ, zcSet_zero, Nat.add_sub_cancel]

theorem zc_prod_split (a : ℝ → ℝ) (y : ℕ → ℝ) {k : ℕ} (hk : 1 ≤ k) :
    ∏ i ∈ Finset.range k, a (y i) = (∏ i ∈ Finset.range (k - 1), a (y (i + 1))) * a (y 0) := by
  obtain ⟨m, rfl⟩ : ∃ m, k = m + 1 := ⟨k - 1, by omega⟩
  rw [Finset.prod_range_succ']
  simp only [Nat.add_sub_cancel]

/-- Means of an increasing function. -/
theorem rigid_mean_low {id M : ℕ} {a b ψ : ℝ → ℝ} (ha : ∀ u v, 0 ≤ u → u < v → v ≤ 1 → a u < a v) (hp : ZcPair a b) (hM : 2 ≤ M)
    (e : ∀ y j, zcF id M y j = some (if j = M then ψ (y 0) else zcMean a b M y j)) {y : ℕ → ℝ} (hy : ZcUnit (M - 1) y) : ZcRigid id M y ↔ LowestSoFar ψ (y 0) := by
  have h0 := hy 0 (by omega)
  constructor
  · intro hr t ht hlt
    by_contra hc
    rw [not_lt] at hc
    have hu := zcSet_unit hy ht (le_trans hlt.le h0.2)
    obtain ⟨hle, heq⟩ := zcS_le hM (fun j _ _ => e y j) (fun j _ _ => e (zcSet y t) j)
    have hat := ha _ _ ht hlt h0.2
    have hall : ∀ j, 1 ≤ j → j < M → zcMean a b M (zcSet y t) j < zcMean a b M y j := by
      intro j h1 h2
      by_cases hj1 : j = 1
      · rw [hj1, (zcMean_at hM y).1, (zcMean_at hM _).1, zcSet_sum _ _ _ (by omega)]
        exact div_lt_div_of_pos_right (by linarith) (zc_mpos hM)
      · rw [show j = M - (M - j) by omega, (zcMean_at hM y).2 _ (by omega) (by omega), (zcMean_at hM _).2 _ (by omega) (by omega), zcSet_sum _ _ _ (by omega), zcSet_pos y t (by omega)]
        exact div_lt_div_of_pos_right (by linarith) (by positivity)
    have := heq.1 (hr _ hu (hle.2 ⟨by simpa [zcSet_zero] using hc, fun j h1 h2 => by rw [if_neg (by omega), if_neg (by omega)]; exact (hall j h1 h2).le⟩))
    have h1 := this.2 1 le_rfl (by omega)
    rw [if_neg (by omega), if_neg (by omega)] at h1
    exact absurd h1 (hall 1 le_rfl (by omega)).ne
  · intro hr y' hy' h
    have h0' := hy' 0 (by omega)
    obtain ⟨hle, heq⟩ := zcS_le hM (fun j _ _ => e y j) (fun j _ _ => e y' j)
    obtain ⟨hl, hj⟩ := hle.1 h
    simp only [if_true] at hl
    have hge : y 0 ≤ y' 0 := by
      by_contra hc
      exact absurd hl (not_le.2 (hr _ h0'.1 (not_le.1 hc)))
    have hj' : ∀ j, 1 ≤ j → j < M → zcMean a b M y' j ≤ zcMean a b M y j := fun j p q => by
      have := hj j p q
      rwa [if_neg (by omega), if_neg (by omega)] at this
    obtain ⟨c1, c2⟩ := zcMean_le hM hj'
    have hst : a (y 0) ≤ a (y' 0) := by
      rcases hge.eq_or_lt with h | h
      · rw [h]
      · exact (ha _ _ h0.1 h h0'.2).le
    obtain ⟨e0, e1, e2⟩ := sum_chain hp (s := 1) (by omega) hy hy' (by simpa using hst) (fun k p q => c2 k p q) c1
    simp only [Finset.sum_range_one] at e0
    have hyy := hp.inj _ _ h0'.1 h0'.2 h0.1 h0.2 e0
    refine heq.2 ⟨by simp only [if_true, hyy], fun j p q => ?_⟩
    rw [if_neg (by omega), if_neg (by omega)]
    exact zcMean_eq hM e1 e2 j p q

/-- `1 -` means of an increasing function. -/
theorem rigid_mean_high {id M : ℕ} {a b ψ : ℝ → ℝ} (ha : ∀ u v, 0 ≤ u → u < v → v ≤ 1 → a u < a v) (hp : ZcPair a b) (hM : 2 ≤ M)
    (e : ∀ y j, zcF id M y j = some (if j = M then 1 - ψ (y 0) else 1 - zcMean a b M y j)) {y : ℕ → ℝ} (hy : ZcUnit (M - 1) y) : ZcRigid id M y ↔ HighestFromHere ψ (y 0) := by
  have h0 := hy 0 (by omega)
  constructor
  · intro hr t hlt ht
    by_contra hc
    rw [not_lt] at hc
    have hu := zcSet_unit hy (le_trans h0.1 hlt.le) ht
    obtain ⟨hle, heq⟩ := zcS_le hM (fun j _ _ => e y j) (fun j _ _ => e (zcSet y t) j)
    have hat := ha _ _ h0.1 hlt ht
    have hall : ∀ j, 1 ≤ j → j < M → zcMean a b M y j < zcMean a b M (zcSet y t) j := by
      intro j h1 h2
      by_cases hj1 : j = 1
      · rw [hj1, (zcMean_at hM y).1, (zcMean_at hM _).1, zcSet_sum _ _ _ (by omega)]
        exact div_lt_div_of_pos_right (by linarith) (zc_mpos hM)
      · rw [show j = M - (M - j) by omega, (zcMean_at hM y).2 _ (by omega) (by omega), (zcMean_at hM _).2 _ (by omega) (by omega), zcSet_sum _ _ _ (by omega), zcSet_pos y t (by omega)]
        exact div_lt_div_of_pos_right (by linarith) (by positivity)
    have := heq.1 (hr _ hu (hle.2 ⟨by simp only [if_true, zcSet_zero]; linarith, fun j h1 h2 => by rw [if_neg (by omega), if_neg (by omega)]; have := hall j h1 h2; linarith⟩))
    have h1 := this.2 1 le_rfl (by omega)
    rw [if_neg (by omega), if_neg (by omega)] at h1
    have := hall 1 le_rfl (by omega)
    linarith
  · intro hr y' hy' h
    have h0' := hy' 0 (by omega)
    obtain ⟨hle, heq⟩ := zcS_le hM (fun j _ _ => e y j) (fun j _ _ => e y' j)
    obtain ⟨hl, hj⟩ := hle.1 h
    simp only [if_true] at hl
    have hge : y' 0 ≤ y 0 := by
      by_contra hc
      have := hr _ (not_le.1 hc) h0'.2
      linarith
    have hj' : ∀ j, 1 ≤ j → j < M → zcMean a b M y j ≤ zcMean a b M y' j := fun j p q => by
      have := hj j p q
      rw [if_neg (by omega), if_neg (by omega)] at this
      linarith
    obtain ⟨c1, c2⟩ := zcMean_le hM hj'
    have hst : a (y' 0) ≤ a (y 0) := by
      rcases hge.eq_or_lt with h | h
      · rw [h]
      · exact (ha _ _ h0'.1 h h0.2).le
    obtain ⟨e0, e1, e2⟩ := sum_chain hp (s := 1) (by omega) hy' hy (by simpa using hst) (fun k p q => c2 k p q) c1
    simp only [Finset.sum_range_one] at e0
    have hyy := hp.inj _ _ h0.1 h0.2 h0'.1 h0'.2 e0
    refine heq.2 ⟨by simp only [if_true, hyy], fun j p q => ?_⟩
    rw [if_neg (by omega), if_neg (by omega), zcMean_eq hM e1 e2 j p q]

/-- `1 -` products of a decreasing function. -/
theorem rigid_prod_low {id M : ℕ} {a b ψ : ℝ → ℝ} (ha : ∀ u v, 0 ≤ u → u < v → v ≤ 1 → a v < a u) (hp : ZcPosPair a b) (hM : 2 ≤ M)
    (e : ∀ y j, zcF id M y j = some (if j = M then ψ (y 0) else 1 - zcProd a b M y j)) {y : ℕ → ℝ} (hy : ZcUnit (M - 1) y) : ZcRigid id M y ↔ LowestSoFar ψ (y 0) := by
  have h0 := hy 0 (by omega)
  constructor
  · intro hr t ht hlt
    by_contra hc
    rw [not_lt] at hc
    have hu := zcSet_unit hy ht (le_trans hlt.le h0.2)
    obtain ⟨hle, heq⟩ := zcS_le hM (fun j _ _ => e y j) (fun j _ _ => e (zcSet y t) j)
    have hat := ha _ _ ht hlt h0.2
    set Q : ℕ → ℝ := fun k => ∏ i ∈ Finset.range (k - 1), a (y (i + 1)) with hQ
    have Qn : ∀ k, k ≤ M - 1 → 0 ≤ Q k := fun k hk => Finset.prod_nonneg fun i hi => by
      have hi := Finset.mem_range.1 hi
      have := hy (i + 1) (by omega)
      exact hp.a0 _ this.1 this.2
    have hall : ∀ j, 1 ≤ j → j < M → zcProd a b M y j ≤ zcProd a b M (zcSet y t) j := by
      intro j h1 h2
      by_cases hj1 : j = 1
      · rw [hj1, (zcProd_at hM y).1, (zcProd_at hM _).1, zcSet_prod _ _ _ (by omega), zc_prod_split _ _ (by omega)]
        exact mul_le_mul_of_nonneg_left hat.le (Qn (M - 1) le_rfl)
      · rw [show j = M - (M - j) by omega, (zcProd_at hM y).2 _ (by omega) (by omega), (zcProd_at hM _).2 _ (by omega) (by omega), zcSet_prod _ _ _ (by omega), zc_prod_split _ _ (by omega), zcSet_pos y t (by omega)]
        have := hy (M - j) (by omega)
        exact mul_le_mul_of_nonneg_right (mul_le_mul_of_nonneg_left hat.le (Qn (M - j) (by omega))) (hp.b0 _ this.1 this.2)
    have hq := heq.1 (hr _ hu (hle.2 ⟨by simpa [zcSet_zero] using hc, fun j h1 h2 => by rw [if_neg (by omega), if_neg (by omega)]; have := hall j h1 h2; linarith⟩))
    have hq' : ∀ j, 1 ≤ j → j < M → zcProd a b M (zcSet y t) j = zcProd a b M y j := fun j h1 h2 => by
      have := hq.2 j h1 h2
      rw [if_neg (by omega), if_neg (by omega)] at this
      linarith
    have pos : ∀ k, k + 1 ≤ M - 1 → 0 < Q (k + 1) := by
      intro k
      induction k with
      | zero => intro _; simp [hQ]
      | succ k ih =>
        intro hk
        have ih := ih (by omega)
        have hyk := hy (k + 1) (by omega)
        have := hq' (M - (k + 1)) (by omega) (by omega)
        rw [(zcProd_at hM y).2 _ (by omega) (by omega), (zcProd_at hM _).2 _ (by omega) (by omega), zcSet_prod _ _ _ (by omega), zc_prod_split a y (k := k + 1) (by omega), zcSet_pos y t (by omega)] at this
        have hb : b (y (k + 1)) = 0 := by
          have h3 : Q (k + 1) * (a t - a (y 0)) * b (y (k + 1)) = 0 := by
            have : Q (k + 1) * a t * b (y (k + 1)) = Q (k + 1) * a (y 0) * b (y (k + 1)) := this
            linarith
          rcases mul_eq_zero.1 h3 with h | h
          · rcases mul_eq_zero.1 h with h | h
            · exact absurd h ih.ne'
            · linarith
          · exact h
        have haa : 0 < a (y (k + 1)) := (hp.ab _ hyk.1 hyk.2).resolve_right (by rw [hb]; exact lt_irrefl _)
        have : Q (k + 1 + 1) = Q (k + 1) * a (y (k + 1)) := by
          simp only [hQ, Nat.add_sub_cancel]
          rw [Finset.prod_range_succ]
        rw [this]
        exact mul_pos ih haa
    have hN := pos (M - 2) (by omega)
    rw [show M - 2 + 1 = M - 1 by omega] at hN
    have := hq' 1 le_rfl (by omega)
    rw [(zcProd_at hM y).1, (zcProd_at hM _).1, zcSet_prod _ _ _ (by omega), zc_prod_split a y (k := M - 1) (by omega)] at this
    have := mul_left_cancel₀ hN.ne' this
    linarith
  · intro hr y' hy' h
    have h0' := hy' 0 (by omega)
    obtain ⟨hle, heq⟩ := zcS_le hM (fun j _ _ => e y j) (fun j _ _ => e y' j)
    obtain ⟨hl, hj⟩ := hle.1 h
    simp only [if_true] at hl
    have hge : y 0 ≤ y' 0 := by
      by_contra hc
      exact absurd hl (not_le.2 (hr _ h0'.1 (not_le.1 hc)))
    have hj' : ∀ j, 1 ≤ j → j < M → zcProd a b M y j ≤ zcProd a b M y' j := fun j p q => by
      have := hj j p q
      rw [if_neg (by omega), if_neg (by omega)] at this
      linarith
    obtain ⟨c1, c2⟩ := zcProd_le hM hj'
    have hst : a (y' 0) ≤ a (y 0) := by
      rcases hge.eq_or_lt with h | h
      · rw [h]
      · exact (ha _ _ h0.1 h h0'.2).le
    obtain ⟨e0, e1, e2⟩ := prod_chain hp (s := 1) (by omega) hy' hy (by simpa using hst) (fun k p q => c2 k p q) c1
    simp only [Finset.prod_range_one] at e0
    have hyy := hp.inj _ _ h0.1 h0.2 h0'.1 h0'.2 e0
    refine heq.2 ⟨by simp only [if_true, hyy], fun j p q => ?_⟩
    rw [if_neg (by omega), if_neg (by omega), zcProd_eq hM e1 e2 j p q]

/-- The second-last objective of `_f16`. -/
noncomputable def zcOsc (v : ℝ) : ℝ := 0.5 * (1 + Real.sin (10 * v * Real.pi / 2 - Real.pi / 2))

theorem rigid_15 {M : ℕ} (hM : 2 ≤ M) {y : ℕ → ℝ} (hy : ZcUnit (M - 1) y) : ZcRigid 15 M y ↔ LowestSoFar (zcWave 3) (y 0) := by
  have h0 := hy 0 (by omega)
  have hMp : (0 : ℝ) < M := by have := zc_mpos hM; linarith
  constructor
  · intro hr t ht hlt
    by_contra hc
    rw [not_lt] at hc
    have hu := zcSet_unit hy ht (le_trans hlt.le h0.2)
    obtain ⟨hle, heq⟩ := zcS_le (id := 15) (y := y) (y' := zcSet y t) hM (fun j _ _ => rfl) (fun j _ _ => rfl)
    have hq := heq.1 (hr _ hu (hle.2 ⟨by simpa [zcSet_zero] using hc, fun j h1 h2 => by
      rw [if_neg (by omega), if_neg (by omega), zcSet_zero]
      have : (0 : ℝ) ≤ (j : ℝ) - 1 := by have : (1 : ℝ) ≤ j := by exact_mod_cast h1
                                         linarith
      exact Real.rpow_le_rpow ht hlt.le (by positivity)⟩))
    have h1 := hq.2 1 le_rfl (by omega)
    rw [if_neg (by omega), if_neg (by omega), zcSet_zero] at h1
    simp at h1
    linarith
  · intro hr y' hy' h
    have h0' := hy' 0 (by omega)
    obtain ⟨hle, heq⟩ := zcS_le (id := 15) (y := y) (y' := y') hM (fun j _ _ => rfl) (fun j _ _ => rfl)
    obtain ⟨hl, hj⟩ := hle.1 h
    simp only [if_true] at hl
    have hge : y 0 ≤ y' 0 := by
      by_contra hc
      exact absurd hl (not_le.2 (hr _ h0'.1 (not_le.1 hc)))
    have h1 := hj 1 le_rfl (by omega)
    rw [if_neg (by omega), if_neg (by omega)] at h1
    simp at h1
    have hyy := le_antisymm h1 hge
    exact heq.2 ⟨by rw [hyy], fun j _ _ => by rw [hyy]⟩

theorem rigid_16 {M : ℕ} (hM : 2 ≤ M) {y : ℕ → ℝ} (hy : ZcUnit (M - 1) y) :
    ZcRigid 16 M y ↔ ∀ t, 0 ≤ t → t < y 0 → zcWave 5 (y 0) < zcWave 5 t ∨ (2 < M ∧ zcOsc (y 0) < zcOsc t) := by
  have h0 := hy 0 (by omega)
  have n1 : ¬ 1 = M := by omega
  have n2 : ¬ (2 < M ∧ 1 = M - 1) := by omega
  constructor
  · intro hr t ht hlt
    by_contra hc
    push Not at hc
    have hu := zcSet_unit hy ht (le_trans hlt.le h0.2)
    obtain ⟨hle, heq⟩ := zcS_le (id := 16) (y := y) (y' := zcSet y t) hM (fun j _ _ => rfl) (fun j _ _ => rfl)
    have hs := zcSin_lt ht hlt h0.2
    have hs0 := (zcSin_mem ht (le_trans hlt.le h0.2)).1
    have hq := heq.1 (hr _ hu (hle.2 ⟨by simpa [zcSet_zero] using hc.1, fun j h1 h2 => by
      rw [zcSet_zero]
      have hjM : ¬ j = M := by omega
      simp only [if_neg hjM]
      by_cases hj : 2 < M ∧ j = M - 1
      · simp only [if_pos hj]
        exact hc.2 hj.1
      · simp only [if_neg hj]
        by_cases hj1 : j = 1
        · simp only [if_pos hj1]; exact hs.le
        · simp only [if_neg hj1]
          have a1 : (0 : ℝ) ≤ (j : ℝ) - 1 := by have : (1 : ℝ) ≤ j := by exact_mod_cast h1
                                                linarith
          have a2 : (0 : ℝ) ≤ (M : ℝ) - 2 := by have : (2 : ℝ) ≤ M := by exact_mod_cast hM
                                                linarith
          exact Real.rpow_le_rpow hs0 hs.le (by positivity)⟩))
    have h1 := hq.2 1 le_rfl (by omega)
    simp only [if_neg n1, if_neg n2, if_true, zcSet_zero] at h1
    linarith
  · intro hr y' hy' h
    have h0' := hy' 0 (by omega)
    obtain ⟨hle, heq⟩ := zcS_le (id := 16) (y := y) (y' := y') hM (fun j _ _ => rfl) (fun j _ _ => rfl)
    obtain ⟨hl, hj⟩ := hle.1 h
    simp only [if_true] at hl
    have hge : y 0 ≤ y' 0 := by
      by_contra hc
      rcases hr _ h0'.1 (not_le.1 hc) with h | ⟨h2, h⟩
      · exact absurd hl (not_le.2 h)
      · have hm := hj (M - 1) (by omega) (by omega)
        have n3 : ¬ M - 1 = M := by omega
        have n4 : 2 < M ∧ M - 1 = M - 1 := ⟨h2, rfl⟩
        rw [if_neg n3, if_neg n3, if_pos n4, if_pos n4] at hm
        exact absurd hm (not_le.2 h)
    have h1 := hj 1 le_rfl (by omega)
    simp only [if_neg n1, if_neg n2, if_true] at h1
    have hyy : y' 0 = y 0 := by
      rcases hge.eq_or_lt with h | h
      · exact h.symm
      · exact absurd h1 (not_le.2 (zcSin_lt h0.1 h h0'.2))
    exact heq.2 ⟨by rw [hyy], fun j _ _ => by rw [hyy]⟩

/-- The first parameters that give points of the front. -/
def ZcAdmissible (id M : ℕ) (v : ℝ) : Prop :=
  if id = 11 then LowestSoFar (rippled 4) v else if id = 12 ∨ id = 15 then LowestSoFar (rippled 3) v else if id = 13 then HighestFromHere (rippled 3) v
  else if id = 16 then ∀ t, 0 ≤ t → t < v → rippled 5 v < rippled 5 t ∨ (2 < M ∧ Real.cos (5 * Real.pi * t) < Real.cos (5 * Real.pi * v)) else True

theorem zcWave_eq {k : ℝ} (hk : k ≠ 0) : zcWave k = rippled k := by
  funext v
  unfold zcWave rippled
  rw [show (2 * k - 1) * (Real.pi * v) = (2 * k - 1) * v * Real.pi by ring]
  field_simp
  ring

theorem zcOsc_eq (v : ℝ) : zcOsc v = 0.5 * (1 - Real.cos (5 * Real.pi * v)) := by
  unfold zcOsc
  rw [Real.sin_sub_pi_div_two, show 10 * v * Real.pi / 2 = 5 * Real.pi * v by ring]
  ring

theorem zcOsc_lt {v t : ℝ} : zcOsc v < zcOsc t ↔ Real.cos (5 * Real.pi * t) < Real.cos (5 * Real.pi * v) := by
  rw [zcOsc_eq, zcOsc_eq]
  generalize Real.cos (5 * Real.pi * t) = a
  generalize Real.cos (5 * Real.pi * v) = b
  constructor <;> intro h <;> norm_num at h ⊢ <;> linarith

theorem zc_rigid_iff {id M : ℕ} (h1 : 1 ≤ id) (h20 : id ≤ 20) (hM : 2 ≤ M) {y : ℕ → ℝ} (hy : ZcUnit (M - 1) y) : ZcRigid id M y ↔ ZcAdmissible id M (y 0) := by
  unfold ZcAdmissible
  rw [← zcWave_eq (show (4:ℝ) ≠ 0 by norm_num), ← zcWave_eq (show (3:ℝ) ≠ 0 by norm_num), ← zcWave_eq (show (5:ℝ) ≠ 0 by norm_num)]
  simp only [← zcOsc_lt]
  by_cases h11 : id = 11
  · rw [if_pos h11]; subst h11
    exact rigid_mean_low (fun u v _ h _ => h) pair_f3 hM (fun y j => rfl) hy
  rw [if_neg h11]
  by_cases h12 : id = 12 ∨ id = 15
  · rw [if_pos h12]
    rcases h12 with rfl | rfl
    · exact rigid_prod_low (fun u v _ h _ => by linarith) pair_f12 hM (fun y j => rfl) hy
    · exact rigid_15 hM hy
  rw [if_neg h12]
  by_cases h13 : id = 13
  · rw [if_pos h13]; subst h13
    exact rigid_mean_high (fun _ _ => zcSin_lt) pair_sincos.toZcPair hM (fun y j => rfl) hy
  rw [if_neg h13]
  by_cases h16 : id = 16
  · rw [if_pos h16]; subst h16
    exact rigid_16 hM hy
  rw [if_neg h16]
  refine ⟨fun _ => trivial, fun _ => zc_rigid ?_ hM hy⟩
  simp only [List.mem_cons, List.not_mem_nil, or_false]
  omega

end Props
