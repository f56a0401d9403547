import Verif.Props.SBX

/-!
# C49: polynomial mutation; C54: Gaussian mutation and bit flips
-/

set_option linter.unusedSimpArgs false
set_option linter.unusedVariables false

namespace Props

open Model

variable {r n : ℕ}

/-- A convex combination of 1 and a power of a number in `[0, 1]`, taken to the inverse power, lies between the number and 1. -/
theorem pm_root (eta xy a : ℝ) (he : 0 ≤ eta) (hx0 : 0 ≤ xy) (hx1 : xy ≤ 1) (ha0 : 0 ≤ a) (ha1 : a ≤ 1) :
    xy ≤ (a + (1 - a) * xy ^ (eta + 1)) ^ (1 / (eta + 1)) ∧ (a + (1 - a) * xy ^ (eta + 1)) ^ (1 / (eta + 1)) ≤ 1 := by
  have hp0 : 0 ≤ xy ^ (eta + 1) := Real.rpow_nonneg hx0 _
  have hp1 : xy ^ (eta + 1) ≤ 1 := Real.rpow_le_one hx0 hx1 (by linarith)
  have hpow : 0 < 1 / (eta + 1) := by positivity
  constructor
  · calc xy = (xy ^ (eta + 1)) ^ (1 / (eta + 1)) := by
          rw [← Real.rpow_mul hx0, mul_one_div_cancel (by linarith), Real.rpow_one]
      _ ≤ _ := Real.rpow_le_rpow hp0 (by nlinarith) hpow.le
  · exact Real.rpow_le_one (by nlinarith) (by nlinarith) hpow.le

theorem pm_deltaq (xl xu eta rand x : ℝ) (he : 0 ≤ eta) (h0 : 0 ≤ rand) (h1 : rand ≤ 1) (hlt : xl < xu) (hl : xl ≤ x) (hu : x ≤ xu) :
    (rand ≤ 1 / 2 → -((x - xl) / (xu - xl)) ≤ pmDeltaq xl xu eta rand x ∧ pmDeltaq xl xu eta rand x ≤ 0) ∧
    (1 / 2 ≤ rand → 0 ≤ pmDeltaq xl xu eta rand x ∧ pmDeltaq xl xu eta rand x ≤ (xu - x) / (xu - xl)) := by
  have hd : 0 < xu - xl := by linarith
  have d1 : 0 ≤ (x - xl) / (xu - xl) := div_nonneg (by linarith) hd.le
  have d1' : (x - xl) / (xu - xl) ≤ 1 := by rw [div_le_one hd]; linarith
  have d2 : 0 ≤ (xu - x) / (xu - xl) := div_nonneg (by linarith) hd.le
  have d2' : (xu - x) / (xu - xl) ≤ 1 := by rw [div_le_one hd]; linarith
  have lower : rand ≤ 1 / 2 → -((x - xl) / (xu - xl)) ≤ pmDeltaq xl xu eta rand x ∧ pmDeltaq xl xu eta rand x ≤ 0 := by
    intro hr
    obtain ⟨a, b⟩ := pm_root eta (1 - (x - xl) / (xu - xl)) (2 * rand) he (by linarith) (by linarith) (by linarith) (by linarith)
    simp only [pmDeltaq, if_pos hr]
    constructor <;> linarith
  refine ⟨lower, fun hr => ?_⟩
  by_cases he' : rand ≤ 1 / 2
  · have : rand = 1 / 2 := le_antisymm he' hr
    subst this
    have hz : pmDeltaq xl xu eta (1 / 2) x = 0 := by
      simp [pmDeltaq]
    rw [hz]
    exact ⟨le_refl _, d2⟩
  · obtain ⟨a, b⟩ := pm_root eta (1 - (xu - x) / (xu - xl)) (2 * (1 - rand)) he (by linarith) (by linarith) (by linarith) (by linarith)
    have e : 1 - 2 * (1 - rand) = 2 * (rand - 1 / 2) := by ring
    rw [e] at a b
    simp only [pmDeltaq, if_neg he']
    constructor <;> linarith

theorem pm_value (xl xu eta rand x : ℝ) (he : 0 ≤ eta) (h0 : 0 ≤ rand) (h1 : rand ≤ 1) (hlt : xl < xu) (hl : xl ≤ x) (hu : x ≤ xu) :
    xl ≤ pmValue xl xu eta rand x ∧ pmValue xl xu eta rand x ≤ xu ∧ (rand ≤ 1 / 2 → pmValue xl xu eta rand x ≤ x) ∧
      (1 / 2 ≤ rand → x ≤ pmValue xl xu eta rand x) := by
  have hd : 0 < xu - xl := by linarith
  obtain ⟨p, q⟩ := pm_deltaq xl xu eta rand x he h0 h1 hlt hl hu
  have e1 : (x - xl) / (xu - xl) * (xu - xl) = x - xl := by field_simp
  have e2 : (xu - x) / (xu - xl) * (xu - xl) = xu - x := by field_simp
  have hlow : rand ≤ 1 / 2 → xl ≤ pmValue xl xu eta rand x ∧ pmValue xl xu eta rand x ≤ x := by
    intro hr
    have m1 := mul_le_mul_of_nonneg_right (p hr).1 hd.le
    have m2 := mul_le_mul_of_nonneg_right (p hr).2 hd.le
    rw [neg_mul, e1] at m1
    simp only [pmValue]
    constructor <;> linarith
  have hhigh : 1 / 2 ≤ rand → x ≤ pmValue xl xu eta rand x ∧ pmValue xl xu eta rand x ≤ xu := by
    intro hr
    have m1 := mul_le_mul_of_nonneg_right (q hr).1 hd.le
    have m2 := mul_le_mul_of_nonneg_right (q hr).2 hd.le
    rw [e2] at m2
    simp only [pmValue]
    constructor <;> linarith
  rcases le_total rand (1 / 2) with hr | hr
  · exact ⟨(hlow hr).1, by linarith [(hlow hr).2], fun h => (hlow h).2, fun h => (hhigh h).1⟩
  · exact ⟨by linarith [(hhigh hr).1], (hhigh hr).2, fun h => (hlow h).2, fun h => (hhigh h).1⟩

theorem setToBounds_id (X : Fin r → Fin n → ℝ) (xl xu : Fin n → ℝ) (i : Fin r) (j : Fin n) (h1 : xl j ≤ X i j) (h2 : X i j ≤ xu j) :
    setToBounds X (some xl) (some xu) i j = X i j := by
  have a : ¬ X i j < xl j := by linarith
  have b : ¬ xu j < X i j := by linarith
  simp [setToBounds, setWhere, below, above, a, b]

/-- **C49**. Polynomial mutation of values inside the bounds: the result is inside the bounds; entries that are not selected,
and variables with coinciding bounds, keep their value; a selected entry moves down (or stays) for a random number of at most
1/2 and up (or stays) otherwise, to exactly the value of the mutation formula (no clamping takes effect). -/
theorem C49_pm (X : Fin r → Fin n → ℝ) (xl xu : Fin n → ℝ) (eta : Fin r → ℝ) (mask : Fin r → Fin n → Bool) (rand : Fin r → Fin n → ℝ)
    (hX : ∀ i j, xl j ≤ X i j ∧ X i j ≤ xu j) (he : ∀ i, 0 ≤ eta i) (hr : ∀ i j, 0 ≤ rand i j ∧ rand i j ≤ 1) (i : Fin r) (j : Fin n) :
    let y := mutPm X xl xu eta mask rand i j
    xl j ≤ y ∧ y ≤ xu j ∧ (mask i j = false ∨ xl j = xu j → y = X i j) ∧
    (mask i j = true → xl j ≠ xu j → y = pmValue (xl j) (xu j) (eta i) (rand i j) (X i j)) ∧
    (rand i j ≤ 1 / 2 → y ≤ X i j) ∧ (1 / 2 ≤ rand i j → X i j ≤ y) := by
  have hX' := hX i j
  have inside : ∀ v, xl j ≤ v → v ≤ xu j →
      setWhere X (fun i j => mask i j && !decide (xl j = xu j))
        (repairClamp (fun i j => pmValue (xl j) (xu j) (eta i) (rand i j) (X i j)) xl xu) i j = v → mutPm X xl xu eta mask rand i j = v := by
    intro v h1 h2 h
    have : mutPm X xl xu eta mask rand i j = setWhere X (fun i j => mask i j && !decide (xl j = xu j))
        (repairClamp (fun i j => pmValue (xl j) (xu j) (eta i) (rand i j) (X i j)) xl xu) i j :=
      setToBounds_id _ _ _ _ _ (by rw [h]; exact h1) (by rw [h]; exact h2)
    rw [this, h]
  by_cases hm : (mask i j && !decide (xl j = xu j)) = true
  · have hm' := hm
    simp only [Bool.and_eq_true, Bool.not_eq_true', decide_eq_false_iff_not] at hm'
    have hlt : xl j < xu j := lt_of_le_of_ne (le_trans hX'.1 hX'.2) hm'.2
    obtain ⟨v1, v2, v3, v4⟩ := pm_value (xl j) (xu j) (eta i) (rand i j) (X i j) (he i) (hr i j).1 (hr i j).2 hlt hX'.1 hX'.2
    have hy : mutPm X xl xu eta mask rand i j = pmValue (xl j) (xu j) (eta i) (rand i j) (X i j) := by
      apply inside _ v1 v2
      simp only [setWhere, hm, if_true]
      exact clamp_id _ _ _ _ _ v1 v2
    simp only [hy]
    refine ⟨v1, v2, ?_, fun _ _ => trivial, v3, v4⟩
    rintro (h | h)
    · rw [hm'.1] at h; cases h
    · exact absurd h hm'.2
  · have hy : mutPm X xl xu eta mask rand i j = X i j := by
      apply inside _ hX'.1 hX'.2
      simp only [setWhere, hm]
      simp
    simp only [hy]
    refine ⟨hX'.1, hX'.2, fun _ => trivial, ?_, fun _ => le_refl _, fun _ => le_refl _⟩
    intro h1 h2
    exact absurd (by simp [h1, h2]) hm

/-- **C49** (monotone). The mutated value grows with the random number, from the lower bound (random number 0) over the old
value (1/2) to the upper bound (1): the formula is an inverse distribution function on the whole range. -/
theorem C49_quantile (xl xu eta x s t : ℝ) (he : 0 ≤ eta) (hlt : xl < xu) (hl : xl ≤ x) (hu : x ≤ xu) :
    (0 ≤ s → s ≤ t → t ≤ 1 → pmValue xl xu eta s x ≤ pmValue xl xu eta t x) ∧
    pmValue xl xu eta 0 x = xl ∧ pmValue xl xu eta (1 / 2) x = x ∧ pmValue xl xu eta 1 x = xu := by
  have hd : 0 < xu - xl := by linarith
  have d1 : 0 ≤ (x - xl) / (xu - xl) := div_nonneg (by linarith) hd.le
  have d1' : (x - xl) / (xu - xl) ≤ 1 := by rw [div_le_one hd]; linarith
  have d2 : 0 ≤ (xu - x) / (xu - xl) := div_nonneg (by linarith) hd.le
  have d2' : (xu - x) / (xu - xl) ≤ 1 := by rw [div_le_one hd]; linarith
  have hpow : 0 < 1 / (eta + 1) := by positivity
  have root : ∀ y : ℝ, 0 ≤ y → (y ^ (eta + 1)) ^ (1 / (eta + 1)) = y := by
    intro y hy
    rw [← Real.rpow_mul hy, mul_one_div_cancel (by linarith), Real.rpow_one]
  refine ⟨?_, ?_, ?_, ?_⟩
  · intro h0 hst h1
    by_cases ht : t ≤ 1 / 2
    · have hs : s ≤ 1 / 2 := by linarith
      have hp0 : 0 ≤ (1 - (x - xl) / (xu - xl)) ^ (eta + 1) := Real.rpow_nonneg (by linarith) _
      have hp1 : (1 - (x - xl) / (xu - xl)) ^ (eta + 1) ≤ 1 := Real.rpow_le_one (by linarith) (by linarith) (by linarith)
      have := Real.rpow_le_rpow (x := 2 * s + (1 - 2 * s) * (1 - (x - xl) / (xu - xl)) ^ (eta + 1))
        (y := 2 * t + (1 - 2 * t) * (1 - (x - xl) / (xu - xl)) ^ (eta + 1)) (by nlinarith) (by nlinarith) hpow.le
      simp only [pmValue, pmDeltaq, if_pos hs, if_pos ht]
      nlinarith
    · by_cases hs : s ≤ 1 / 2
      · have a := (pm_value xl xu eta s x he h0 (by linarith) hlt hl hu).2.2.1 hs
        have b := (pm_value xl xu eta t x he (by linarith) h1 hlt hl hu).2.2.2 (by linarith)
        linarith
      · have hp0 : 0 ≤ (1 - (xu - x) / (xu - xl)) ^ (eta + 1) := Real.rpow_nonneg (by linarith) _
        have hp1 : (1 - (xu - x) / (xu - xl)) ^ (eta + 1) ≤ 1 := Real.rpow_le_one (by linarith) (by linarith) (by linarith)
        have := Real.rpow_le_rpow (x := 2 * (1 - t) + 2 * (t - 1 / 2) * (1 - (xu - x) / (xu - xl)) ^ (eta + 1))
          (y := 2 * (1 - s) + 2 * (s - 1 / 2) * (1 - (xu - x) / (xu - xl)) ^ (eta + 1)) (by nlinarith) (by nlinarith) hpow.le
        simp only [pmValue, pmDeltaq, if_neg hs, if_neg ht]
        nlinarith
  · have e1 : (x - xl) / (xu - xl) * (xu - xl) = x - xl := by field_simp
    simp only [pmValue, pmDeltaq]
    rw [if_pos (by norm_num)]
    have : 2 * (0 : ℝ) + (1 - 2 * 0) * (1 - (x - xl) / (xu - xl)) ^ (eta + 1) = (1 - (x - xl) / (xu - xl)) ^ (eta + 1) := by ring
    rw [this, root _ (by linarith)]
    linarith [e1]
  · simp [pmValue, pmDeltaq]
  · have e2 : (xu - x) / (xu - xl) * (xu - xl) = xu - x := by field_simp
    simp only [pmValue, pmDeltaq]
    rw [if_neg (by norm_num)]
    have : 2 * (1 - (1 : ℝ)) + 2 * (1 - 1 / 2) * (1 - (xu - x) / (xu - xl)) ^ (eta + 1) = (1 - (xu - x) / (xu - xl)) ^ (eta + 1) := by ring
    rw [this, root _ (by linarith)]
    linarith [e2]


/-- A concrete case: the value 1/4 in `[0, 1]` moves up with random number 3/4. -/
example : (1 / 4 : ℝ) ≤ mutPm (fun _ _ => 1 / 4) (fun _ : Fin 1 => 0) (fun _ => 1) (fun _ : Fin 1 => 20) (fun _ _ => true) (fun _ _ => 3 / 4) 0 0 ∧
    mutPm (fun _ _ => 1 / 4) (fun _ : Fin 1 => 0) (fun _ => 1) (fun _ : Fin 1 => 20) (fun _ _ => true) (fun _ _ => 3 / 4) 0 0 ≤ 1 := by
  have h := C49_pm (fun _ _ => 1 / 4) (fun _ : Fin 1 => 0) (fun _ => 1) (fun _ : Fin 1 => 20) (fun _ _ => true) (fun _ _ => 3 / 4)
    (by intros; norm_num) (by intros; norm_num) (by intros; norm_num) 0 0
  exact ⟨h.2.2.2.2.2 (by norm_num), h.2.1⟩

section
variable {K : Type*} [Field K] [LinearOrder K] [IsStrictOrderedRing K]

/-- **C54** (Gaussian mutation). For values inside the bounds, whatever the normal distribution returns, the result is inside the
bounds, entries that are not selected keep their value, and a selected entry whose drawn value is inside the bounds gets that
value. -/
theorem C54_gauss (X : Fin r → Fin n → K) (xl xu : Fin n → K) (mask : Fin r → Fin n → Bool) (normal u1 u2 : Fin r → Fin n → K)
    (hX : ∀ i j, xl j ≤ X i j ∧ X i j ≤ xu j) (hu1 : ∀ i j, 0 ≤ u1 i j ∧ u1 i j ≤ 1) (hu2 : ∀ i j, 0 ≤ u2 i j ∧ u2 i j ≤ 1)
    (i : Fin r) (j : Fin n) :
    let y := mutGauss X xl xu mask normal u1 u2 i j
    xl j ≤ y ∧ y ≤ xu j ∧ (mask i j = false → y = X i j) ∧
    (mask i j = true → xl j ≤ normal i j → normal i j ≤ xu j → y = normal i j) := by
  obtain ⟨h1, h2, h3, -, -⟩ := C24_random_init (setWhere X mask normal) X xl xu u1 u2 hu1 hu2 hX i j
  refine ⟨h1, h2, ?_, ?_⟩
  · intro hm
    have : setWhere X mask normal i j = X i j := by simp [setWhere, hm]
    rw [this] at h3
    exact h3 (hX i j).1 (hX i j).2
  · intro hm a b
    have : setWhere X mask normal i j = normal i j := by simp [setWhere, hm]
    rw [this] at h3
    exact h3 a b

end

/-- A drawn value of 7 outside `[0, 1]` is replaced by a value inside. -/
example : mutGauss (fun _ _ => 1 / 2) (fun _ : Fin 1 => (0 : ℚ)) (fun _ => 1) (fun (_ : Fin 1) _ => true) (fun _ _ => 7)
    (fun _ _ => 1 / 2) (fun _ _ => 1 / 2) 0 0 = 3 / 4 := by decide +kernel

/-- **C54** (bit flips). On boolean arrays exactly the selected bits change, and flipping twice restores the array. -/
theorem C54_bitflip (X flip : Fin r → Fin n → Bool) :
    (∀ i j, bitflip X flip i j ≠ X i j ↔ flip i j = true) ∧ bitflip (bitflip X flip) flip = X := by
  constructor
  · intro i j
    simp only [bitflip]
    cases flip i j <;> simp
  · funext i j
    simp only [bitflip]
    cases flip i j <;> simp

/-- **C54** (integers, refuted). On an integer array with entries 0 and 1 the flipped entries leave the set `{0, 1}`: the operator
is only correct for boolean arrays. -/
theorem C54_bitflip_int_refuted (X : Fin r → Fin n → ℤ) (flip : Fin r → Fin n → Bool) (hX : ∀ i j, X i j = 0 ∨ X i j = 1) (i : Fin r)
    (j : Fin n) (h : flip i j = true) : bitflipInt X flip i j ≠ 0 ∧ bitflipInt X flip i j ≠ 1 := by
  simp only [bitflipInt, h, if_true]
  rcases hX i j with h | h <;> rw [h] <;> constructor <;> norm_num

end Props
