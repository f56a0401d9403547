import Verif.Props.Zcat

/-!
# C143, continued: where the fronts of the problems 17, 18, 19 and 20 are curves and where they are surfaces
-/

namespace Props
open Model Spec

set_option linter.unusedVariables false

private theorem zr_in {v lo hi : ℝ} (h1 : lo ≤ v) (h2 : v ≤ hi) : zcIn v lo hi := (C143_region v lo hi).2 ⟨by linarith, by linarith⟩

/-- C143. For variables in `[0, 1]` an objective before the last is the first variable (the front is a curve there) for problem 17 exactly if all variables are at most a half; for problem 18 if all are at most 0.4 or
all at least 0.6; for problem 19 if the first is in `[0, 0.2]` or `[0.4, 0.6]`; for problem 20 if the first is in `[0.1, 0.4]` or `[0.6, 0.9]`. Otherwise objective `j` is variable `j` (for the problems 18, 19, 20 stated
at least `10⁻¹⁵` away from these regions, because the comparisons have a tolerance). -/
theorem C143_regions (M : ℕ) (y : ℕ → ℝ) (hy : ∀ i < M - 1, 0 ≤ y i ∧ y i ≤ 1) (j : ℕ) (h1 : 1 ≤ j) (hj : j < M) :
    ((∀ i < M - 1, y i ≤ 1 / 2) → zcF 17 M y j = some (y 0)) ∧ ((∃ i < M - 1, 1 / 2 < y i) → zcF 17 M y j = some (y (j - 1))) ∧
    ((∀ i < M - 1, y i ≤ 0.4) ∨ (∀ i < M - 1, 0.6 ≤ y i) → zcF 18 M y j = some (y 0)) ∧
    ((∃ i < M - 1, 0.4 + 1 / 10 ^ 15 ≤ y i) → (∃ i < M - 1, y i ≤ 0.6 - 1 / 10 ^ 15) → zcF 18 M y j = some (y (j - 1))) ∧
    (y 0 ≤ 0.2 ∨ 0.4 ≤ y 0 ∧ y 0 ≤ 0.6 → zcF 19 M y j = some (y 0)) ∧
    (0.2 + 1 / 10 ^ 15 ≤ y 0 ∧ y 0 ≤ 0.4 - 1 / 10 ^ 15 ∨ 0.6 + 1 / 10 ^ 15 ≤ y 0 → zcF 19 M y j = some (y (j - 1))) ∧
    (0.1 ≤ y 0 ∧ y 0 ≤ 0.4 ∨ 0.6 ≤ y 0 ∧ y 0 ≤ 0.9 → zcF 20 M y j = some (y 0)) ∧
    (y 0 ≤ 0.1 - 1 / 10 ^ 15 ∨ 0.4 + 1 / 10 ^ 15 ≤ y 0 ∧ y 0 ≤ 0.6 - 1 / 10 ^ 15 ∨ 0.9 + 1 / 10 ^ 15 ≤ y 0 → zcF 20 M y j = some (y (j - 1))) := by
  have h0 := hy 0 (by omega)
  have hj1 := hy (j - 1) (by omega)
  have hne : j ≠ M := by omega
  refine ⟨fun h => ?_, fun h => ?_, fun h => ?_, fun h h' => ?_, fun h => ?_, fun h => ?_, fun h => ?_, fun h => ?_⟩
  · have : zcWedge17 M y := fun i hi => ⟨(hy i hi).1, by linarith [h i hi]⟩
    simp only [zcF, if_pos this, if_neg hne]
  · have : ¬ zcWedge17 M y := fun hw => by
      obtain ⟨i, hi, hlt⟩ := h
      linarith [(hw i hi).2]
    simp only [zcF, if_neg this, if_neg hne]
  · have : zcWedge18 M y := h.imp (fun h i hi => zr_in (hy i hi).1 (h i hi)) fun h i hi => zr_in (h i hi) (hy i hi).2
    simp only [zcF, if_pos this, if_neg hne]
  · have : ¬ zcWedge18 M y := fun hw => by
      obtain ⟨a, ha, hlt⟩ := h
      obtain ⟨b, hb, hgt⟩ := h'
      rcases hw with hw | hw
      · linarith [((C143_region _ _ _).1 (hw a ha)).2]
      · linarith [((C143_region _ _ _).1 (hw b hb)).1]
    simp only [zcF, if_neg this, if_neg hne]
  · have : zcDeg19 (y 0) := h.imp (fun h => zr_in h0.1 h) fun h => zr_in h.1 h.2
    simp only [zcF, if_pos this, if_neg hne, zcFix_id h0.1 h0.2]
  · have : ¬ zcDeg19 (y 0) := fun hw => by
      unfold zcDeg19 at hw
      rw [C143_region, C143_region] at hw
      rcases hw with ⟨a, b⟩ | ⟨a, b⟩ <;> rcases h with ⟨c, d⟩ | c <;> linarith
    simp only [zcF, if_neg this, if_neg hne, zcFix_id hj1.1 hj1.2]
  · have : zcDeg20 (y 0) := h.imp (fun h => zr_in h.1 h.2) fun h => zr_in h.1 h.2
    simp only [zcF, if_pos this, if_neg hne]
  · have : ¬ zcDeg20 (y 0) := fun hw => by
      unfold zcDeg20 at hw
      rw [C143_region, C143_region] at hw
      rcases hw with ⟨a, b⟩ | ⟨a, b⟩ <;> rcases h with c | ⟨c, d⟩ | c <;> linarith
    simp only [zcF, if_neg this, if_neg hne]

/-- Not vacuous: for three objectives and the variables 0.3 and 0.9 the second objective of ZCAT19 is 0.9, and that of ZCAT20 is 0.3. -/
example : zcF 19 3 (fun i => if i = 0 then 0.3 else 0.9) 2 = some 0.9 ∧ zcF 20 3 (fun i => if i = 0 then 0.3 else 0.9) 2 = some 0.3 := by
  have h := C143_regions 3 (fun i => if i = 0 then 0.3 else 0.9) (fun i hi => by split_ifs <;> norm_num) 2 (by norm_num) (by norm_num)
  refine ⟨?_, ?_⟩
  · simpa using h.2.2.2.2.2.1 (Or.inl ⟨by norm_num, by norm_num⟩)
  · simpa using h.2.2.2.2.2.2.1 (Or.inl ⟨by norm_num, by norm_num⟩)

end Props
