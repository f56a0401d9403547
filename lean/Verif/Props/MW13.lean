import Verif.Model.MW13
import Verif.Props.MWServer
import Verif.Props.MW14

/-!
# C169: MW13
-/

set_option linter.unusedVariables false
set_option linter.unusedSimpArgs false

namespace Props
open Model Spec

/-- The feasible vectors are those of a subset, or weakly dominated by it: the front is the non-dominated part of the subset. -/
theorem subset_front {m : ℕ} (D : List ℝ → Prop) (F : List ℝ → Fin m → ℝ) (S : (Fin m → ℝ) → Prop) (hatt : ∀ f, S f → ∃ x, D x ∧ F x = f)
    (hlow : ∀ x, D x → ∃ z, S z ∧ ∀ i, z i ≤ F x i) (f : Fin m → ℝ) : ParetoPoint D F f ↔ S f ∧ ∀ z, S z → ¬ Dominates z f := by
  constructor
  · rintro ⟨⟨x, hx, rfl⟩, hnd⟩
    have h2 : ∀ z, S z → ¬ Dominates z (F x) := fun z hz hd => by
      obtain ⟨y, hy, rfl⟩ := hatt z hz
      exact hnd y hy hd
    refine ⟨?_, h2⟩
    obtain ⟨z, hz, hle⟩ := hlow x hx
    have : z = F x := by
      by_contra hne
      refine h2 z hz ⟨hle, ?_⟩
      by_contra hno
      push Not at hno
      exact hne (funext fun i => le_antisymm (hle i) (hno i))
    exact this ▸ hz
  · rintro ⟨hf, hnd⟩
    refine ⟨hatt f hf, ?_⟩
    rintro x hx ⟨hle, i, hlt⟩
    obtain ⟨z, hz, hl⟩ := hlow x hx
    exact hnd z hz ⟨fun i => (hl i).trans (hle i), i, lt_of_le_of_lt (hl i) hlt⟩

/-- The lower boundary of the feasible region of MW13. -/
noncomputable def mw13Low (a : ℝ) : ℝ := 5 - Real.exp a - 1 / 2 * Real.sin (3 * Real.pi * a)

theorem exp_three_quarters : Real.exp (3 / 4) ≤ 2.2 := by
  have h := exp_three_halves
  have e : Real.exp (3 / 4) * Real.exp (3 / 4) = Real.exp 1.5 := by rw [← Real.exp_add]; norm_num
  have p := Real.exp_pos (3 / 4)
  by_contra hc
  push Not at hc
  norm_num at hc h e
  nlinarith

/-- C169: the constraints of MW13 leave two bands, and its front is the non-dominated part of the lower boundary. -/
theorem C169_mw13 (n : ℕ) (hn : 2 ≤ n) (f : Fin 2 → ℝ) :
    (0 ≤ f 0 → ((∀ i, mw13Con f i ≤ 0) ↔
      (mw13Low (f 0) ≤ f 1 ∧ f 1 ≤ 4 - f 0 - f 0 ^ 2 / 2 - 1 / 2 * Real.sin (3 * Real.pi * f 0)) ∨
      (4 - 0.7 * f 0 - 1 / 2 * Real.sin (3 * Real.pi * f 0) ≤ f 1 ∧ f 1 ≤ 4 - 0.4 * f 0 - 1 / 2 * Real.sin (3 * Real.pi * f 0)))) ∧
    (ParetoPoint (fun x => Cube n 0 1.5 x ∧ ∀ i, mw13Con (mw13 n x) i ≤ 0) (mw13 n) f ↔
      (∃ a, (0 ≤ a ∧ a ≤ 1.5) ∧ f = ![a, mw13Low a]) ∧ ∀ a, 0 ≤ a → a ≤ 1.5 → ¬ Dominates ![a, mw13Low a] f) := by
  have con : ∀ f : Fin 2 → ℝ, 0 ≤ f 0 → ((∀ i, mw13Con f i ≤ 0) ↔
      (mw13Low (f 0) ≤ f 1 ∧ f 1 ≤ 4 - f 0 - f 0 ^ 2 / 2 - 1 / 2 * Real.sin (3 * Real.pi * f 0)) ∨
      (4 - 0.7 * f 0 - 1 / 2 * Real.sin (3 * Real.pi * f 0) ≤ f 1 ∧ f 1 ≤ 4 - 0.4 * f 0 - 1 / 2 * Real.sin (3 * Real.pi * f 0))) := by
    intro f h0
    have hq := Real.quadratic_le_exp_of_nonneg h0
    have hs : 0 ≤ f 0 ^ 2 := sq_nonneg _
    have e5 : (0.5 : ℝ) * f 0 * f 0 = f 0 ^ 2 / 2 := by norm_num; ring
    have e6 : (0.5 : ℝ) * Real.sin (3 * Real.pi * f 0) = 1 / 2 * Real.sin (3 * Real.pi * f 0) := by norm_num
    simp only [mw13Con, Fin.forall_fin_two, Matrix.cons_val_zero, Matrix.cons_val_one, Matrix.cons_val_fin_one, mw13Low, e5, e6]
    generalize 1 / 2 * Real.sin (3 * Real.pi * f 0) = s
    generalize Real.exp (f 0) = e at *
    generalize f 0 = a at *
    generalize f 1 = b at *
    norm_num
    have hA : a + a ^ 2 / 2 ≥ 7 / 10 * a := by linarith
    constructor
    · rintro ⟨c0, c1⟩
      have d1 := prod_nonpos c1 (by linarith)
      rcases prod_nonneg' (by linarith : 0 ≤ (5 - (1 + a + a ^ 2 / 2) - s - b) * (5 - (1 + 7 / 10 * a) - s - b)) (by linarith) with h | h
      · exact Or.inl ⟨by linarith [d1.1], by linarith⟩
      · exact Or.inr ⟨by linarith, by linarith [d1.2]⟩
    · rintro (⟨h1, h2⟩ | ⟨h1, h2⟩)
      · have p1 : 0 ≤ (5 - (1 + a + a ^ 2 / 2) - s - b) * (5 - (1 + 7 / 10 * a) - s - b) := mul_nonneg (by linarith) (by linarith)
        have p2 : (5 - e - s - b) * (5 - (1 + 2 / 5 * a) - s - b) ≤ 0 := mul_nonpos_of_nonpos_of_nonneg (by linarith) (by linarith)
        constructor <;> linarith
      · have p1 : 0 ≤ (5 - (1 + a + a ^ 2 / 2) - s - b) * (5 - (1 + 7 / 10 * a) - s - b) := mul_nonneg_of_nonpos_of_nonpos (by linarith) (by linarith)
        have p2 : (5 - e - s - b) * (5 - (1 + 2 / 5 * a) - s - b) ≤ 0 := mul_nonpos_of_nonpos_of_nonneg (by linarith) (by linarith)
        constructor <;> linarith
  refine ⟨con f, ?_⟩
  rw [subset_front _ _ (fun f => ∃ a, (0 ≤ a ∧ a ≤ 1.5) ∧ f = ![a, mw13Low a]) ?_ ?_ f]
  · refine and_congr_right fun _ => ⟨fun h a h0 h1 => h _ ⟨a, ⟨h0, h1⟩, rfl⟩, ?_⟩
    rintro h _ ⟨a, ⟨h0, h1⟩, rfl⟩
    exact h a h0 h1
  · rintro f ⟨a, ⟨h0, h1⟩, rfl⟩
    norm_num at h1
    have hcont : ContinuousOn (fun g : ℝ => g * (5 - Real.exp (a / g) - |0.5 * Real.sin (3 * Real.pi * a / g)|)) (Set.Icc 1 2) := by
      have hd : ∀ c : ℝ, ContinuousOn (fun g : ℝ => c / g) (Set.Icc 1 2) := fun c =>
        continuousOn_const.div continuousOn_id fun g hg => by have := hg.1; simp; linarith
      refine continuousOn_id.mul ((continuousOn_const.sub (Real.continuous_exp.comp_continuousOn (hd a))).sub ?_)
      exact continuous_abs.comp_continuousOn (continuousOn_const.mul (Real.continuous_sin.comp_continuousOn (hd _)))
    have e1 : (1 : ℝ) * (5 - Real.exp (a / 1) - |0.5 * Real.sin (3 * Real.pi * a / 1)|) ≤ mw13Low a := by
      have := le_abs_self (0.5 * Real.sin (3 * Real.pi * a))
      unfold mw13Low
      simp only [div_one, one_mul]
      norm_num at this ⊢
      linarith
    have e2 : mw13Low a ≤ (2 : ℝ) * (5 - Real.exp (a / 2) - |0.5 * Real.sin (3 * Real.pi * a / 2)|) := by
      have h3 : Real.exp (a / 2) ≤ 2.2 := le_trans (Real.exp_le_exp.2 (by linarith)) exp_three_quarters
      have h4 : |0.5 * Real.sin (3 * Real.pi * a / 2)| ≤ 0.5 := by
        rw [abs_mul, abs_of_nonneg (by norm_num)]
        have := Real.abs_sin_le_one (3 * Real.pi * a / 2)
        norm_num; linarith
      have h5 : 1 ≤ Real.exp a := Real.one_le_exp h0
      have h6 := Real.neg_one_le_sin (3 * Real.pi * a)
      unfold mw13Low
      norm_num at h3 h4 ⊢
      linarith
    obtain ⟨g, hg, he⟩ := intermediate_value_Icc (by norm_num : (1 : ℝ) ≤ 2) hcont ⟨e1, e2⟩
    have hg0 : 0 < g := by linarith [hg.1]
    obtain ⟨XM, hX, hgX⟩ := mwG2_onto n hn g hg.1 (by linarith [hg.2])
    have hF : mw13 n ((a / g) :: XM) = ![a, mw13Low a] := by
      simp only [mw13, List.drop_succ_cons, List.drop_zero, hgX, List.getD_cons_zero]
      rw [mul_div_cancel₀ _ hg0.ne']
      exact fin2_eq rfl he
    refine ⟨(a / g) :: XM, ⟨cube_cons' (by omega) (by positivity) ?_ ⟨hX.1, fun v hv => ⟨(hX.2 v hv).1, by have := (hX.2 v hv).2; norm_num; linarith⟩⟩, ?_⟩, hF⟩
    · rw [div_le_iff₀ hg0]; norm_num; nlinarith [hg.1]
    · rw [hF]
      refine (con ![a, mw13Low a] h0).2 (Or.inl ⟨le_rfl, ?_⟩)
      have := Real.quadratic_le_exp_of_nonneg h0
      show mw13Low a ≤ 4 - a - a ^ 2 / 2 - 1 / 2 * Real.sin (3 * Real.pi * a)
      unfold mw13Low
      linarith
  · rintro x ⟨hx, hc⟩
    obtain ⟨x0, x1⟩ := cube_getD (by omega) hx
    have hg := mwG2_ge n 2 (x.drop 1)
    have ha' : mw13 n x 0 = mwG2 n 2 (x.drop 1) * x.getD 0 0 := by simp [mw13]
    have ha : 0 ≤ mw13 n x 0 := by rw [ha']; exact mul_nonneg (by linarith) x0
    have hlow : mw13Low (mw13 n x 0) ≤ mw13 n x 1 := by
      rcases (con _ ha).1 hc with h | h
      · exact h.1
      · have := Real.quadratic_le_exp_of_nonneg ha
        have hs : 0 ≤ mw13 n x 0 ^ 2 := sq_nonneg _
        have h1 := h.1
        unfold mw13Low
        norm_num at h1
        linarith
    by_cases h1 : mw13 n x 0 ≤ 1.5
    · refine ⟨_, ⟨_, ⟨ha, h1⟩, rfl⟩, fun i => ?_⟩
      fin_cases i
      · exact le_rfl
      · exact hlow
    · push Not at h1
      refine ⟨_, ⟨1.5, ⟨by norm_num, le_rfl⟩, rfl⟩, fun i => ?_⟩
      fin_cases i
      · exact h1.le
      · show mw13Low 1.5 ≤ mw13 n x 1
        have hsin : Real.sin (3 * Real.pi * 1.5) = 1 := by
          have : 3 * Real.pi * 1.5 = Real.pi / 2 + (2 : ℕ) * (2 * Real.pi) := by norm_num; ring
          rw [this, Real.sin_add_nat_mul_two_pi, Real.sin_pi_div_two]
        have hb' : mw13 n x 1 = mwG2 n 2 (x.drop 1) * (5 - Real.exp (x.getD 0 0) - |0.5 * Real.sin (3 * Real.pi * (mwG2 n 2 (x.drop 1) * x.getD 0 0) / mwG2 n 2 (x.drop 1))|) := by
          simp only [mw13, Matrix.cons_val_one, Matrix.cons_val_fin_one]
          rw [mul_div_cancel_left₀ (x.getD 0 0) (lt_of_lt_of_le one_pos hg).ne']
        have h4 : |0.5 * Real.sin (3 * Real.pi * (mwG2 n 2 (x.drop 1) * x.getD 0 0) / mwG2 n 2 (x.drop 1))| ≤ 0.5 := by
          rw [abs_mul, abs_of_nonneg (by norm_num)]
          exact mul_le_of_le_one_right (by norm_num) (Real.abs_sin_le_one _)
        have h5 := Real.exp_le_exp.2 x1
        have h6 := exp_three_halves
        rw [hb']
        unfold mw13Low
        rw [hsin]
        generalize |0.5 * Real.sin (3 * Real.pi * (mwG2 n 2 (x.drop 1) * x.getD 0 0) / mwG2 n 2 (x.drop 1))| = q at h4 ⊢
        generalize Real.exp 1.5 = E at *
        have d : (0.5 : ℝ) = 1 / 2 := by norm_num
        have d' : (4.5 : ℝ) = 9 / 2 := by norm_num
        rw [d] at h4
        rw [d'] at h6
        have h7 : 5 - E - 1 / 2 * 1 ≤ 5 - Real.exp (x.getD 0 0) - q := by linarith
        have h8 : 0 ≤ 5 - E - 1 / 2 * 1 := by linarith
        nlinarith

/-- The end `(1.5, 0.018...)` of the lower boundary is feasible. -/
example : ∃ f : Fin 2 → ℝ, f 0 = 1.5 ∧ ∀ i, mw13Con f i ≤ 0 := by
  refine ⟨![1.5, mw13Low 1.5], rfl, ((C169_mw13 2 le_rfl _).1 (by norm_num)).2 (Or.inl ⟨le_rfl, ?_⟩)⟩
  have := Real.quadratic_le_exp_of_nonneg (show (0 : ℝ) ≤ 1.5 by norm_num)
  show mw13Low 1.5 ≤ 4 - 1.5 - 1.5 ^ 2 / 2 - 1 / 2 * Real.sin (3 * Real.pi * 1.5)
  unfold mw13Low
  linarith

end Props
