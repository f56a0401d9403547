import Verif.Props.MW
import Mathlib.Analysis.SpecialFunctions.Trigonometric.Bounds

/-!
# C130: MW3, whose front is found by scaling
-/

set_option linter.unusedVariables false
set_option linter.unusedSectionVars false
set_option linter.unusedSimpArgs false

namespace Props
open Model Spec

/-- The frequency of the second constraint of MW3. -/
noncomputable def mw3Freq : ℝ := 0.75 * Real.pi * √2

/-- The least sum `f1 + f2` that MW3 allows for the difference `d = f2 - f1`. -/
noncomputable def mw3Low (d : ℝ) : ℝ := max 1 (0.85 + 0.3 * Real.sin (0.75 * Real.pi * √2 * d) ^ 2)

theorem sqrt_two_bounds : 1.4142 < √2 ∧ √2 < 1.4143 :=
  ⟨by rw [Real.lt_sqrt (by norm_num)]; norm_num, by rw [Real.sqrt_lt' (by norm_num)]; norm_num⟩

theorem mw3Freq_bounds : 3.331 < mw3Freq ∧ mw3Freq < 3.3326 := by
  have h1 := Real.pi_gt_d4
  have h2 := Real.pi_lt_d4
  obtain ⟨h3, h4⟩ := sqrt_two_bounds
  unfold mw3Freq
  constructor <;> nlinarith

theorem sin_sq_lip (a b : ℝ) : |Real.sin a ^ 2 - Real.sin b ^ 2| ≤ |a - b| := by
  have h : Real.sin a ^ 2 - Real.sin b ^ 2 = Real.sin (a + b) * Real.sin (a - b) := by
    rw [Real.sin_add, Real.sin_sub]
    have h1 := Real.sin_sq_add_cos_sq a
    have h2 := Real.sin_sq_add_cos_sq b
    have : (Real.sin a * Real.cos b + Real.cos a * Real.sin b) * (Real.sin a * Real.cos b - Real.cos a * Real.sin b) =
      Real.sin a ^ 2 * Real.cos b ^ 2 - Real.cos a ^ 2 * Real.sin b ^ 2 := by ring
    rw [this, show Real.cos b ^ 2 = 1 - Real.sin b ^ 2 by linarith, show Real.cos a ^ 2 = 1 - Real.sin a ^ 2 by linarith]
    ring
  rw [h, abs_mul]
  calc |Real.sin (a + b)| * |Real.sin (a - b)| ≤ 1 * |a - b| :=
        mul_le_mul (Real.abs_sin_le_one _) Real.abs_sin_le_abs (abs_nonneg _) (by norm_num)
    _ = |a - b| := one_mul _

theorem mw3Low_lip (a b : ℝ) : mw3Low a - mw3Low b ≤ 0.99978 * |a - b| := by
  have h := sin_sq_lip (mw3Freq * a) (mw3Freq * b)
  obtain ⟨k1, k2⟩ := mw3Freq_bounds
  rw [← mul_sub, abs_mul, abs_of_pos (by linarith : 0 < mw3Freq)] at h
  have h' := (abs_le.1 h).2
  have h0 := abs_nonneg (a - b)
  have h3 : 0.3 * (mw3Freq * |a - b|) ≤ 0.99978 * |a - b| := by nlinarith
  unfold mw3Low
  change max 1 (0.85 + 0.3 * Real.sin (mw3Freq * a) ^ 2) - max 1 (0.85 + 0.3 * Real.sin (mw3Freq * b) ^ 2) ≤ _
  have m1 := le_max_left (1 : ℝ) (0.85 + 0.3 * Real.sin (mw3Freq * b) ^ 2)
  have m2 := le_max_right (1 : ℝ) (0.85 + 0.3 * Real.sin (mw3Freq * b) ^ 2)
  rcases max_cases (1 : ℝ) (0.85 + 0.3 * Real.sin (mw3Freq * a) ^ 2) with ⟨e, -⟩ | ⟨e, -⟩ <;> rw [e]
  · nlinarith
  · nlinarith

theorem mw3Low_ge (d : ℝ) : 1 ≤ mw3Low d := le_max_left _ _

theorem mw3Low_le (d : ℝ) : mw3Low d ≤ 1.15 := by
  unfold mw3Low
  have := Real.sin_sq_le_one (0.75 * Real.pi * √2 * d)
  exact max_le (by norm_num) (by linarith)

theorem mw3Low_cont : Continuous mw3Low := by
  unfold mw3Low
  fun_prop

theorem mw3Low_fix : ∃ s, s = mw3Low s := by
  have hc : ContinuousOn (fun s => mw3Low s - s) (Set.Icc 1 1.15) := (mw3Low_cont.sub continuous_id).continuousOn
  have := intermediate_value_Icc' (by norm_num : (1 : ℝ) ≤ 1.15) hc
  obtain ⟨s, -, hs⟩ := this (show (0 : ℝ) ∈ Set.Icc (mw3Low 1.15 - 1.15) (mw3Low 1 - 1) from ⟨by have := mw3Low_le 1.15; linarith, by have := mw3Low_ge 1; linarith⟩)
  exact ⟨s, by simp only at hs; linarith⟩

/-- The remaining variables can be chosen such that they do not add to `g3`. -/
theorem mwG3_tail (n : ℕ) : ∀ b : ℝ, 0 ≤ b → b ≤ 1 → ∃ l : List ℝ, l.length = n ∧ (∀ v ∈ l, 0 ≤ v ∧ v ≤ 1) ∧ mwG3 (b :: l) = 1 := by
  induction n with
  | zero => exact fun b _ _ => ⟨[], rfl, by simp, by simp [mwG3]⟩
  | succ n ih =>
    intro b h0 h1
    obtain ⟨l, hl, hb, hg⟩ := ih (1 - (b - 1 / 2) * (b - 1 / 2)) (by nlinarith) (by nlinarith)
    refine ⟨(1 - (b - 1 / 2) * (b - 1 / 2)) :: l, by simp [hl], ?_, ?_⟩
    · intro v hv
      rcases List.mem_cons.1 hv with rfl | hv
      · exact ⟨by nlinarith, by nlinarith⟩
      · exact hb v hv
    · rw [mwG3, hg]; ring

theorem mw3_val (x : List ℝ) : mw3 x = ![x.getD 0 0, mwG3 x - x.getD 0 0] := by
  have h := mwG3_ge x
  unfold mw3
  simp only
  congr 2
  field_simp

theorem mw3_attain' (n : ℕ) (hn : 2 ≤ n) (u g : ℝ) (h0 : 0 ≤ u) (h1 : u ≤ 1) (hg1 : 1 ≤ g) (hg2 : g ≤ 1.2) : ∃ x, Cube n 0 1 x ∧ mw3 x = ![u, g - u] := by
  set δ := √((g - 1) / 2) with hδ
  have hd2 : δ ^ 2 = (g - 1) / 2 := Real.sq_sqrt (by linarith)
  have hd0 : 0 ≤ δ := Real.sqrt_nonneg _
  have hd1 : δ ≤ 0.5 := by nlinarith
  obtain ⟨l, hl, hb, hgl⟩ := mwG3_tail (n - 2) (1 - (u - 1 / 2) * (u - 1 / 2) - δ) (by nlinarith) (by nlinarith)
  refine ⟨u :: (1 - (u - 1 / 2) * (u - 1 / 2) - δ) :: l, ⟨by simp [hl]; omega, ?_⟩, ?_⟩
  · intro v hv
    rcases List.mem_cons.1 hv with rfl | hv
    · exact ⟨h0, h1⟩
    rcases List.mem_cons.1 hv with rfl | hv
    · exact ⟨by nlinarith, by nlinarith⟩
    · exact hb v hv
  · rw [mw3_val, mwG3, hgl, List.getD_cons_zero]
    congr 2
    nlinarith

theorem mw3Con_val (f : Fin 2 → ℝ) : (∀ i, mw3Con f i ≤ 0) ↔
    f 0 + f 1 ≤ 1.05 + 0.45 * Real.sin (0.75 * Real.pi * √2 * (f 1 - f 0)) ^ 6 ∧ 0.85 + 0.3 * Real.sin (0.75 * Real.pi * √2 * (f 1 - f 0)) ^ 2 ≤ f 0 + f 1 := by
  have e : (0.75 : ℝ) * Real.pi * (√2 * f 1 - √2 * f 0) = 0.75 * Real.pi * √2 * (f 1 - f 0) := by ring
  rw [Fin.forall_fin_two]
  unfold mw3Con mwLA1
  simp only [Matrix.cons_val_zero, Matrix.cons_val_one]
  rw [e]
  constructor
  · rintro ⟨h1, h2⟩; exact ⟨by linarith, by linarith⟩
  · rintro ⟨h1, h2⟩; exact ⟨by linarith, by linarith⟩

theorem mw3_upper (u : ℝ) (h0 : 0 ≤ u) (h1 : u ≤ 1) : 0.85 + 0.3 * u ≤ 1.05 + 0.45 * u ^ 3 := by
  nlinarith [mul_nonneg h0 (sq_nonneg (u - 0.5)), sq_nonneg (u - 0.5)]

/-- A point on the curve satisfies both constraints. -/
theorem mw3Low_feasible (f : Fin 2 → ℝ) (h : f 0 + f 1 = mw3Low (f 1 - f 0)) : ∀ i, mw3Con f i ≤ 0 := by
  rw [mw3Con_val, h]
  have h1 := mw3_upper (Real.sin (0.75 * Real.pi * √2 * (f 1 - f 0)) ^ 2) (sq_nonneg _) (Real.sin_sq_le_one _)
  rw [← pow_mul] at h1
  refine ⟨max_le ?_ h1, le_max_right _ _⟩
  have : 0 ≤ Real.sin (0.75 * Real.pi * √2 * (f 1 - f 0)) ^ 6 := by positivity
  linarith

/-- C130, MW3 (at least two variables): the Pareto-optimal points are exactly those with `0 ≤ f1 ≤ 1` whose sum is the least one allowed for their difference, i.e. `1` or the bound of the second constraint. -/
theorem C130_mw3 (n : ℕ) (hn : 2 ≤ n) (f : Fin 2 → ℝ) :
    ParetoPoint (fun x => Cube n 0 1 x ∧ ∀ i, mw3Con (mw3 x) i ≤ 0) mw3 f ↔
      0 ≤ f 0 ∧ f 0 ≤ 1 ∧ f 0 + f 1 = max 1 (0.85 + 0.3 * Real.sin (0.75 * Real.pi * √2 * (f 1 - f 0)) ^ 2) := by
  have hlow : ∀ x, Cube n 0 1 x → (∀ i, mw3Con (mw3 x) i ≤ 0) → 0 ≤ mw3 x 0 ∧ mw3 x 0 ≤ 1 ∧ mw3Low (mw3 x 1 - mw3 x 0) ≤ mw3 x 0 + mw3 x 1 := by
    intro x hx hc
    obtain ⟨b0, b1⟩ := cube_getD (by omega) hx
    have hg := mwG3_ge x
    refine ⟨by rw [mw3_val]; exact b0, by rw [mw3_val]; exact b1, max_le ?_ ((mw3Con_val _).1 hc).2⟩
    rw [mw3_val]
    simp only [Matrix.cons_val_zero, Matrix.cons_val_one]
    linarith
  refine front_exact _ _ (fun f => 0 ≤ f 0 ∧ f 0 ≤ 1 ∧ f 0 + f 1 = mw3Low (f 1 - f 0)) ?_ ?_ f
  · rintro f ⟨h0, h1, h2⟩
    obtain ⟨x, hx, hf⟩ := mw3_attain' n hn (f 0) (f 0 + f 1) h0 h1 (by rw [h2]; exact mw3Low_ge _) (by rw [h2]; have := mw3Low_le (f 1 - f 0); linarith)
    have hff : mw3 x = f := by rw [hf]; funext i; fin_cases i <;> simp
    refine ⟨⟨x, ⟨hx, by rw [hff]; exact mw3Low_feasible f h2⟩, hff⟩, ?_⟩
    rintro y ⟨hy, hcy⟩ ⟨hle, i, hlt⟩
    obtain ⟨-, -, hy1⟩ := hlow y hy hcy
    have e0 := hle 0
    have e1 := hle 1
    have hl := mw3Low_lip (f 1 - f 0) (mw3 y 1 - mw3 y 0)
    have habs : |f 1 - f 0 - (mw3 y 1 - mw3 y 0)| ≤ (f 0 - mw3 y 0) + (f 1 - mw3 y 1) := abs_le.2 ⟨by linarith, by linarith⟩
    fin_cases i
    · simp only [Fin.zero_eta] at hlt
      nlinarith
    · simp only [Fin.mk_one] at hlt
      nlinarith
  · rintro x ⟨hx, hc⟩
    obtain ⟨h0, h1, h2⟩ := hlow x hx hc
    set u := mw3 x 0
    set v := mw3 x 1
    set τ := (u + v - mw3Low (v - u)) / 2 with hτ
    have hτ0 : 0 ≤ τ := by rw [hτ]; linarith
    rcases le_or_gt 0 (u - τ) with ht | ht
    · refine ⟨![u - τ, v - τ], ⟨ht, by simp only [Matrix.cons_val_zero]; linarith, ?_⟩, ?_⟩
      · simp only [Matrix.cons_val_zero, Matrix.cons_val_one]
        rw [show v - τ - (u - τ) = v - u by ring, hτ]; ring
      · intro i
        fin_cases i
        · show u - τ ≤ u; linarith
        · show v - τ ≤ v; linarith
    · obtain ⟨s, hs⟩ := mw3Low_fix
      have hd : mw3Low (v - u) < v - u := by rw [hτ] at ht; linarith
      have hsd : s ≤ v - u := by
        by_contra hcon; push Not at hcon
        have hl := mw3Low_lip s (v - u)
        rw [abs_of_pos (by linarith)] at hl
        nlinarith
      refine ⟨![0, s], ⟨le_rfl, by norm_num, ?_⟩, ?_⟩
      · simp only [Matrix.cons_val_zero, Matrix.cons_val_one, zero_add, sub_zero]; exact hs
      · intro i
        fin_cases i
        · exact h0
        · show s ≤ v; linarith

/-! ### The loop -/

theorem mw3Invalid_iff (F : Fin 2 → ℝ) : mw3Invalid F ↔ F 0 + F 1 < 0.85 + 0.3 * Real.sin (0.75 * Real.pi * √2 * (F 1 - F 0)) ^ 2 := by
  unfold mw3Invalid
  constructor <;> intro h <;> linarith

/-- The loop stops for every row, at the first power of `1.001` for which the row is not invalid. -/
theorem mw3Loop_spec (fuel : ℕ) : ∀ F : Fin 2 → ℝ, 1.15 ≤ (F 0 + F 1) * 1.001 ^ fuel → 0 ≤ F 0 + F 1 →
    ∃ j, j ≤ fuel ∧ mw3Loop fuel F = some (fun i => F i * 1.001 ^ j) ∧ ¬ mw3Invalid (fun i => F i * 1.001 ^ j) ∧ ∀ i < j, mw3Invalid fun k => F k * 1.001 ^ i := by
  induction fuel with
  | zero =>
    intro F h h0
    have hn : ¬ mw3Invalid F := by
      rw [mw3Invalid_iff]
      have := Real.sin_sq_le_one (0.75 * Real.pi * √2 * (F 1 - F 0))
      simp at h
      intro hc
      linarith
    refine ⟨0, le_rfl, ?_, by simpa using hn, by simp⟩
    rw [mw3Loop, if_neg hn]; simp
  | succ n ih =>
    intro F h h0
    by_cases hi : mw3Invalid F
    · obtain ⟨j, hj, h1, h2, h3⟩ := ih (fun i => F i * 1.001) (by rw [pow_succ] at h; nlinarith) (by nlinarith)
      have hm : ∀ j : ℕ, (fun i => F i * 1.001 * 1.001 ^ j) = (fun i => F i * (1.001 : ℝ) ^ (j + 1)) := by
        intro j; funext i; rw [pow_succ]; ring
      refine ⟨j + 1, by omega, ?_, ?_, ?_⟩
      · rw [mw3Loop, if_pos hi, h1, hm]
      · rw [← hm]; exact h2
      · intro i hij
        cases i with
        | zero => simpa using hi
        | succ i => rw [← hm]; exact h3 i (by omega)
    · exact ⟨0, by omega, by rw [mw3Loop, if_neg hi]; simp, by simpa using hi, by simp⟩

/-- Rows that are invalid at the start are away from the end of the front. -/
theorem mw3_invalid_left (u : ℝ) (h0 : 0 ≤ u) (h1 : u ≤ 1) (h : mw3Invalid ![u, 1 - u]) : u ≤ 0.86 := by
  by_contra hcon; push Not at hcon
  rw [mw3Invalid_iff] at h
  simp only [Matrix.cons_val_zero, Matrix.cons_val_one] at h
  have e : (0.75 : ℝ) * Real.pi * √2 * (1 - u - u) = -(mw3Freq * (2 * u - 1)) := by unfold mw3Freq; ring
  rw [e, Real.sin_neg, neg_sq] at h
  have k := mw3Freq_bounds
  have p1 := Real.pi_gt_d4
  have p2 := Real.pi_lt_d4
  have hc : 0 ≤ Real.cos (2 * (mw3Freq * (2 * u - 1))) := by
    rw [← Real.cos_sub_two_pi]
    exact Real.cos_nonneg_of_neg_pi_div_two_le_of_le (by nlinarith) (by nlinarith)
  rw [Real.cos_two_mul, Real.cos_sq'] at hc
  nlinarith

theorem mw3_sum_invalid {F : Fin 2 → ℝ} (h : mw3Invalid F) : F 0 + F 1 < 1.15 := by
  rw [mw3Invalid_iff] at h
  have := Real.sin_sq_le_one (0.75 * Real.pi * √2 * (F 1 - F 0))
  linarith

/-- What the loop makes of one row of the line `f1 + f2 = 1`. -/
theorem mw3_row (n : ℕ) (hn : 2 ≤ n) (F : Fin 2 → ℝ) (h0 : 0 ≤ F 0) (h1 : F 0 ≤ 1) (h2 : F 1 = 1 - F 0) :
    ∃ G, mw3Loop 140 F = some G ∧ (∃ x, (Cube n 0 1 x ∧ ∀ i, mw3Con (mw3 x) i ≤ 0) ∧ mw3 x = G) ∧ (∃ c, 1 ≤ c ∧ c < 1.15 * 1.001 ∧ ∀ i, G i = c * F i) ∧
      (ParetoPoint (fun x => Cube n 0 1 x ∧ ∀ i, mw3Con (mw3 x) i ≤ 0) mw3 G ↔ G = F ∨ mw3Con G 1 = 0) := by
  have hs : F 0 + F 1 = 1 := by rw [h2]; ring
  obtain ⟨j, hj, hl, hv, hp⟩ := mw3Loop_spec 140 F (by rw [hs]; norm_num) (by rw [hs]; norm_num)
  have hF : F = ![F 0, 1 - F 0] := by funext i; fin_cases i <;> simp [h2]
  set c : ℝ := 1.001 ^ j with hc
  have hc1 : 1 ≤ c := one_le_pow₀ (by norm_num)
  have hGs : F 0 * c + F 1 * c = c := by rw [← add_mul, hs, one_mul]
  rw [mw3Invalid_iff] at hv
  push Not at hv
  have key : (j = 0 ∧ c = 1) ∨ (c < 1.15 * 1.001 ∧ F 0 * c ≤ 1 ∧ c ≤ 1.05 + 0.45 * Real.sin (0.75 * Real.pi * √2 * (F 1 * c - F 0 * c)) ^ 6) := by
    rcases Nat.eq_zero_or_pos j with h | h
    · left; exact ⟨h, by rw [hc, h, pow_zero]⟩
    · right
      obtain ⟨i, rfl⟩ := Nat.exists_eq_succ_of_ne_zero h.ne'
      have hst := hp 0 h
      simp only [pow_zero, mul_one] at hst
      have hu : F 0 ≤ 0.86 := mw3_invalid_left _ h0 h1 (by rw [← hF]; exact hst)
      have hpr := hp i (Nat.lt_succ_self i)
      have hsum := mw3_sum_invalid hpr
      set b : ℝ := 1.001 ^ i with hb
      have hcb : c = b * 1.001 := by rw [hc, hb, pow_succ]
      have hbs : F 0 * b + F 1 * b = b := by rw [← add_mul, hs, one_mul]
      rw [hbs] at hsum
      have hb1 : 1 ≤ b := one_le_pow₀ (by norm_num)
      refine ⟨by rw [hcb]; nlinarith, by rw [hcb]; nlinarith, ?_⟩
      rw [mw3Invalid_iff] at hpr
      rw [hbs] at hpr
      have hlip := sin_sq_lip (mw3Freq * (F 1 * b - F 0 * b)) (mw3Freq * (F 1 * c - F 0 * c))
      have hk := mw3Freq_bounds
      have hdist : |mw3Freq * (F 1 * b - F 0 * b) - mw3Freq * (F 1 * c - F 0 * c)| ≤ 0.01 := by
        rw [← mul_sub, abs_mul, abs_of_pos (by linarith)]
        have : |F 1 * b - F 0 * b - (F 1 * c - F 0 * c)| ≤ 0.0012 := by
          rw [hcb, abs_le]; constructor <;> nlinarith
        nlinarith [abs_nonneg (F 1 * b - F 0 * b - (F 1 * c - F 0 * c))]
      have hlip' := (abs_le.1 (hlip.trans hdist)).2
      change b < 0.85 + 0.3 * Real.sin (mw3Freq * (F 1 * b - F 0 * b)) ^ 2 at hpr
      change c ≤ 1.05 + 0.45 * Real.sin (mw3Freq * (F 1 * c - F 0 * c)) ^ 6
      have hup := mw3_upper (Real.sin (mw3Freq * (F 1 * c - F 0 * c)) ^ 2) (sq_nonneg _) (Real.sin_sq_le_one _)
      have hup' : 0.85 + 0.3 * Real.sin (mw3Freq * (F 1 * c - F 0 * c)) ^ 2 + 0.01 ≤ 1.05 + 0.45 * Real.sin (mw3Freq * (F 1 * c - F 0 * c)) ^ 6 := by
        have a0 := sq_nonneg (Real.sin (mw3Freq * (F 1 * c - F 0 * c)))
        have a1 := Real.sin_sq_le_one (mw3Freq * (F 1 * c - F 0 * c))
        rw [show Real.sin (mw3Freq * (F 1 * c - F 0 * c)) ^ 6 = (Real.sin (mw3Freq * (F 1 * c - F 0 * c)) ^ 2) ^ 3 by rw [← pow_mul]]
        set w := Real.sin (mw3Freq * (F 1 * c - F 0 * c)) ^ 2
        nlinarith [mul_nonneg a0 (sq_nonneg (w - 0.5)), sq_nonneg (w - 0.5)]
      rw [hcb] at *
      nlinarith
  have hclt : c < 1.15 * 1.001 := by
    rcases key with ⟨-, h⟩ | ⟨h, -, -⟩
    · rw [h]; norm_num
    · exact h
  have hF0c : F 0 * c ≤ 1 := by
    rcases key with ⟨-, h⟩ | ⟨-, h, -⟩
    · rw [h, mul_one]; exact h1
    · exact h
  have hup : c ≤ 1.05 + 0.45 * Real.sin (0.75 * Real.pi * √2 * (F 1 * c - F 0 * c)) ^ 6 := by
    rcases key with ⟨-, h⟩ | ⟨-, -, h⟩
    · have : 0 ≤ Real.sin (0.75 * Real.pi * √2 * (F 1 * c - F 0 * c)) ^ 6 := by positivity
      rw [h] at *
      linarith
    · exact h
  refine ⟨_, hl, ?_, ⟨c, hc1, hclt, fun i => mul_comm _ _⟩, ?_⟩
  · obtain ⟨x, hx, hf⟩ := mw3_attain' n hn (F 0 * c) c (by positivity) hF0c hc1 (by linarith)
    have hff : mw3 x = fun i => F i * c := by rw [hf]; funext i; fin_cases i <;> simp; linarith
    refine ⟨x, ⟨hx, ?_⟩, hff⟩
    rw [hff, mw3Con_val]
    rw [hGs]
    exact ⟨hup, by rw [hGs] at hv; exact hv⟩
  · rw [C130_mw3 n hn]
    rw [hGs] at hv ⊢
    have hcon : mw3Con (fun i => F i * c) 1 = 0 ↔ c = 0.85 + 0.3 * Real.sin (0.75 * Real.pi * √2 * (F 1 * c - F 0 * c)) ^ 2 := by
      have e : (0.75 : ℝ) * Real.pi * (√2 * (F 1 * c) - √2 * (F 0 * c)) = 0.75 * Real.pi * √2 * (F 1 * c - F 0 * c) := by ring
      have e2 : mw3Con (fun i => F i * c) 1 = 0.85 - F 0 * c - F 1 * c + 0.3 * Real.sin (0.75 * Real.pi * (√2 * (F 1 * c) - √2 * (F 0 * c))) ^ 2 := rfl
      rw [e2, e]
      constructor <;> intro h <;> linarith
    rw [hcon]
    constructor
    · rintro ⟨-, -, h⟩
      rcases max_cases (1 : ℝ) (0.85 + 0.3 * Real.sin (0.75 * Real.pi * √2 * (F 1 * c - F 0 * c)) ^ 2) with ⟨e, -⟩ | ⟨e, -⟩
      · left; rw [h, e]; funext i; ring
      · right; rw [← e]; exact h
    · rintro (h | h)
      · have hc' : c = 1 := by
          have a := congrFun h 0
          have b := congrFun h 1
          linarith
        refine ⟨by positivity, hF0c, ?_⟩
        rw [hc'] at hv ⊢
        rw [max_eq_left hv]
      · refine ⟨by positivity, hF0c, ?_⟩
        rw [← h, max_eq_right hc1]

/-- C130, MW3: the computation of the front stops (within 140 rounds), and returns for every row a multiple of it (less than 1.16 times) that a feasible solution attains; such a point is
Pareto-optimal exactly if the row has not been scaled or the second constraint is active. -/
theorem C130_mw3_front (n : ℕ) (hn : 2 ≤ n) (refDirs : Option (List (Fin 2 → ℝ))) (h : RowsOk refDirs) :
    ∃ G, mw3Front 140 refDirs = some (G, if refDirs.isSome then G else []) ∧
      List.Forall₂ (fun F g => (∃ x, (Cube n 0 1 x ∧ ∀ i, mw3Con (mw3 x) i ≤ 0) ∧ mw3 x = g) ∧ (∃ c, 1 ≤ c ∧ c < 1.16 ∧ ∀ i, g i = c * F i) ∧
        (ParetoPoint (fun x => Cube n 0 1 x ∧ ∀ i, mw3Con (mw3 x) i ≤ 0) mw3 g ↔ g = F ∨ mw3Con g 1 = 0)) (mwRows (fun t => 1 - t) refDirs).1 G := by
  have hm := mwRows_mem (fun t => 1 - t) refDirs h
  have hr : (mwRows (fun t => 1 - t) refDirs).2 = [] ∨ refDirs.isSome := by cases refDirs <;> simp [mwRows]
  unfold mw3Front
  simp only
  set rows := (mwRows (fun t => 1 - t) refDirs).1
  have : ∃ G, rows.mapM (mw3Loop 140) = some G ∧ List.Forall₂ (fun F g => (∃ x, (Cube n 0 1 x ∧ ∀ i, mw3Con (mw3 x) i ≤ 0) ∧ mw3 x = g) ∧ (∃ c, 1 ≤ c ∧ c < 1.16 ∧ ∀ i, g i = c * F i) ∧
        (ParetoPoint (fun x => Cube n 0 1 x ∧ ∀ i, mw3Con (mw3 x) i ≤ 0) mw3 g ↔ g = F ∨ mw3Con g 1 = 0)) rows G := by
    clear hr
    clear_value rows
    revert hm
    induction rows with
    | nil => exact fun _ => ⟨[], rfl, List.Forall₂.nil⟩
    | cons F l ih =>
      intro hm
      obtain ⟨G, hG, hall⟩ := ih fun F' hF' => hm F' (List.mem_cons_of_mem _ hF')
      obtain ⟨a, b, e⟩ := hm F (by simp)
      obtain ⟨g, hg, p1, ⟨c, c1, c2, c3⟩, p3⟩ := mw3_row n hn F a b e
      exact ⟨g :: G, by simp [List.mapM_cons, hg, hG], List.Forall₂.cons ⟨p1, ⟨c, c1, by linarith, c3⟩, p3⟩ hall⟩
  obtain ⟨G, hG, hall⟩ := this
  refine ⟨G, ?_, hall⟩
  rw [hG]
  rcases hr with e | e
  · rw [e]; rfl
  · simp [e]

/-- C130, refuted: "every point of the front of MW3 is Pareto-optimal". There is a row for which the scaling oversteps the constraint: the point returned is dominated by another feasible one. -/
theorem C130_mw3_refuted (n : ℕ) (hn : 2 ≤ n) : ∃ R : List (Fin 2 → ℝ), RowsOk (some R) ∧ ∃ G c, mw3Front 140 (some R) = some (G, c) ∧
    ∃ g ∈ G, ¬ ParetoPoint (fun x => Cube n 0 1 x ∧ ∀ i, mw3Con (mw3 x) i ≤ 0) mw3 g := by
  have k := mw3Freq_bounds
  set a := Real.arcsin (√0.501) with ha
  have hs1 : √(0.501 : ℝ) ≤ 1 := Real.sqrt_le_one.2 (by norm_num)
  have hs0 : (0 : ℝ) ≤ √0.501 := Real.sqrt_nonneg _
  have hsin : Real.sin a ^ 2 = 0.501 := by
    rw [ha, Real.sin_arcsin (by linarith) hs1, Real.sq_sqrt (by norm_num)]
  have ha0 : 0 ≤ a := Real.arcsin_nonneg.2 hs0
  have ha1 : a ≤ 1.5708 := by
    have h1 := Real.arcsin_le_pi_div_two (√0.501)
    have h2 := Real.pi_lt_d4
    rw [ha]; linarith
  set u := (1 - a / mw3Freq) / 2 with hu
  have hq0 : 0 ≤ a / mw3Freq := div_nonneg ha0 (by linarith)
  have hq1 : a / mw3Freq ≤ 1 := by rw [div_le_one (by linarith)]; linarith
  have hka : mw3Freq * (a / mw3Freq) = a := mul_div_cancel₀ _ (by linarith)
  have hd : ∀ c : ℝ, (0.75 : ℝ) * Real.pi * √2 * ((1 - u) * c - u * c) = c * a := by
    intro c
    have : (1 - u) * c - u * c = c * (a / mw3Freq) := by rw [hu]; ring
    rw [this]
    change mw3Freq * _ = _
    linear_combination c * hka
  have hok : RowsOk (some [![u, 0]]) := by
    intro R hR r hr
    cases hR
    rw [List.mem_singleton.1 hr]
    exact ⟨by show 0 ≤ u; rw [hu]; linarith, by show u ≤ 1; rw [hu]; linarith⟩
  have hi0 : mw3Invalid ![u, 1 - u] := by
    rw [mw3Invalid_iff]
    simp only [Matrix.cons_val_zero, Matrix.cons_val_one]
    have := hd 1
    rw [mul_one, mul_one, one_mul] at this
    rw [this, hsin]; norm_num
  have hs2 : Real.sin (1.001 * a) ^ 2 < 0.503 := by
    have h := (abs_le.1 (sin_sq_lip (1.001 * a) a)).2
    rw [abs_of_nonneg (by linarith), hsin] at h
    linarith
  have hi1 : ¬ mw3Invalid fun i => (![u, 1 - u] : Fin 2 → ℝ) i * 1.001 := by
    rw [mw3Invalid_iff]
    simp only [Matrix.cons_val_zero, Matrix.cons_val_one]
    rw [hd]
    intro hc
    linarith
  refine ⟨[![u, 0]], hok, [fun i => (![u, 1 - u] : Fin 2 → ℝ) i * 1.001], [fun i => (![u, 1 - u] : Fin 2 → ℝ) i * 1.001], ?_, fun i => (![u, 1 - u] : Fin 2 → ℝ) i * 1.001, List.mem_singleton.2 rfl, ?_⟩
  · have hl : mw3Loop 140 ![u, 1 - u] = some fun i => (![u, 1 - u] : Fin 2 → ℝ) i * 1.001 := by
      rw [mw3Loop, if_pos hi0, mw3Loop, if_neg hi1]
    simp [mw3Front, mwRows, hl]
  · rw [C130_mw3 n hn]
    rintro ⟨-, -, h⟩
    simp only [Matrix.cons_val_zero, Matrix.cons_val_one] at h
    rw [hd] at h
    have : max 1 (0.85 + 0.3 * Real.sin (1.001 * a) ^ 2) < 1.001 := max_lt (by norm_num) (by linarith)
    linarith

example : RowsOk none := fun R h => by cases h

example : ParetoPoint (fun x => Cube 3 0 1 x ∧ mw2Con (mw2 3 x) ≤ 0) (mw2 3) ![0.25, 0.75] := by
  rw [C130_mw2 3 (by norm_num)]; norm_num

example : ParetoPoint (fun x => Cube 3 0 1 x ∧ ∀ i, mw3Con (mw3 x) i ≤ 0) mw3 ![0.5, 0.5] := by
  rw [C130_mw3 3 (by norm_num)]; norm_num

end Props
