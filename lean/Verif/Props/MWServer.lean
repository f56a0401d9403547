import Verif.Model.MWServer
import Verif.Props.MWScaled
import Verif.Props.MWSphere
import Mathlib.Analysis.Complex.ExponentialBounds
import Mathlib.Analysis.SpecialFunctions.Pow.Continuity

/-!
# C169: MW5, MW7, MW9, MW10, MW11
-/

set_option linter.unusedVariables false
set_option linter.unusedSimpArgs false

namespace Props
open Model Spec

/-! ### All distances are attained -/

theorem zip_cont (φ : ℝ → ℕ → ℝ) (hφ : ∀ i, Continuous fun v => φ v i) (l : List (ℝ × ℕ)) :
    Continuous fun s : ℝ => (l.map fun e => φ (s * e.1) e.2).sum := by
  induction l with
  | nil => simpa using continuous_const
  | cons e l ih =>
    simp only [List.map_cons, List.sum_cons]
    exact ((hφ e.2).comp (continuous_id.mul continuous_const)).add ih

theorem exp_low : Real.exp (-5 / 2) ≤ 1 / 10 := by
  have h : (10 : ℝ) ≤ Real.exp (5 / 2) := by
    have h1 := Real.exp_one_gt_d9
    have h2 : Real.exp (5 / 2) = Real.exp 1 * Real.exp 1 * Real.exp (1 / 2) := by rw [← Real.exp_add, ← Real.exp_add]; norm_num
    have h3 : (3 / 2 : ℝ) ≤ Real.exp (1 / 2) := by have := Real.add_one_le_exp (1 / 2 : ℝ); linarith
    rw [h2]; nlinarith
  have e : (-5 / 2 : ℝ) = -(5 / 2) := by norm_num
  rw [e, Real.exp_neg, inv_le_comm₀ (Real.exp_pos _) (by norm_num)]
  simpa using h

theorem mwG1_onto (n : ℕ) (hn : 3 ≤ n) (g : ℝ) (h1 : 1 ≤ g) (h2 : g ≤ 2.8) : ∃ XM, Cube (n - 1) 0 1 XM ∧ mwG1 n 2 XM = g := by
  obtain ⟨XM, hX, hg⟩ := mwG1_opt n 2 (by norm_num) (by omega)
  set φ : ℝ → ℕ → ℝ := fun v i => 1 - Real.exp (-10 * (v ^ (n - 2) - 1 / 2 - i / (2 * n)) * (v ^ (n - 2) - 1 / 2 - i / (2 * n))) with hφ
  have hscale : ∀ s : ℝ, mwG1 n 2 (XM.map fun v => s * v) = 1 + ((XM.zipIdx 1).map fun e => φ (s * e.1) e.2).sum := by
    intro s
    simp [mwG1, List.zipIdx_map, List.map_map, Function.comp_def, hφ, Prod.map]
  have hc : Continuous fun s : ℝ => mwG1 n 2 (XM.map fun v => s * v) := by
    simp only [hscale]
    exact continuous_const.add (zip_cont φ (fun i => by simp only [hφ]; fun_prop) _)
  have h0 : 2.8 ≤ mwG1 n 2 (XM.map fun v => (0 : ℝ) * v) := by
    rw [hscale]
    have hterm : ∀ e : ℝ × ℕ, (9 / 10 : ℝ) ≤ φ (0 * e.1) e.2 := by
      intro e
      simp only [hφ, zero_mul, zero_pow (show n - 2 ≠ 0 by omega)]
      have hq : (0 : ℝ) ≤ e.2 / (2 * n) := by positivity
      have : Real.exp (-10 * (0 - 1 / 2 - e.2 / (2 * n)) * (0 - 1 / 2 - e.2 / (2 * n))) ≤ Real.exp (-5 / 2) := by
        apply Real.exp_le_exp.2; nlinarith
      linarith [exp_low]
    have hlen : (XM.zipIdx 1).length = n - 1 := by simp [hX.1]
    have hsum : ∀ l : List (ℝ × ℕ), (9 / 10 : ℝ) * l.length ≤ (l.map fun e => φ (0 * e.1) e.2).sum := by
      intro l
      induction l with
      | nil => simp
      | cons e l ih => simp only [List.map_cons, List.sum_cons, List.length_cons]; push_cast; linarith [hterm e]
    have := hsum (XM.zipIdx 1)
    rw [hlen] at this
    have h3 : (2 : ℝ) ≤ ((n - 1 : ℕ) : ℝ) := by exact_mod_cast (by omega : 2 ≤ n - 1)
    linarith
  have h1' : mwG1 n 2 (XM.map fun v => (1 : ℝ) * v) = 1 := by simpa using hg
  obtain ⟨s, hs, he⟩ := intermediate_value_Icc' (zero_le_one' ℝ) hc.continuousOn (show g ∈ Set.Icc _ _ from ⟨by rw [h1']; exact h1, le_trans h2 h0⟩)
  refine ⟨_, ⟨by simpa using hX.1, ?_⟩, he⟩
  intro v hv
  obtain ⟨w, hw, rfl⟩ := List.mem_map.1 hv
  obtain ⟨a, b⟩ := hX.2 w hw
  exact ⟨mul_nonneg hs.1 a, by have := hs.2; nlinarith⟩

theorem mwG2_onto (n : ℕ) (hn : 2 ≤ n) (g : ℝ) (h1 : 1 ≤ g) (h2 : g ≤ 4) : ∃ XM, Cube (n - 1) 0 1 XM ∧ mwG2 n 2 XM = g := by
  obtain ⟨XM, hX, hg⟩ := mwG2_opt n 2 (by norm_num) hn 1 le_rfl
  have hn0 : (0 : ℝ) < n := by exact_mod_cast (by omega : 0 < n)
  have hn1 : (1 : ℝ) / n ≤ 1 / 2 := by
    apply one_div_le_one_div_of_le (by norm_num); exact_mod_cast hn
  have hn2 : (0 : ℝ) ≤ 1 / n := by positivity
  cases XM with
  | nil => have := hX.1; simp at this; omega
  | cons y rest =>
    set φ : ℝ → ℕ → ℝ := fun v i => 0.1 / n * (1 - Real.exp (-10 * (v - i / n) * (v - i / n))) * (1 - Real.exp (-10 * (v - i / n) * (v - i / n))) + 1.5 -
      1.5 * Real.cos (2 * Real.pi * (1 - Real.exp (-10 * (v - i / n) * (v - i / n)))) with hφ
    have hval : ∀ v, mwG2 n 2 (v :: rest) = 1 + (φ v 1 + ((rest.zipIdx 2).map fun e => φ e.1 e.2).sum) := by
      intro v; simp [mwG2, hφ]
    have hnn : ∀ v i, 0 ≤ φ v i := by
      intro v i
      simp only [hφ]
      set z := 1 - Real.exp (-10 * (v - i / n) * (v - i / n))
      have h1 := Real.cos_le_one (2 * Real.pi * z)
      have h3 : 0 ≤ 0.1 / (n : ℝ) * (z * z) := mul_nonneg (by positivity) (mul_self_nonneg z)
      nlinarith
    have hrest : ((rest.zipIdx 2).map fun e => φ e.1 e.2).sum = 0 := by
      have a := hval y
      rw [hg] at a
      have b := zipIdx_sum_nonneg (fun e => φ e.1 e.2) (fun e => hnn _ _) rest 2
      have := hnn y 1
      linarith
    have hc : Continuous fun s : ℝ => mwG2 n 2 ((1 / n + s) :: rest) := by
      simp only [hval]
      simp only [hφ]
      fun_prop
    have hl2 := Real.log_two_lt_d9
    have hl2' := Real.log_two_gt_d9
    have hs0 : 0 ≤ √(Real.log 2 / 10) := Real.sqrt_nonneg _
    have hs1 : √(Real.log 2 / 10) ≤ 1 / 2 := by
      rw [Real.sqrt_le_left (by norm_num)]; norm_num at hl2 ⊢; linarith
    have ha : mwG2 n 2 ((1 / n + 0) :: rest) = 1 := by
      rw [hval, hrest]; simp [hφ]
    have hb : 4 ≤ mwG2 n 2 ((1 / n + √(Real.log 2 / 10)) :: rest) := by
      rw [hval, hrest]
      simp only [hφ, Nat.cast_one, add_sub_cancel_left]
      have e : -10 * √(Real.log 2 / 10) * √(Real.log 2 / 10) = -Real.log 2 := by
        rw [mul_assoc, Real.mul_self_sqrt (by linarith)]; ring
      rw [e, Real.exp_neg, Real.exp_log (by norm_num)]
      have e2 : 2 * Real.pi * (1 - 2⁻¹) = Real.pi := by ring
      rw [e2, Real.cos_pi]
      have : (0 : ℝ) ≤ 0.1 / n * (1 - 2⁻¹) * (1 - 2⁻¹) := by
        have : (0 : ℝ) ≤ 0.1 / n := by positivity
        nlinarith
      linarith
    obtain ⟨s, hs, he⟩ := intermediate_value_Icc hs0 hc.continuousOn (show g ∈ Set.Icc _ _ from ⟨by rw [ha]; exact h1, le_trans h2 hb⟩)
    refine ⟨_, ⟨by simpa using hX.1, ?_⟩, he⟩
    intro v hv
    rcases List.mem_cons.1 hv with rfl | hv
    · exact ⟨by linarith [hs.1], by linarith [hs.2]⟩
    · exact hX.2 v (List.mem_cons_of_mem _ hv)

theorem mwG3_onto (n : ℕ) (hn : 2 ≤ n) (u c g : ℝ) (hu : u = 1 ∨ u = √2) (hc0 : 0 ≤ c) (hc1 : c ≤ u) (h1 : 1 ≤ g) (h2 : g ≤ 1.6) :
    ∃ l, Cube n 0 u (c :: l) ∧ mwG3 (c :: l) = g := by
  have hr := sqrt_two_bounds
  have hu1 : 1 ≤ u := by rcases hu with rfl | rfl <;> linarith [hr.1]
  have hu2 : u < 1.4143 := by rcases hu with rfl | rfl; · norm_num
                              · exact hr.2
  set w := √((g - 1) / 2) with hw
  have hw0 : 0 ≤ w := Real.sqrt_nonneg _
  have hww : w * w = (g - 1) / 2 := Real.mul_self_sqrt (by linarith)
  have hw1 : w ≤ 0.55 := by rw [hw, Real.sqrt_le_left (by norm_num)]; norm_num at h2 ⊢; linarith
  set q := (c - 1 / 2) * (c - 1 / 2) with hq
  have hq0 : 0 ≤ q := mul_self_nonneg _
  have key : ∃ y, 0 ≤ y ∧ y ≤ u ∧ (y + q - 1) ^ 2 = (g - 1) / 2 := by
    by_cases h : q ≤ 0.3
    · exact ⟨1 - q - w, by norm_num at *; linarith, by linarith, by rw [← hww]; ring⟩
    · have hcu : (1 : ℝ) < c := by
        by_contra hcon
        push Not at hcon h
        have : q ≤ 1 / 4 := by rw [hq]; nlinarith
        norm_num at h; linarith
      have hus : u = √2 := by
        rcases hu with rfl | rfl
        · linarith
        · rfl
      refine ⟨1 - q + w, ?_, ?_, by rw [← hww]; ring⟩
      · have : q ≤ 0.9143 * 0.9143 := by rw [hq]; norm_num at *; nlinarith
        norm_num at this; linarith
      · rw [hus]; push Not at h; norm_num at *; linarith [hr.1]
  obtain ⟨y, hy0, hyu, hy⟩ := key
  obtain ⟨k, rfl⟩ : ∃ k, n = k + 2 := ⟨n - 2, by omega⟩
  have tail : ∃ l : List ℝ, l.length = k ∧ (∀ v ∈ l, 0 ≤ v ∧ v ≤ 1) ∧ mwG3 (y :: l) = 1 := by
    cases k with
    | zero => exact ⟨[], rfl, by simp, by simp [mwG3]⟩
    | succ k =>
      have hy2 : y < 1.4143 := lt_of_le_of_lt hyu hu2
      obtain ⟨l, hl, hb, hg⟩ := mwG3_tail k (1 - (y - 1 / 2) * (y - 1 / 2)) (by norm_num at hy2; nlinarith) (by nlinarith [mul_self_nonneg (y - 1 / 2)])
      refine ⟨(1 - (y - 1 / 2) * (y - 1 / 2)) :: l, by simp [hl], ?_, ?_⟩
      · intro v hv
        rcases List.mem_cons.1 hv with rfl | hv
        · exact ⟨by norm_num at hy2; nlinarith, by nlinarith [mul_self_nonneg (y - 1 / 2)]⟩
        · exact hb v hv
      · rw [mwG3, hg]; ring
  obtain ⟨l, hl, hb, hg⟩ := tail
  refine ⟨y :: l, ⟨by simp [hl], ?_⟩, ?_⟩
  · intro v hv
    rcases List.mem_cons.1 hv with rfl | hv
    · exact ⟨hc0, hc1⟩
    · rcases List.mem_cons.1 hv with rfl | hv
      · exact ⟨hy0, hyu⟩
      · exact ⟨(hb v hv).1, le_trans (hb v hv).2 hu1⟩
  · rw [mwG3, hg, ← hq, hy]; ring

/-! ### Fronts given by strictly decreasing curves -/

theorem antichain_front {m : ℕ} (D : List ℝ → Prop) (F : List ℝ → Fin m → ℝ) (P : (Fin m → ℝ) → Prop) (hatt : ∀ f, P f → ∃ x, D x ∧ F x = f)
    (hlow : ∀ x, D x → ∃ z, P z ∧ ∀ i, z i ≤ F x i) (hanti : ∀ z f, P z → P f → (∀ i, z i ≤ f i) → z = f) (f : Fin m → ℝ) : ParetoPoint D F f ↔ P f := by
  refine front_exact D F P (fun f hf => ⟨hatt f hf, ?_⟩) hlow f
  rintro x hx ⟨hle, i, hlt⟩
  obtain ⟨z, hz, hzx⟩ := hlow x hx
  have := hanti z f hz hf fun i => (hzx i).trans (hle i)
  subst this
  exact absurd (hzx i) (not_le.2 hlt)

theorem fin2_eq {f z : Fin 2 → ℝ} (h0 : f 0 = z 0) (h1 : f 1 = z 1) : f = z := by
  funext i; fin_cases i
  · exact h0
  · exact h1

/-! ### MW9 -/

/-- The front of MW9: two arcs that meet at `f1 = 0.587...`. -/
def MW9Front (f : Fin 2 → ℝ) : Prop := (0 ≤ f 0 ∧ f 0 ≤ 1) ∧ f 1 = min (1 - 0.64 * f 0 ^ 2) (1.15 ^ 2 - (f 0 + 0.15) ^ 2)

/-- C169: the exact front of MW9. -/
theorem C169_mw9 (n : ℕ) (hn : 3 ≤ n) (f : Fin 2 → ℝ) : ParetoPoint (fun x => Cube n 0 1 x ∧ mw9Con (mw9 n x) ≤ 0) (mw9 n) f ↔ MW9Front f := by
  refine antichain_front _ _ _ ?_ ?_ ?_ f
  · rintro f ⟨⟨h0, h1⟩, h2⟩
    set a := f 0 with ha
    set b := f 1 with hb
    have hb1 : b ≤ 1 := by rw [h2]; refine le_trans (min_le_left _ _) ?_; nlinarith
    have hp : a ≤ a ^ (0.6 : ℝ) := by
      have := Real.rpow_le_rpow_of_exponent_ge' h0 h1 (by norm_num : (0 : ℝ) ≤ 0.6) (by norm_num : (0.6 : ℝ) ≤ 1)
      simpa using this
    have hcont : ContinuousOn (fun s : ℝ => s * (1 - (a / s) ^ (0.6 : ℝ))) (Set.Icc 1 2.5) := by
      apply continuousOn_id.mul
      apply continuousOn_const.sub
      apply ContinuousOn.rpow_const
      · exact continuousOn_const.div continuousOn_id fun s hs => by have := hs.1; simp; linarith
      · intro s hs; right; norm_num
    have e1 : (1 : ℝ) * (1 - (a / 1) ^ (0.6 : ℝ)) ≤ b := by
      rw [h2, le_min_iff]; norm_num at hp ⊢
      constructor <;> nlinarith
    have e2 : b ≤ (2.5 : ℝ) * (1 - (a / 2.5) ^ (0.6 : ℝ)) := by
      have hle : (a / 2.5) ^ (0.6 : ℝ) ≤ (0.4 : ℝ) ^ (0.6 : ℝ) := Real.rpow_le_rpow (by positivity) (by norm_num; linarith) (by norm_num)
      have h46 : (0.4 : ℝ) ^ (0.6 : ℝ) ≤ 0.6 := by
        have : ((0.4 : ℝ) ^ (0.6 : ℝ)) ^ 5 ≤ 0.6 ^ 5 := by
          rw [← Real.rpow_natCast, ← Real.rpow_mul (by norm_num)]
          have : (0.6 : ℝ) * ((5 : ℕ) : ℝ) = ((3 : ℕ) : ℝ) := by norm_num
          rw [this, Real.rpow_natCast]; norm_num
        exact le_of_pow_le_pow_left₀ (by norm_num) (by norm_num) this
      have := hle.trans h46
      norm_num at this ⊢; linarith
    obtain ⟨s, hs, he⟩ := intermediate_value_Icc (by norm_num : (1 : ℝ) ≤ 2.5) hcont ⟨e1, e2⟩
    obtain ⟨XM, hX, hg⟩ := mwG1_onto n hn s hs.1 (by have := hs.2; norm_num at this ⊢; linarith)
    have hs0 : (0 : ℝ) < s := by linarith [hs.1]
    have hF : mw9 n ((a / s) :: XM) = f := by
      refine fin2_eq ?_ ?_
      · simp [mw9, hg]; rw [mul_div_cancel₀ _ hs0.ne']
      · simp only [mw9, List.drop_succ_cons, List.drop_zero, hg, List.getD_cons_zero, Matrix.cons_val_one, Matrix.cons_val_fin_one]
        rw [mul_div_cancel₀ _ hs0.ne']; exact he
    refine ⟨(a / s) :: XM, ⟨cube_cons' (by omega) (by positivity) (by rw [div_le_one hs0]; linarith [hs.1]) hX, ?_⟩, hF⟩
    rw [hF]
    simp only [mw9Con, ← ha, ← hb, min_le_iff]
    rcases min_choice (1 - 0.64 * a ^ 2) (1.15 ^ 2 - (a + 0.15) ^ 2) with h | h
    · left
      rw [h] at h2
      have : 1 - 0.64 * a * a - b = 0 := by rw [h2]; ring
      rw [this]; simp
    · right
      rw [h] at h2
      have : 1.15 * 1.15 - (a + 0.15) * (a + 0.15) - b = 0 := by rw [h2]; ring
      rw [this]; simp
  · rintro x ⟨hx, hc⟩
    obtain ⟨x0, x1⟩ := cube_getD (by omega) hx
    have hg := mwG1_ge n 2 (x.drop 1)
    have ha : 0 ≤ mw9 n x 0 := by simp only [mw9, Matrix.cons_val_zero]; exact mul_nonneg (by linarith) x0
    have hb : 0 ≤ mw9 n x 1 := by
      simp only [mw9, Matrix.cons_val_one, Matrix.cons_val_fin_one]
      rw [mul_div_cancel_left₀ _ (by linarith)]
      have := Real.rpow_le_one x0 x1 (by norm_num : (0 : ℝ) ≤ 0.6)
      nlinarith
    generalize mw9 n x = F at *
    simp only [mw9Con, min_le_iff] at hc
    by_cases h1 : F 0 ≤ 1
    · refine ⟨![F 0, min (1 - 0.64 * F 0 ^ 2) (1.15 ^ 2 - (F 0 + 0.15) ^ 2)], ⟨⟨by simpa using ha, by simpa using h1⟩, by simp⟩, ?_⟩
      intro i
      fin_cases i
      · simp
      · simp only [Fin.mk_one, Matrix.cons_val_one, Matrix.cons_val_fin_one, min_le_iff]
        rcases hc with hc | hc
        · left
          by_contra hcon
          push Not at hcon
          norm_num at hc hcon
          nlinarith [mul_pos (show 0 < 1 - 16 / 25 * F 0 * F 0 - F 1 by nlinarith) (show 0 < 1 - 9 / 25 * F 0 * F 0 - F 1 by nlinarith)]
        · right
          by_contra hcon
          push Not at hcon
          norm_num at hc hcon
          nlinarith [mul_pos (show 0 < 729 / 400 - (F 0 + 7 / 20) * (F 0 + 7 / 20) - F 1 by nlinarith) (show 0 < 529 / 400 - (F 0 + 3 / 20) * (F 0 + 3 / 20) - F 1 by nlinarith)]
    · push Not at h1
      refine ⟨![1, 0], ⟨⟨by simp, by simp⟩, ?_⟩, ?_⟩
      · simp only [Matrix.cons_val_one, Matrix.cons_val_fin_one, Matrix.cons_val_zero]
        rw [min_eq_right] <;> norm_num
      · intro i
        fin_cases i
        · simpa using h1.le
        · simpa using hb
  · rintro z f ⟨⟨z0, z1⟩, hz⟩ ⟨⟨f0, f1⟩, hf⟩ hle
    have h0 := hle 0
    have h1 := hle 1
    rcases eq_or_lt_of_le h0 with h | h
    · exact fin2_eq h (by rw [hz, hf, h])
    · exfalso
      rw [hz, hf, min_le_iff, le_min_iff, le_min_iff] at h1
      norm_num at h1
      rcases h1 with h1 | h1
      · nlinarith
      · nlinarith

/-! ### MW10 -/

/-- The front of MW10: four pieces. -/
def MW10Front (f : Fin 2 → ℝ) : Prop :=
  0 ≤ f 0 ∧ ((2 / 37 ≤ f 0 ^ 2 ∧ f 0 ^ 2 ≤ 1 / 15 ∧ f 1 = 2 - 16 * f 0 ^ 2) ∨ (1 / 15 ≤ f 0 ^ 2 ∧ f 0 ^ 2 ≤ 1 / 7 ∧ f 1 = 1 - f 0 ^ 2) ∨
    (2 / 7 < f 0 ^ 2 ∧ f 0 ^ 2 ≤ 1 / 3 ∧ f 1 = 2 - 4 * f 0 ^ 2) ∨ (1 / 3 ≤ f 0 ^ 2 ∧ f 0 ^ 2 ≤ 1 ∧ f 1 = 1 - f 0 ^ 2))

theorem prod_nonpos {p q : ℝ} (h : p * q ≤ 0) (hpq : p ≤ q) : p ≤ 0 ∧ 0 ≤ q := by
  constructor
  · by_contra hc; push Not at hc; nlinarith
  · by_contra hc; push Not at hc; nlinarith

theorem prod_nonneg' {p q : ℝ} (h : 0 ≤ p * q) (hpq : p ≤ q) : 0 ≤ p ∨ q ≤ 0 := by
  by_contra hc; push Not at hc; nlinarith

theorem mw10_real (u b : ℝ) (hP : (2 / 37 ≤ u ∧ u ≤ 1 / 15 ∧ b = 2 - 16 * u) ∨ (1 / 15 ≤ u ∧ u ≤ 1 / 7 ∧ b = 1 - u) ∨ (2 / 7 < u ∧ u ≤ 1 / 3 ∧ b = 2 - 4 * u) ∨
    (1 / 3 ≤ u ∧ u ≤ 1 ∧ b = 1 - u)) :
    (-1 * (2 - 4 * u - b) * (2 - 8 * u - b) ≤ 0 ∧ (2 - 2 * u - b) * (2 - 16 * u - b) ≤ 0) ∧ (1 - u - b) * (1.2 - 1.2 * u - b) ≤ 0 := by
  norm_num
  rcases hP with ⟨h1, h2, rfl⟩ | ⟨h1, h2, rfl⟩ | ⟨h1, h2, rfl⟩ | ⟨h1, h2, rfl⟩ <;> refine ⟨⟨?_, ?_⟩, ?_⟩ <;> nlinarith

/-- C169: the exact front of MW10. -/
theorem C169_mw10 (n : ℕ) (hn : 2 ≤ n) (f : Fin 2 → ℝ) :
    ParetoPoint (fun x => Cube n 0 1 x ∧ ∀ i, mw10Con (mw10 n x) i ≤ 0) (mw10 n) f ↔ MW10Front f := by
  refine antichain_front _ _ _ ?_ ?_ ?_ f
  · rintro f ⟨h0, hP⟩
    set a := f 0 with ha
    set b := f 1 with hb
    set u := a ^ 2 with hu
    have hu0 : 0 ≤ u := sq_nonneg a
    have hb0 : 0 ≤ b := by rcases hP with h | h | h | h <;> linarith
    have hbu : 1 - u ≤ b := by rcases hP with h | h | h | h <;> linarith
    have hb2 : b ≤ 1.2 := by norm_num; rcases hP with h | h | h | h <;> linarith
    have hu1 : u ≤ 1 := by rcases hP with h | h | h | h <;> linarith
    set r := √(b ^ 2 + 4 * u) with hr
    have hrr : r * r = b ^ 2 + 4 * u := Real.mul_self_sqrt (by positivity)
    have hr0 : 0 ≤ r := Real.sqrt_nonneg _
    have hr2 : 2 - b ≤ r := Real.le_sqrt_of_sq_le (by nlinarith)
    have hr3 : r ≤ 3 := by rw [hr, Real.sqrt_le_left (by norm_num)]; norm_num at hb2; nlinarith
    set g := (b + r) / 2 with hg
    have hg1 : 1 ≤ g := by rw [hg]; linarith
    have hgq : g * g - b * g = u := by rw [hg]; nlinarith
    obtain ⟨XM, hX, hgX⟩ := mwG2_onto n hn g hg1 (by rw [hg]; norm_num at hb2; linarith)
    have hag : a ≤ g := by
      have : a ^ 2 ≤ g ^ 2 := by rw [← hu]; nlinarith
      exact le_of_sq_le_sq this (by linarith)
    have hg0 : 0 < g := by linarith
    set y := (a / g) ^ (1 / (n : ℝ)) with hy
    have hq0 : 0 ≤ a / g := by positivity
    have hyn : y ^ n = a / g := by
      rw [hy, ← Real.rpow_natCast, ← Real.rpow_mul hq0, one_div_mul_cancel (by exact_mod_cast (by omega : n ≠ 0)), Real.rpow_one]
    have hF : mw10 n (y :: XM) = f := by
      refine fin2_eq ?_ ?_
      · simp only [mw10, List.drop_succ_cons, List.drop_zero, hgX, List.getD_cons_zero, Matrix.cons_val_zero, hyn]
        rw [mul_div_cancel₀ _ hg0.ne']
      · simp only [mw10, List.drop_succ_cons, List.drop_zero, hgX, List.getD_cons_zero, Matrix.cons_val_one, Matrix.cons_val_fin_one, hyn]
        rw [mul_div_cancel₀ _ hg0.ne', div_pow, ← hu, ← hb]
        field_simp
        linarith
    refine ⟨y :: XM, ⟨cube_cons' (by omega) (Real.rpow_nonneg hq0 _) (Real.rpow_le_one hq0 (by rw [div_le_one hg0]; exact hag) (by positivity)) hX, ?_⟩, hF⟩
    rw [hF]
    have hua : ∀ c : ℝ, c * f 0 * f 0 = c * u := fun c => by rw [hu, ha]; ring
    have hua' : f 0 * f 0 = u := by rw [hu, ha]; ring
    obtain ⟨⟨r0, r1⟩, r2⟩ := mw10_real u b hP
    intro i
    fin_cases i
    · show -1 * (2 - 4 * f 0 * f 0 - f 1) * (2 - 8 * f 0 * f 0 - f 1) ≤ 0
      rw [hua, hua, ← hb]; exact r0
    · show (2 - 2 * f 0 * f 0 - f 1) * (2 - 16 * f 0 * f 0 - f 1) ≤ 0
      rw [hua, hua, ← hb]; exact r1
    · show (1 - f 0 * f 0 - f 1) * (1.2 - 1.2 * f 0 * f 0 - f 1) ≤ 0
      rw [hua, hua', ← hb]; exact r2
  · rintro x ⟨hx, hc⟩
    obtain ⟨x0, x1⟩ := cube_getD (by omega) hx
    have hg := mwG2_ge n 2 (x.drop 1)
    have ha : 0 ≤ mw10 n x 0 := by simp only [mw10, Matrix.cons_val_zero]; exact mul_nonneg (by linarith) (pow_nonneg x0 n)
    have hq : mw10 n x 0 / mwG2 n 2 (x.drop 1) = x.getD 0 0 ^ n := by
      simp only [mw10, Matrix.cons_val_zero]; rw [mul_div_cancel_left₀ _ (by linarith)]
    have hp1 : x.getD 0 0 ^ n ≤ 1 := pow_le_one₀ x0 x1
    have hp0 : 0 ≤ x.getD 0 0 ^ n := pow_nonneg x0 n
    have hb' : mw10 n x 1 = mwG2 n 2 (x.drop 1) * (1 - (x.getD 0 0 ^ n) ^ 2) := by
      rw [← hq]; simp [mw10]
    have ha' : mw10 n x 0 = mwG2 n 2 (x.drop 1) * x.getD 0 0 ^ n := by simp [mw10]
    have hb : 0 ≤ mw10 n x 1 := by rw [hb']; apply mul_nonneg (by linarith); nlinarith
    have hbu : 1 - mw10 n x 0 ^ 2 ≤ mw10 n x 1 := by
      rw [ha', hb']
      set g := mwG2 n 2 (x.drop 1)
      set p := x.getD 0 0 ^ n
      have : 0 ≤ (g - 1) * (1 + g * p ^ 2) := mul_nonneg (by linarith) (by positivity)
      nlinarith
    have c0 := hc 0
    have c1 := hc 1
    have c2 := hc 2
    generalize mw10 n x = F at *
    clear hq hb' ha'
    simp only [mw10Con, Matrix.cons_val_zero, Matrix.cons_val_one, Matrix.cons_val] at c0 c1 c2
    set u := F 0 ^ 2 with hu
    have hua : ∀ c : ℝ, c * F 0 * F 0 = c * u := fun c => by rw [hu]; ring
    have hua' : F 0 * F 0 = u := by rw [hu]; ring
    rw [hua, hua] at c0 c1
    rw [hua, hua'] at c2
    norm_num at c2
    have hu0 : 0 ≤ u := sq_nonneg _
    have hu1 : u ≤ 1 := by
      by_contra hcon; push Not at hcon
      nlinarith [mul_pos (show 0 < -(1 - u - F 1) by linarith) (show 0 < -(6 / 5 - 6 / 5 * u - F 1) by linarith)]
    have hb2 := (prod_nonpos c2 (by linarith)).2
    have hb3 : 2 - 16 * u ≤ F 1 := by
      have := (prod_nonpos (by rw [mul_comm]; exact c1) (by linarith : 2 - 16 * u - F 1 ≤ 2 - 2 * u - F 1)).1
      linarith
    have hb4 : 0 ≤ 2 - 8 * u - F 1 ∨ 2 - 4 * u - F 1 ≤ 0 := prod_nonneg' (by nlinarith) (by linarith)
    have mk : ∀ v : ℝ, v ≤ F 1 → (MW10Front ![F 0, v]) → ∃ z, MW10Front z ∧ ∀ i, z i ≤ F i := fun v hv hP => ⟨_, hP, fun i => by
      fin_cases i
      · simp
      · simpa using hv⟩
    by_cases k1 : u ≤ 1 / 15
    · exact mk (2 - 16 * u) hb3 ⟨by simpa using ha, Or.inl ⟨by simp [← hu]; linarith, by simp [← hu]; linarith, by simp [← hu]⟩⟩
    by_cases k2 : u ≤ 1 / 7
    · exact mk (1 - u) hbu ⟨by simpa using ha, Or.inr (Or.inl ⟨by simp [← hu]; linarith, by simp [← hu]; linarith, by simp [← hu]⟩)⟩
    push Not at k1 k2
    have hb5 : 2 - 4 * u ≤ F 1 := by rcases hb4 with h | h <;> linarith
    by_cases k3 : u ≤ 2 / 7
    · have hs : √(1 / 7) ^ 2 = (1 / 7 : ℝ) := Real.sq_sqrt (by norm_num)
      have hs0 := Real.sqrt_nonneg (1 / 7 : ℝ)
      refine ⟨![√(1 / 7), 6 / 7], ⟨hs0, Or.inr (Or.inl ?_)⟩, ?_⟩
      · simp only [Matrix.cons_val_zero, Matrix.cons_val_one, Matrix.cons_val_fin_one, hs]; norm_num
      · intro i
        fin_cases i
        · show √(1 / 7) ≤ F 0
          refine le_of_sq_le_sq ?_ ha
          rw [hs]; exact k2.le
        · show 6 / 7 ≤ F 1
          linarith
    push Not at k3
    by_cases k4 : u ≤ 1 / 3
    · exact mk (2 - 4 * u) hb5 ⟨by simpa using ha, Or.inr (Or.inr (Or.inl ⟨by simpa [← hu] using k3, by simpa [← hu] using k4, by simp [← hu]⟩))⟩
    · exact mk (1 - u) hbu ⟨by simpa using ha, Or.inr (Or.inr (Or.inr ⟨by simp [← hu]; linarith, by simpa [← hu] using hu1, by simp [← hu]⟩))⟩
  · rintro z f ⟨z0, hz⟩ ⟨f0, hf⟩ hle
    have h0 := hle 0
    have h1 := hle 1
    rcases eq_or_lt_of_le h0 with h | h
    · refine fin2_eq h ?_
      rw [h] at hz
      rcases hz with hz | hz | hz | hz <;> rcases hf with hf | hf | hf | hf <;> linarith
    · exfalso
      have hlt : z 0 ^ 2 < f 0 ^ 2 := by nlinarith
      rcases hz with hz | hz | hz | hz <;> rcases hf with hf | hf | hf | hf <;> linarith

/-! ### MW11 -/

/-- The front of MW11: four arcs and the point `(1, 1)`. -/
def MW11Front (f : Fin 2 → ℝ) : Prop :=
  0 ≤ f 0 ∧ ((93 / 677 ≤ f 0 ^ 2 ∧ f 0 ^ 2 ≤ 69 / 341 ∧ f 1 = 3 - 7 * f 0 ^ 2) ∨ (69 / 341 ≤ f 0 ^ 2 ∧ f 0 ^ 2 ≤ 69 / 91 ∧ f 1 = 1.62 - 0.18 * f 0 ^ 2) ∨
    (f 0 ^ 2 = 1 ∧ f 1 = 1) ∨ (15 / 7 ≤ f 0 ^ 2 ∧ f 0 ^ 2 ≤ 79 / 31 ∧ f 1 = 3 - f 0 ^ 2) ∨
    (79 / 31 ≤ f 0 ^ 2 ∧ f 0 ^ 2 ≤ 158 / 37 ∧ f 1 = 0.63 - 0.07 * f 0 ^ 2))

theorem mw11_real (u b : ℝ) (hP : (93 / 677 ≤ u ∧ u ≤ 69 / 341 ∧ b = 3 - 7 * u) ∨ (69 / 341 ≤ u ∧ u ≤ 69 / 91 ∧ b = 81 / 50 - 9 / 50 * u) ∨ (u = 1 ∧ b = 1) ∨
    (15 / 7 ≤ u ∧ u ≤ 79 / 31 ∧ b = 3 - u) ∨ (79 / 31 ≤ u ∧ u ≤ 158 / 37 ∧ b = 63 / 100 - 7 / 100 * u)) :
    (-1 * (3 - u - b) * (3 - 2 * u - b) ≤ 0 ∧ (3 - 5 / 8 * u - b) * (3 - 7 * u - b) ≤ 0) ∧
    (-1 * (81 / 50 - 9 / 50 * u - b) * (9 / 8 - 1 / 8 * u - b) ≤ 0 ∧ (207 / 100 - 23 / 100 * u - b) * (63 / 100 - 7 / 100 * u - b) ≤ 0) := by
  have m : ∀ p q : ℝ, 0 ≤ p → 0 ≤ q → -1 * p * q ≤ 0 := fun p q hp hq => by nlinarith [mul_nonneg hp hq]
  have m' : ∀ p q : ℝ, p ≤ 0 → q ≤ 0 → -1 * p * q ≤ 0 := fun p q hp hq => by nlinarith [mul_nonneg_of_nonpos_of_nonpos hp hq]
  have k : ∀ p q : ℝ, 0 ≤ p → q ≤ 0 → p * q ≤ 0 := fun p q hp hq => mul_nonpos_of_nonneg_of_nonpos hp hq
  rcases hP with ⟨h1, h2, rfl⟩ | ⟨h1, h2, rfl⟩ | ⟨rfl, rfl⟩ | ⟨h1, h2, rfl⟩ | ⟨h1, h2, rfl⟩
  · exact ⟨⟨m _ _ (by linarith) (by linarith), k _ _ (by linarith) (by linarith)⟩, m' _ _ (by linarith) (by linarith), k _ _ (by linarith) (by linarith)⟩
  · exact ⟨⟨m _ _ (by linarith) (by linarith), k _ _ (by linarith) (by linarith)⟩, m' _ _ (by linarith) (by linarith), k _ _ (by linarith) (by linarith)⟩
  · norm_num
  · exact ⟨⟨m' _ _ (by linarith) (by linarith), k _ _ (by linarith) (by linarith)⟩, m _ _ (by linarith) (by linarith), k _ _ (by linarith) (by linarith)⟩
  · exact ⟨⟨m' _ _ (by linarith) (by linarith), k _ _ (by linarith) (by linarith)⟩, m _ _ (by linarith) (by linarith), k _ _ (by linarith) (by linarith)⟩

theorem mw11_size (u b : ℝ) (hP : (93 / 677 ≤ u ∧ u ≤ 69 / 341 ∧ b = 3 - 7 * u) ∨ (69 / 341 ≤ u ∧ u ≤ 69 / 91 ∧ b = 81 / 50 - 9 / 50 * u) ∨ (u = 1 ∧ b = 1) ∨
    (15 / 7 ≤ u ∧ u ≤ 79 / 31 ∧ b = 3 - u) ∨ (79 / 31 ≤ u ∧ u ≤ 158 / 37 ∧ b = 63 / 100 - 7 / 100 * u)) : 0 ≤ b ∧ 2 ≤ u + b ^ 2 ∧ u + b ^ 2 ≤ 5 := by
  rcases hP with ⟨h1, h2, rfl⟩ | ⟨h1, h2, rfl⟩ | ⟨rfl, rfl⟩ | ⟨h1, h2, rfl⟩ | ⟨h1, h2, rfl⟩
  · exact ⟨by linarith, by nlinarith, by nlinarith⟩
  · exact ⟨by linarith, by nlinarith, by nlinarith⟩
  · norm_num
  · exact ⟨by linarith, by nlinarith, by nlinarith⟩
  · exact ⟨by linarith, by nlinarith, by nlinarith⟩

set_option maxHeartbeats 1000000 in
/-- C169: the exact front of MW11. -/
theorem C169_mw11 (n : ℕ) (hn : 2 ≤ n) (f : Fin 2 → ℝ) :
    ParetoPoint (fun x => Cube n 0 (√2) x ∧ ∀ i, mw11Con (mw11 x) i ≤ 0) mw11 f ↔ MW11Front f := by
  refine antichain_front _ _ _ ?_ ?_ ?_ f
  · rintro f ⟨h0, hP⟩
    set a := f 0 with ha
    set b := f 1 with hb
    set u := a ^ 2 with hu
    have hu0 : 0 ≤ u := sq_nonneg a
    norm_num at hP
    obtain ⟨hb0, hlow, hupp⟩ := mw11_size u b hP
    set g := √((u + b ^ 2) / 2) with hg
    have hgg : g * g = (u + b ^ 2) / 2 := Real.mul_self_sqrt (by positivity)
    have hg1 : 1 ≤ g := Real.le_sqrt_of_sq_le (by linarith)
    have hg2 : g ≤ 1.6 := by rw [hg, Real.sqrt_le_left (by norm_num)]; norm_num; linarith
    have hg0 : 0 < g := by linarith
    have h22 : √2 * √2 = (2 : ℝ) := Real.mul_self_sqrt (by norm_num)
    have hag : a / g ≤ √2 := by
      rw [div_le_iff₀ hg0]
      refine le_of_sq_le_sq ?_ (by positivity)
      rw [mul_pow, sq (√2), h22, sq g, hgg, ← hu]; nlinarith [sq_nonneg b]
    obtain ⟨l, hX, hgX⟩ := mwG3_onto n hn (√2) (a / g) g (Or.inr rfl) (by positivity) hag hg1 hg2
    have hF : mw11 ((a / g) :: l) = f := by
      refine fin2_eq ?_ ?_
      · simp only [mw11, hgX, List.getD_cons_zero, Matrix.cons_val_zero]
        rw [mul_div_cancel₀ _ hg0.ne']
      · simp only [mw11, hgX, List.getD_cons_zero, Matrix.cons_val_one, Matrix.cons_val_fin_one]
        rw [mul_div_cancel₀ _ hg0.ne']
        have e : 2 - (a / g) ^ 2 = (b / g) ^ 2 := by
          rw [div_pow, div_pow, ← hu]; field_simp; nlinarith
        rw [e, Real.sqrt_sq (by positivity), mul_div_cancel₀ _ hg0.ne']
    refine ⟨(a / g) :: l, ⟨hX, ?_⟩, hF⟩
    rw [hF]
    have hua : ∀ c : ℝ, c * f 0 * f 0 = c * u := fun c => by rw [hu, ha]; ring
    have hua' : f 0 * f 0 = u := by rw [hu, ha]; ring
    obtain ⟨⟨r0, r1⟩, r2, r3⟩ := mw11_real u b hP
    intro i
    fin_cases i
    · show -1 * (3 - f 0 * f 0 - f 1) * (3 - 2 * f 0 * f 0 - f 1) ≤ 0
      rw [hua, hua', ← hb]; exact r0
    · show (3 - 0.625 * f 0 * f 0 - f 1) * (3 - 7 * f 0 * f 0 - f 1) ≤ 0
      rw [hua, hua, ← hb]; norm_num; exact r1
    · show -1 * (1.62 - 0.18 * f 0 * f 0 - f 1) * (1.125 - 0.125 * f 0 * f 0 - f 1) ≤ 0
      rw [hua, hua, ← hb]; norm_num at r2 ⊢; exact r2
    · show (2.07 - 0.23 * f 0 * f 0 - f 1) * (0.63 - 0.07 * f 0 * f 0 - f 1) ≤ 0
      rw [hua, hua, ← hb]; norm_num; exact r3
  · rintro x ⟨hx, hc⟩
    obtain ⟨x0, x1⟩ := cube_getD (by omega) hx
    have hg := mwG3_ge x
    have h22 : √2 * √2 = (2 : ℝ) := Real.mul_self_sqrt (by norm_num)
    have ha : 0 ≤ mw11 x 0 := by simp only [mw11, Matrix.cons_val_zero]; exact mul_nonneg (by linarith) x0
    have hb' : mw11 x 1 = mwG3 x * √(2 - x.getD 0 0 ^ 2) := by
      simp only [mw11, Matrix.cons_val_one, Matrix.cons_val_fin_one]; rw [mul_div_cancel_left₀ _ (by linarith)]
    have ha' : mw11 x 0 = mwG3 x * x.getD 0 0 := by simp [mw11]
    have hb : 0 ≤ mw11 x 1 := by rw [hb']; exact mul_nonneg (by linarith) (Real.sqrt_nonneg _)
    have hcirc : 2 ≤ mw11 x 0 ^ 2 + mw11 x 1 ^ 2 := by
      rw [ha', hb', mul_pow, mul_pow, Real.sq_sqrt (by nlinarith)]
      nlinarith
    have c0 := hc 0
    have c1 := hc 1
    have c2 := hc 2
    have c3 := hc 3
    generalize mw11 x = F at *
    clear hb' ha'
    simp only [mw11Con, Matrix.cons_val_zero, Matrix.cons_val_one, Matrix.cons_val] at c0 c1 c2 c3
    set u := F 0 ^ 2 with hu
    have hua : ∀ c : ℝ, c * F 0 * F 0 = c * u := fun c => by rw [hu]; ring
    have hua' : F 0 * F 0 = u := by rw [hu]; ring
    rw [hua, hua'] at c0
    rw [hua, hua] at c1 c2 c3
    norm_num at c1 c2 c3
    have hu0 : 0 ≤ u := sq_nonneg _
    have d1 := prod_nonpos (by rw [mul_comm]; exact c1) (by linarith : 3 - 7 * u - F 1 ≤ 3 - 5 / 8 * u - F 1)
    have hu9 : u ≤ 24 / 5 := by linarith [d1.2]
    have d3 := prod_nonpos (by rw [mul_comm]; exact c3) (by linarith : 63 / 100 - 7 / 100 * u - F 1 ≤ 207 / 100 - 23 / 100 * u - F 1)
    have d0 : 0 ≤ 3 - 2 * u - F 1 ∨ 3 - u - F 1 ≤ 0 := prod_nonneg' (by nlinarith) (by linarith)
    have d2 : 0 ≤ 9 / 8 - 1 / 8 * u - F 1 ∨ 81 / 50 - 9 / 50 * u - F 1 ≤ 0 := prod_nonneg' (by nlinarith) (by linarith)
    have mk : ∀ v : ℝ, v ≤ F 1 → (MW11Front ![F 0, v]) → ∃ z, MW11Front z ∧ ∀ i, z i ≤ F i := fun v hv hP => ⟨_, hP, fun i => by
      fin_cases i
      · simp
      · simpa using hv⟩
    have one : 1 ≤ u → 1 ≤ F 1 → ∃ z, MW11Front z ∧ ∀ i, z i ≤ F i := fun hu1 hb1 =>
      ⟨![1, 1], ⟨by simp, Or.inr (Or.inr (Or.inl (by simp)))⟩, fun i => by
        fin_cases i
        · show (1 : ℝ) ≤ F 0
          refine le_of_sq_le_sq ?_ ha
          rw [← hu]; linarith
        · simpa using hb1⟩
    by_cases k1 : u < 1
    · have hbig : 9 / 8 - 1 / 8 * u < F 1 := by
        by_contra hcon; push Not at hcon
        nlinarith [mul_pos (show 0 < 1 - u by linarith) (show 0 < 47 + u by linarith)]
      have e2 : 81 / 50 - 9 / 50 * u ≤ F 1 := by rcases d2 with h | h <;> linarith
      have e0 : F 1 ≤ 3 - 2 * u := by rcases d0 with h | h <;> linarith [d3.2]
      by_cases k2 : u ≤ 69 / 341
      · exact mk (3 - 7 * u) (by linarith [d1.1]) ⟨by simpa using ha, Or.inl ⟨by simp [← hu]; linarith [d1.1, d3.2], by simpa [← hu] using k2, by simp [← hu]⟩⟩
      · push Not at k2
        exact mk (1.62 - 0.18 * u) (by norm_num; linarith) ⟨by simpa using ha, Or.inr (Or.inl ⟨by simpa [← hu] using k2.le, by simp [← hu]; linarith, by simp [← hu]⟩)⟩
    push Not at k1
    by_cases kb : 1 ≤ F 1
    · exact one k1 kb
    push Not at kb
    have e0 : 3 - u ≤ F 1 := by
      rcases d0 with h | h
      · exfalso
        rcases eq_or_lt_of_le k1 with h1 | h1
        · nlinarith
        · by_cases h2 : u < 7 / 4
          · nlinarith [mul_pos (show 0 < u - 1 by linarith) (show 0 < 7 - 4 * u by linarith)]
          · linarith
      · linarith
    have e2 : F 1 ≤ 9 / 8 - 1 / 8 * u := by
      rcases d2 with h | h
      · linarith
      · exfalso; linarith [d3.2, d1.2]
    by_cases k3 : u ≤ 79 / 31
    · exact mk (3 - u) e0 ⟨by simpa using ha, Or.inr (Or.inr (Or.inr (Or.inl ⟨by simp [← hu]; linarith, by simpa [← hu] using k3, by simp [← hu]⟩)))⟩
    · push Not at k3
      exact mk (0.63 - 0.07 * u) (by norm_num; linarith [d3.1]) ⟨by simpa using ha,
        Or.inr (Or.inr (Or.inr (Or.inr ⟨by simpa [← hu] using k3.le, by simp [← hu]; linarith [d1.2, d3.1], by simp [← hu]⟩)))⟩
  · rintro z f ⟨z0, hz⟩ ⟨f0, hf⟩ hle
    have h0 := hle 0
    have h1 := hle 1
    rcases eq_or_lt_of_le h0 with h | h
    · refine fin2_eq h ?_
      rw [h] at hz
      generalize f 0 ^ 2 = U at hz hf
      norm_num at hz hf
      rcases hz with hz | hz | hz | hz | hz <;> rcases hf with hf | hf | hf | hf | hf <;> linarith
    · exfalso
      have hlt : z 0 ^ 2 < f 0 ^ 2 := by nlinarith
      generalize f 0 ^ 2 = U at hlt hf
      generalize z 0 ^ 2 = V at hlt hz
      norm_num at hz hf
      rcases hz with hz | hz | hz | hz | hz <;> rcases hf with hf | hf | hf | hf | hf <;> linarith

/-! ### MW5 and MW7 in polar coordinates -/

theorem polar_of (g y : ℝ) (hg : 1 ≤ g) (h0 : 0 ≤ y) (h1 : y ≤ 1) :
    ∃ θ, (0 ≤ θ ∧ θ ≤ Real.pi / 2) ∧ (![g * y, g * √(1 - (g * y / g) ^ 2)] : Fin 2 → ℝ) = ![g * Real.cos θ, g * Real.sin θ] := by
  refine ⟨Real.arccos y, ⟨Real.arccos_nonneg _, Real.arccos_le_pi_div_two.2 h0⟩, ?_⟩
  rw [Real.cos_arccos (by linarith) h1, Real.sin_arccos, mul_div_cancel_left₀ _ (by linarith)]

theorem polar_norm (r θ : ℝ) : (r * Real.cos θ) ^ 2 + (r * Real.sin θ) ^ 2 = r ^ 2 := by
  have := Real.sin_sq_add_cos_sq θ
  nlinarith

/-- C169: the feasible objective vectors of MW5 in polar coordinates. -/
theorem C169_mw5 (n : ℕ) (hn : 3 ≤ n) (f : Fin 2 → ℝ) :
    (∃ x, (Cube n 0 1 x ∧ ∀ i, mw5Con (mw5 n x) i ≤ 0) ∧ mw5 n x = f) ↔
      ∃ r θ, (0 ≤ θ ∧ θ ≤ Real.pi / 2) ∧ f = ![r * Real.cos θ, r * Real.sin θ] ∧ r ≤ 1.7 - 0.2 * Real.sin (2 * θ) ∧
        1 + max (0.5 * Real.sin (6 * (Real.pi / 2 - |2 * θ - Real.pi / 2|) ^ 3)) (-(0.45 * Real.sin (6 * (Real.pi / 2 - |2 * θ - Real.pi / 2|) ^ 3))) ≤ r := by
  have con : ∀ r θ : ℝ, 1 ≤ r → 0 ≤ θ → θ ≤ Real.pi / 2 → ((∀ i, mw5Con ![r * Real.cos θ, r * Real.sin θ] i ≤ 0) ↔ r ≤ 1.7 - 0.2 * Real.sin (2 * θ) ∧
      1 + max (0.5 * Real.sin (6 * (Real.pi / 2 - |2 * θ - Real.pi / 2|) ^ 3)) (-(0.45 * Real.sin (6 * (Real.pi / 2 - |2 * θ - Real.pi / 2|) ^ 3))) ≤ r) := by
    intro r θ hr h0 h1
    have et : 0.5 * Real.pi - 2 * |θ - 0.25 * Real.pi| = Real.pi / 2 - |2 * θ - Real.pi / 2| := by
      have : 2 * θ - Real.pi / 2 = 2 * (θ - 0.25 * Real.pi) := by norm_num; ring
      rw [this, abs_mul, abs_two]; norm_num; ring
    simp only [mw5Con, mwAtan_polar r θ (by linarith) h0 h1, Fin.forall_fin_succ, Matrix.cons_val_zero, Matrix.cons_val_one, Matrix.cons_val_succ, et,
      Matrix.cons_val_fin_one, Fin.succ_zero_eq_one, sub_sub, polar_norm, Fin.succ_one_eq_two, Matrix.cons_val, IsEmpty.forall_iff, and_true]
    set s := Real.sin (6 * (Real.pi / 2 - |2 * θ - Real.pi / 2|) ^ 3)
    have s1 := Real.sin_le_one (6 * (Real.pi / 2 - |2 * θ - Real.pi / 2|) ^ 3)
    have s2 := Real.neg_one_le_sin (6 * (Real.pi / 2 - |2 * θ - Real.pi / 2|) ^ 3)
    have s3 := Real.sin_le_one (2 * θ)
    have s4 := Real.neg_one_le_sin (2 * θ)
    rw [sub_nonpos, sub_nonpos, sub_nonpos, sq_le_sq₀ (by linarith) (by norm_num; linarith), sq_le_sq₀ (by norm_num; linarith) (by linarith),
      sq_le_sq₀ (by norm_num; linarith) (by linarith)]
    have e : 1 + max (0.5 * s) (-(0.45 * s)) ≤ r ↔ 0.5 * s ≤ r - 1 ∧ -(0.45 * s) ≤ r - 1 := by rw [← max_le_iff]; constructor <;> intro h <;> linarith
    rw [e]
    refine and_congr_right fun _ => ⟨fun h => ⟨by linarith, by linarith⟩, fun h => ⟨by linarith, by linarith⟩⟩
  constructor
  · rintro ⟨x, ⟨hx, hc⟩, rfl⟩
    obtain ⟨x0, x1⟩ := cube_getD (by omega) hx
    obtain ⟨θ, hθ, he⟩ := polar_of (mwG1 n 2 (x.drop 1)) (x.getD 0 0) (mwG1_ge n 2 _) x0 x1
    have he' : mw5 n x = ![mwG1 n 2 (x.drop 1) * Real.cos θ, mwG1 n 2 (x.drop 1) * Real.sin θ] := he
    rw [he'] at hc ⊢
    exact ⟨_, θ, hθ, rfl, (con _ θ (mwG1_ge n 2 _) hθ.1 hθ.2).1 hc⟩
  · rintro ⟨r, θ, hθ, rfl, h1, h2⟩
    have hr1 : 1 ≤ r := by
      rcases le_total 0 (Real.sin (6 * (Real.pi / 2 - |2 * θ - Real.pi / 2|) ^ 3)) with h | h
      · have := le_max_left (0.5 * Real.sin (6 * (Real.pi / 2 - |2 * θ - Real.pi / 2|) ^ 3)) (-(0.45 * Real.sin (6 * (Real.pi / 2 - |2 * θ - Real.pi / 2|) ^ 3)))
        have : (0 : ℝ) ≤ 0.5 * Real.sin (6 * (Real.pi / 2 - |2 * θ - Real.pi / 2|) ^ 3) := by positivity
        linarith
      · have := le_max_right (0.5 * Real.sin (6 * (Real.pi / 2 - |2 * θ - Real.pi / 2|) ^ 3)) (-(0.45 * Real.sin (6 * (Real.pi / 2 - |2 * θ - Real.pi / 2|) ^ 3)))
        have : (0 : ℝ) ≤ -(0.45 * Real.sin (6 * (Real.pi / 2 - |2 * θ - Real.pi / 2|) ^ 3)) := by norm_num; linarith
        linarith
    have hr2 : r ≤ 2.8 := by have := Real.neg_one_le_sin (2 * θ); norm_num at h1 ⊢; linarith
    obtain ⟨XM, hX, hg⟩ := mwG1_onto n hn r hr1 hr2
    have hc0 : 0 ≤ Real.cos θ := Real.cos_nonneg_of_mem_Icc ⟨by linarith [Real.pi_pos], hθ.2⟩
    have hs0 : 0 ≤ Real.sin θ := Real.sin_nonneg_of_nonneg_of_le_pi hθ.1 (by linarith [Real.pi_pos])
    have hF : mw5 n (Real.cos θ :: XM) = ![r * Real.cos θ, r * Real.sin θ] := by
      simp only [mw5, List.drop_succ_cons, List.drop_zero, hg, List.getD_cons_zero]
      rw [mul_div_cancel_left₀ _ (by linarith), ← Real.sin_sq θ, Real.sqrt_sq hs0]
    exact ⟨Real.cos θ :: XM, ⟨cube_cons' (by omega) hc0 (Real.cos_le_one θ) hX, by rw [hF]; exact (con r θ hr1 hθ.1 hθ.2).2 ⟨h1, h2⟩⟩, hF⟩

/-- C169: the feasible objective vectors of MW7 in polar coordinates. -/
theorem C169_mw7 (n : ℕ) (hn : 2 ≤ n) (f : Fin 2 → ℝ) :
    (∃ x, (Cube n 0 1 x ∧ ∀ i, mw7Con (mw7 x) i ≤ 0) ∧ mw7 x = f) ↔
      ∃ r θ, (0 ≤ θ ∧ θ ≤ Real.pi / 2) ∧ f = ![r * Real.cos θ, r * Real.sin θ] ∧ 1 ≤ r ∧ 1.15 - 0.2 * Real.sin (4 * θ) ^ 8 ≤ r ∧ r ≤ 1.2 + 0.4 * Real.sin (4 * θ) ^ 16 := by
  have con : ∀ r θ : ℝ, 1 ≤ r → 0 ≤ θ → θ ≤ Real.pi / 2 → ((∀ i, mw7Con ![r * Real.cos θ, r * Real.sin θ] i ≤ 0) ↔
      1.15 - 0.2 * Real.sin (4 * θ) ^ 8 ≤ r ∧ r ≤ 1.2 + 0.4 * Real.sin (4 * θ) ^ 16) := by
    intro r θ hr h0 h1
    simp only [mw7Con, mwAtan_polar r θ (by linarith) h0 h1, Fin.forall_fin_two, Matrix.cons_val_zero, Matrix.cons_val_one, Matrix.cons_val_fin_one, sub_sub, polar_norm]
    have a8 : Real.sin (4 * θ) ^ 8 ≤ 1 := by
      have e : Real.sin (4 * θ) ^ 8 = (Real.sin (4 * θ) ^ 2) ^ 4 := by ring
      rw [e]; exact pow_le_one₀ (sq_nonneg _) (Real.sin_sq_le_one _)
    have b8 : 0 ≤ Real.sin (4 * θ) ^ 16 := by positivity
    rw [abs_of_nonneg (by positivity), sub_nonpos, sub_nonpos, sq_le_sq₀ (by linarith) (by positivity), sq_le_sq₀ (by norm_num; linarith) (by linarith)]
    exact and_comm
  constructor
  · rintro ⟨x, ⟨hx, hc⟩, rfl⟩
    obtain ⟨x0, x1⟩ := cube_getD (by omega) hx
    obtain ⟨θ, hθ, he⟩ := polar_of (mwG3 x) (x.getD 0 0) (mwG3_ge x) x0 x1
    have he' : mw7 x = ![mwG3 x * Real.cos θ, mwG3 x * Real.sin θ] := he
    rw [he'] at hc ⊢
    exact ⟨_, θ, hθ, rfl, mwG3_ge x, (con _ θ (mwG3_ge x) hθ.1 hθ.2).1 hc⟩
  · rintro ⟨r, θ, hθ, rfl, hr1, h1, h2⟩
    have a16 : Real.sin (4 * θ) ^ 16 ≤ 1 := by
      have e : Real.sin (4 * θ) ^ 16 = (Real.sin (4 * θ) ^ 2) ^ 8 := by ring
      rw [e]; exact pow_le_one₀ (sq_nonneg _) (Real.sin_sq_le_one _)
    have hc0 : 0 ≤ Real.cos θ := Real.cos_nonneg_of_mem_Icc ⟨by linarith [Real.pi_pos], hθ.2⟩
    have hs0 : 0 ≤ Real.sin θ := Real.sin_nonneg_of_nonneg_of_le_pi hθ.1 (by linarith [Real.pi_pos])
    obtain ⟨l, hX, hg⟩ := mwG3_onto n hn 1 (Real.cos θ) r (Or.inl rfl) hc0 (Real.cos_le_one θ) hr1 (by norm_num at h2 ⊢; linarith)
    have hF : mw7 (Real.cos θ :: l) = ![r * Real.cos θ, r * Real.sin θ] := by
      simp only [mw7, hg, List.getD_cons_zero]
      rw [mul_div_cancel_left₀ _ (by linarith), ← Real.sin_sq θ, Real.sqrt_sq hs0]
    exact ⟨Real.cos θ :: l, ⟨hX, by rw [hF]; exact (con r θ hr1 hθ.1 hθ.2).2 ⟨h1, h2⟩⟩, hF⟩

/-- The curves are attained: `(1, 0)` for MW9, `(1, 0)` for MW10, `(1, 1)` for MW11, and a feasible point of MW5 and of MW7. -/
example : MW9Front ![1, 0] ∧ MW10Front ![1, 0] ∧ MW11Front ![1, 1] := by
  refine ⟨⟨by simp, ?_⟩, ⟨by simp, Or.inr (Or.inr (Or.inr (by norm_num)))⟩, ⟨by simp, Or.inr (Or.inr (Or.inl (by simp)))⟩⟩
  simp only [Matrix.cons_val_one, Matrix.cons_val_fin_one, Matrix.cons_val_zero]
  rw [min_eq_right] <;> norm_num

end Props
