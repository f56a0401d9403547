import Verif.Spec.Wfg
import Verif.Props.WFGReduce

/-! # The shapes of the WFG problems, and what makes the solutions without distance Pareto-optimal -/

namespace Props
open Spec Model

/-! ### The decision space -/

theorem scale_get (z : List ℝ) (i : ℕ) : (wfgScale z).getD i 0 = z.getD i 0 * (2 * ((i : ℝ) + 1)) := by
  simp only [wfgScale, List.getD_eq_getElem?_getD, List.getElem?_map, List.getElem?_zipIdx]
  rcases Nat.lt_or_ge i z.length with h | h
  · simp [List.getElem?_eq_getElem h]
  · simp [List.getElem?_eq_none h]

theorem norm_get (z : List ℝ) (i : ℕ) : (wfgNorm z).getD i 0 = z.getD i 0 / (2 * ((i : ℝ) + 1)) := by
  simp only [wfgNorm, List.getD_eq_getElem?_getD, List.getElem?_map, List.getElem?_zipIdx]
  rcases Nat.lt_or_ge i z.length with h | h
  · simp [List.getElem?_eq_getElem h]
  · simp [List.getElem?_eq_none h]

theorem ext_getD {x y : List ℝ} (hl : x.length = y.length) (h : ∀ i, x.getD i 0 = y.getD i 0) : x = y := by
  apply List.ext_getElem hl
  intro i h1 h2
  have := h i
  simpa [List.getD, h1, h2] using this

theorem norm_scale (z : List ℝ) : wfgNorm (wfgScale z) = z := by
  apply ext_getD (by simp [wfgNorm, wfgScale])
  intro i
  rw [norm_get, scale_get, mul_div_cancel_right₀]
  positivity

theorem scale_norm (z : List ℝ) : wfgScale (wfgNorm z) = z := by
  apply ext_getD (by simp [wfgNorm, wfgScale])
  intro i
  rw [scale_get, norm_get, div_mul_cancel₀]
  positivity

theorem cube_iff_getD {n : ℕ} {z : List ℝ} : Cube n 0 1 z ↔ z.length = n ∧ ∀ i < n, Unit01 (z.getD i 0) := by
  constructor
  · intro h
    exact ⟨h.1, fun i _ => getD_unit' h i⟩
  · rintro ⟨h1, h2⟩
    refine ⟨h1, fun v hv => ?_⟩
    obtain ⟨i, hi, rfl⟩ := List.getElem_of_mem hv
    have := h2 i (by omega)
    rwa [List.getD_eq_getElem?_getD, List.getElem?_eq_getElem hi] at this

theorem scale_box {n : ℕ} {z : List ℝ} (h : Cube n 0 1 z) : WfgBox n (wfgScale z) := by
  refine ⟨by simp [wfgScale, h.1], fun i _ => ?_⟩
  have hu := getD_unit' h i
  have hp : (0 : ℝ) ≤ 2 * ((i : ℝ) + 1) := by positivity
  rw [scale_get]
  exact ⟨mul_nonneg hu.1 hp, mul_le_of_le_one_left hp hu.2⟩

theorem norm_cube {n : ℕ} {x : List ℝ} (h : WfgBox n x) : Cube n 0 1 (wfgNorm x) := by
  rw [cube_iff_getD]
  refine ⟨by simp [wfgNorm, h.1], fun i hi => ?_⟩
  obtain ⟨h0, h1⟩ := h.2 i hi
  have hp : (0 : ℝ) < 2 * ((i : ℝ) + 1) := by positivity
  rw [norm_get]
  exact ⟨div_nonneg h0 hp.le, (div_le_one hp).2 h1⟩

/-! ### Post-processing -/

theorem post_ones {t : List ℝ × ℝ} (h : t.2 ≤ 1) : wfgPost (fun _ => 1) t = t := by
  simp only [wfgPost, max_eq_right h]
  have : (t.1.zipIdx.map fun e => 1 * (e.1 - 0.5) + 0.5) = t.1 := by
    have h2 : (fun e : ℝ × ℕ => 1 * (e.1 - 0.5) + 0.5) = Prod.fst := by funext e; ring
    rw [h2, List.zipIdx_map_fst]
  rw [this]

/-- With weights in the unit interval the post-processing keeps the positions in the unit interval. -/
theorem post_range {n : ℕ} {a : ℕ → ℝ} (ha : ∀ i, Unit01 (a i)) {t : List ℝ × ℝ} (h1 : Cube n 0 1 t.1) (h2 : Unit01 t.2) :
    Cube n 0 1 (wfgPost a t).1 := by
  unfold wfgPost
  refine ⟨by simp [h1.1], fun v hv => ?_⟩
  obtain ⟨e, he, rfl⟩ := List.mem_map.1 hv
  have hu := h1.2 e.1 (List.fst_mem_of_mem_zipIdx he)
  have h0 : 0 ≤ max t.2 (a e.2) := le_trans h2.1 (le_max_left _ _)
  have h3 : max t.2 (a e.2) ≤ 1 := max_le h2.2 (ha _).2
  constructor <;> norm_num <;> nlinarith [hu.1, hu.2]

/-! ### Shapes -/

theorem wfgShape_eq {c s : ℝ → ℝ} (hc : ∀ v, Unit01 v → Unit01 (c v) ∧ Unit01 (s v)) {L : ℕ} {X : List ℝ} (hX : Cube L 0 1 X)
    (i : ℕ) (hi : i ≤ L) : wfgShape c s X (i + 1) = dtlzShape c s X i ∧ Unit01 (dtlzShape c s X i) := by
  have hu : Unit01 (dtlzShape c s X i) := by
    unfold dtlzShape
    have hp : Unit01 ((X.take (X.length - i)).map c).prod := by
      have : ∀ Y : List ℝ, (∀ v ∈ Y, Unit01 v) → Unit01 (Y.map c).prod := by
        intro Y hY
        induction Y with
        | nil => simp [Unit01]
        | cons a Y ih =>
          have h1 := (hc a (hY a List.mem_cons_self)).1
          have h2 := ih fun v hv => hY v (List.mem_cons_of_mem _ hv)
          rw [List.map_cons, List.prod_cons]
          exact ⟨mul_nonneg h1.1 h2.1, mul_le_one₀ h1.2 h2.1 h2.2⟩
      exact this _ fun v hv => hX.2 v (List.mem_of_mem_take hv)
    have hs : Unit01 (if 0 < i then s (X.getD (X.length - i) 0) else 1) := by
      split
      · exact (hc _ (getD_unit' hX _)).2
      · simp [Unit01]
    exact ⟨mul_nonneg hp.1 hs.1, mul_le_one₀ hp.2 hs.1 hs.2⟩
  refine ⟨?_, hu⟩
  have he : (if i + 1 = 1 then (X.map c).prod
      else if 1 < i + 1 ∧ i + 1 ≤ X.length then ((X.take (X.length - (i + 1) + 1)).map c).prod * s (X.getD (X.length - (i + 1) + 1) 0)
      else s (X.getD 0 0)) = dtlzShape c s X i := by
    unfold dtlzShape
    rcases Nat.eq_zero_or_pos i with h0 | h0
    · subst h0; simp
    · rw [if_neg (by omega), if_pos h0]
      rcases Nat.lt_or_ge i L with h1 | h1
      · rw [if_pos ⟨by omega, by rw [hX.1]; omega⟩]
        have : X.length - (i + 1) + 1 = X.length - i := by rw [hX.1]; omega
        rw [this]
      · rw [if_neg (by rw [hX.1]; omega)]
        have : X.length - i = 0 := by rw [hX.1]; omega
        rw [this]; simp
  unfold wfgShape
  rw [he, correct01_unit hu]

theorem quarter {v : ℝ} (hv : Unit01 v) : 0 ≤ 0.5 * v * Real.pi ∧ 0.5 * v * Real.pi ≤ Real.pi / 2 := by
  have hpi := Real.pi_pos
  have h0 := hv.1
  have h1 := hv.2
  constructor
  · positivity
  · nlinarith

theorem sin_cos_unit {v : ℝ} (hv : Unit01 v) : Unit01 (Real.sin (0.5 * v * Real.pi)) ∧ Unit01 (Real.cos (0.5 * v * Real.pi)) := by
  have hpi := Real.pi_pos
  obtain ⟨h0, h1⟩ := quarter hv
  exact ⟨⟨Real.sin_nonneg_of_nonneg_of_le_pi h0 (by linarith), Real.sin_le_one _⟩,
    ⟨Real.cos_nonneg_of_neg_pi_div_two_le_of_le (by linarith) h1, Real.cos_le_one _⟩⟩

theorem concave_polar : Polar (fun v => Real.sin (0.5 * v * Real.pi)) (fun v => Real.cos (0.5 * v * Real.pi)) 2 := by
  have hpi := Real.pi_pos
  refine ⟨by norm_num, fun v hv => ⟨(sin_cos_unit hv).1.1, (sin_cos_unit hv).2.1, Real.sin_sq_add_cos_sq _⟩, fun w hw => ?_⟩
  refine ⟨2 * Real.arccos w / Real.pi, ⟨div_nonneg (mul_nonneg (by norm_num) (Real.arccos_nonneg w)) hpi.le, ?_⟩, ?_⟩
  · rw [div_le_one hpi]
    have := Real.arccos_le_pi_div_two.2 hw.1
    linarith
  · rw [show 0.5 * (2 * Real.arccos w / Real.pi) * Real.pi = Real.arccos w by field_simp; ring]
    exact Real.cos_arccos (by linarith [hw.1]) hw.2

/-- No entry of one vector of shapes can be below the other one without another above. -/
def ShapeAnti (m : ℕ) (h : List ℝ → ℕ → ℝ) : Prop :=
  ∀ X Y, Cube (m - 1) 0 1 X → Cube (m - 1) 0 1 Y → (∀ i < m, h X i ≤ h Y i) → ∀ i < m, h X i = h Y i

theorem anti_polar {c s : ℝ → ℝ} {p m : ℕ} (hm : 2 ≤ m) (H : Polar c s p) : ShapeAnti m (dtlzShape c s) := by
  intro X Y hX hY hle i hi
  have hs : ∀ Z, Cube (m - 1) 0 1 Z → ∑ i ∈ Finset.range m, dtlzShape c s Z i ^ p = 1 := by
    intro Z hZ
    have := dtlzShape_sum c s p Z fun v hv => (H.circle v (hZ.2 v hv)).2.2
    rwa [hZ.1, show m - 1 + 1 = m by omega] at this
  have h0 : ∀ i < m, 0 ≤ dtlzShape c s X i := fun i hi =>
    dtlzShape_nonneg c s X (fun v hv => ⟨(H.circle v (hX.2 v hv)).1, (H.circle v (hX.2 v hv)).2.1⟩) i (by rw [hX.1]; omega)
  have h0' : ∀ i < m, 0 ≤ dtlzShape c s Y i := fun i hi =>
    dtlzShape_nonneg c s Y (fun v hv => ⟨(H.circle v (hY.2 v hv)).1, (H.circle v (hY.2 v hv)).2.1⟩) i (by rw [hY.1]; omega)
  have he : ∀ i ∈ Finset.range m, dtlzShape c s X i ^ p = dtlzShape c s Y i ^ p := by
    rw [← Finset.sum_eq_sum_iff_of_le, hs X hX, hs Y hY]
    intro i hi
    rw [Finset.mem_range] at hi
    exact pow_le_pow_left₀ (h0 i hi) (hle i hi) p
  exact (pow_left_inj₀ (h0 i hi) (h0' i hi) H.pos).1 (he i (Finset.mem_range.2 hi))

/-! ### The convex shape -/

theorem convex_chain {c s : ℝ → ℝ} (hc : ∀ v, Unit01 v → Unit01 (c v) ∧ Unit01 (s v)) (hcm : ∀ u v, Unit01 u → Unit01 v → u < v → c u < c v)
    (hsm : ∀ u v, Unit01 u → Unit01 v → u < v → s v < s u) (hs0 : s 0 = 1) : ∀ (L : ℕ) (X Y : List ℝ) (a b : ℝ), Cube L 0 1 X → Cube L 0 1 Y →
    0 ≤ b → b ≤ a → (∀ i ≤ L, a * dtlzShape c s X i ≤ b * dtlzShape c s Y i) → a = b ∧ ∀ i ≤ L, a * dtlzShape c s X i = b * dtlzShape c s Y i
  | 0, X, Y, a, b, hX, hY, hb, hab, h => by
    have h1 := List.length_eq_zero_iff.1 hX.1
    have h2 := List.length_eq_zero_iff.1 hY.1
    subst h1; subst h2
    have := h 0 le_rfl
    have h1 : dtlzShape c s [] 0 = 1 := by simp [dtlzShape]
    rw [h1, mul_one, mul_one] at this
    have he : a = b := le_antisymm this hab
    exact ⟨he, fun i hi => by rw [he]⟩
  | L + 1, X, Y, a, b, hX, hY, hb, hab, h => by
    obtain ⟨x, X, rfl⟩ : ∃ x X', X = x :: X' := by
      cases X with
      | nil => have := hX.1; simp at this
      | cons x X => exact ⟨x, X, rfl⟩
    obtain ⟨y, Y, rfl⟩ : ∃ x X', Y = x :: X' := by
      cases Y with
      | nil => have := hY.1; simp at this
      | cons x X => exact ⟨x, X, rfl⟩
    have hX' : Cube L 0 1 X := ⟨by simpa using hX.1, fun v hv => hX.2 v (List.mem_cons_of_mem _ hv)⟩
    have hY' : Cube L 0 1 Y := ⟨by simpa using hY.1, fun v hv => hY.2 v (List.mem_cons_of_mem _ hv)⟩
    have hx : Unit01 x := hX.2 x List.mem_cons_self
    have hy : Unit01 y := hY.2 y List.mem_cons_self
    rcases eq_or_lt_of_le (hb.trans hab) with ha | ha
    · have hb0 : b = 0 := by linarith
      exact ⟨by linarith, fun i hi => by rw [hb0, ← ha]; simp⟩
    have hlast := h (L + 1) le_rfl
    have e1 : dtlzShape c s (x :: X) (L + 1) = s x := by have := dtlzShape_last c s x X; rwa [hX'.1] at this
    have e2 : dtlzShape c s (y :: Y) (L + 1) = s y := by have := dtlzShape_last c s y Y; rwa [hY'.1] at this
    rw [e1, e2] at hlast
    have hsxy : s x ≤ s y := by
      have : a * s x ≤ a * s y := hlast.trans (mul_le_mul_of_nonneg_right hab (hc y hy).2.1)
      exact le_of_mul_le_mul_left this ha
    have hyx : y ≤ x := by
      by_contra hlt
      exact absurd (hsm x y hx hy (not_le.1 hlt)) (not_lt.2 hsxy)
    have hcyx : c y ≤ c x := by
      rcases eq_or_lt_of_le hyx with he | he
      · rw [he]
      · exact (hcm y x hy hx he).le
    have hcons : ∀ i ≤ L, dtlzShape c s (x :: X) i = c x * dtlzShape c s X i ∧ dtlzShape c s (y :: Y) i = c y * dtlzShape c s Y i := fun i hi =>
      ⟨dtlzShape_cons c s x X i (by rw [hX'.1]; exact hi), dtlzShape_cons c s y Y i (by rw [hY'.1]; exact hi)⟩
    obtain ⟨h1, h2⟩ := convex_chain hc hcm hsm hs0 L X Y (a * c x) (b * c y) hX' hY' (mul_nonneg hb (hc y hy).1.1)
      (mul_le_mul hab hcyx (hc y hy).1.1 ha.le) (fun i hi => by
        have := h i (by omega)
        rw [(hcons i hi).1, (hcons i hi).2] at this
        rw [mul_assoc, mul_assoc]; exact this)
    have hfin : a = b ∧ x = y := by
      rcases eq_or_lt_of_le (hc x hx).1.1 with h3 | h3
      · have hx0 : x = 0 := by
          by_contra hne
          have hlt : c 0 < c x := hcm 0 x ⟨le_rfl, zero_le_one⟩ hx (lt_of_le_of_ne hx.1 (Ne.symm hne))
          have := (hc 0 ⟨le_rfl, zero_le_one⟩).1.1
          linarith
        have hy0 : y = 0 := le_antisymm (by rw [← hx0]; exact hyx) hy.1
        rw [hx0, hy0, hs0, mul_one, mul_one] at hlast
        exact ⟨le_antisymm hlast hab, by rw [hx0, hy0]⟩
      · have h4 : b * c y ≤ b * c x := mul_le_mul_of_nonneg_left hcyx hb
        have h5 : b * c x ≤ a * c x := mul_le_mul_of_nonneg_right hab h3.le
        have h6 : b * c x = a * c x := by linarith
        have h7 : b = a := mul_right_cancel₀ h3.ne' h6
        refine ⟨h7.symm, ?_⟩
        have h8 : c x = c y := by
          rw [h7] at h1
          exact mul_left_cancel₀ ha.ne' h1
        rcases eq_or_lt_of_le hyx with he | he
        · exact he.symm
        · have := hcm y x hy hx he; linarith
    refine ⟨hfin.1, fun i hi => ?_⟩
    rcases Nat.lt_or_ge L i with h3 | h3
    · have : i = L + 1 := by omega
      rw [this, e1, e2, hfin.1, hfin.2]
    · rw [(hcons i h3).1, (hcons i h3).2, ← mul_assoc, ← mul_assoc]
      exact h2 i h3

theorem anti_convex {c s e : ℝ → ℝ} (hc : ∀ v, Unit01 v → Unit01 (c v) ∧ Unit01 (s v)) (hcm : ∀ u v, Unit01 u → Unit01 v → u < v → c u < c v)
    (hsm : ∀ u v, Unit01 u → Unit01 v → u < v → s v < s u) (hs0 : s 0 = 1) (he : ∀ u v, Unit01 u → Unit01 v → u < v → e v < e u)
    {m : ℕ} (hm : 2 ≤ m) : ShapeAnti m fun X i => if i < m - 1 then dtlzShape c s X i else e (X.getD 0 0) := by
  intro X Y hX hY hle
  obtain ⟨x, X, rfl⟩ : ∃ x X', X = x :: X' := by
    cases X with
    | nil => have := hX.1; simp at this; omega
    | cons x X => exact ⟨x, X, rfl⟩
  obtain ⟨y, Y, rfl⟩ : ∃ x X', Y = x :: X' := by
    cases Y with
    | nil => have := hY.1; simp at this; omega
    | cons x X => exact ⟨x, X, rfl⟩
  have hX' : Cube (m - 2) 0 1 X := ⟨by have := hX.1; simp at this; omega, fun v hv => hX.2 v (List.mem_cons_of_mem _ hv)⟩
  have hY' : Cube (m - 2) 0 1 Y := ⟨by have := hY.1; simp at this; omega, fun v hv => hY.2 v (List.mem_cons_of_mem _ hv)⟩
  have hx : Unit01 x := hX.2 x List.mem_cons_self
  have hy : Unit01 y := hY.2 y List.mem_cons_self
  have hlast := hle (m - 1) (by omega)
  simp only [lt_irrefl, if_false, List.getD_cons_zero] at hlast
  have hyx : y ≤ x := by
    by_contra hlt
    exact absurd (he x y hx hy (not_le.1 hlt)) (not_lt.2 hlast)
  have hcyx : c y ≤ c x := by
    rcases eq_or_lt_of_le hyx with h | h
    · rw [h]
    · exact (hcm y x hy hx h).le
  have hcons : ∀ i ≤ m - 2, dtlzShape c s (x :: X) i = c x * dtlzShape c s X i ∧ dtlzShape c s (y :: Y) i = c y * dtlzShape c s Y i := fun i hi =>
    ⟨dtlzShape_cons c s x X i (by rw [hX'.1]; exact hi), dtlzShape_cons c s y Y i (by rw [hY'.1]; exact hi)⟩
  obtain ⟨h1, h2⟩ := convex_chain hc hcm hsm hs0 (m - 2) X Y (c x) (c y) hX' hY' (hc y hy).1.1 hcyx (fun i hi => by
    have := hle i (by omega)
    simp only [if_pos (show i < m - 1 by omega)] at this
    rwa [(hcons i hi).1, (hcons i hi).2] at this)
  have hxy : x = y := by
    rcases eq_or_lt_of_le hyx with h | h
    · exact h.symm
    · have := hcm y x hy hx h; linarith
  intro i hi
  rcases Nat.lt_or_ge i (m - 1) with h3 | h3
  · simp only [if_pos h3]
    rw [(hcons i (by omega)).1, (hcons i (by omega)).2]
    exact h2 i (by omega)
  · simp only [if_neg (show ¬ i < m - 1 by omega), List.getD_cons_zero, hxy]

theorem convex_fns : (∀ v, Unit01 v → Unit01 (1 - Real.cos (0.5 * v * Real.pi)) ∧ Unit01 (1 - Real.sin (0.5 * v * Real.pi))) ∧
    (∀ u v, Unit01 u → Unit01 v → u < v → 1 - Real.cos (0.5 * u * Real.pi) < 1 - Real.cos (0.5 * v * Real.pi)) ∧
    (∀ u v, Unit01 u → Unit01 v → u < v → 1 - Real.sin (0.5 * v * Real.pi) < 1 - Real.sin (0.5 * u * Real.pi)) ∧ 1 - Real.sin (0.5 * 0 * Real.pi) = 1 := by
  have hpi := Real.pi_pos
  refine ⟨fun v hv => ?_, fun u v hu hv h => ?_, fun u v hu hv h => ?_, by simp⟩
  · obtain ⟨h1, h2⟩ := sin_cos_unit hv
    exact ⟨⟨by linarith [h2.2], by linarith [h2.1]⟩, ⟨by linarith [h1.2], by linarith [h1.1]⟩⟩
  · have h1 := quarter hu
    have h2 := quarter hv
    have := Real.cos_lt_cos_of_nonneg_of_le_pi_div_two h1.1 h2.2 (by nlinarith : 0.5 * u * Real.pi < 0.5 * v * Real.pi)
    linarith
  · have h1 := quarter hu
    have h2 := quarter hv
    have := Real.sin_lt_sin_of_lt_of_le_pi_div_two (by linarith : -(Real.pi / 2) ≤ 0.5 * u * Real.pi) h2.2 (by nlinarith : 0.5 * u * Real.pi < 0.5 * v * Real.pi)
    linarith

theorem sin_diff_lt {a b : ℝ} (h : a < b) : Real.sin b - Real.sin a < b - a := by
  rw [Real.sin_sub_sin]
  have h1 : 0 < (b - a) / 2 := by linarith
  have h2 := Real.sin_lt h1
  have h3 := Real.neg_one_le_cos ((b + a) / 2)
  have h4 := Real.cos_le_one ((b + a) / 2)
  have h5 : |Real.sin ((b - a) / 2)| < (b - a) / 2 := by
    have := Real.abs_sin_lt_abs (ne_of_gt h1) 
    rwa [abs_of_pos h1] at this
  have h6 : |Real.sin ((b - a) / 2) * Real.cos ((b + a) / 2)| ≤ |Real.sin ((b - a) / 2)| := by
    rw [abs_mul]
    exact mul_le_of_le_one_right (abs_nonneg _) (Real.abs_cos_le_one _)
  have h7 := le_abs_self (Real.sin ((b - a) / 2) * Real.cos ((b + a) / 2))
  nlinarith

noncomputable def mixedRaw (x : ℝ) : ℝ := 1 - x + Real.sin (10 * Real.pi * x) / (10 * Real.pi)

theorem mixedRaw_anti {u v : ℝ} (h : u < v) : mixedRaw v < mixedRaw u := by
  have hpi := Real.pi_pos
  have h1 := sin_diff_lt (by nlinarith : 10 * Real.pi * u < 10 * Real.pi * v)
  have hp : 0 < 10 * Real.pi := by positivity
  unfold mixedRaw
  have h2 : Real.sin (10 * Real.pi * v) / (10 * Real.pi) - Real.sin (10 * Real.pi * u) / (10 * Real.pi) < v - u := by
    rw [← sub_div, div_lt_iff₀ hp]; linarith
  linarith

theorem mixed_eq {x : ℝ} (h : Unit01 x) : wfgMixed 5 x = mixedRaw x ∧ Unit01 (mixedRaw x) := by
  have h0 : mixedRaw 0 = 1 := by simp [mixedRaw]
  have h1 : mixedRaw 1 = 0 := by
    unfold mixedRaw
    rw [mul_one, show 10 * Real.pi = ((5 : ℕ) : ℝ) * (2 * Real.pi) by push_cast; ring]
    have : Real.sin (((5 : ℕ) : ℝ) * (2 * Real.pi)) = 0 := by rw [show ((5 : ℕ) : ℝ) * (2 * Real.pi) = ((10 : ℕ) : ℝ) * Real.pi by push_cast; ring]; exact Real.sin_nat_mul_pi 10
    rw [this]; simp
  have hu : Unit01 (mixedRaw x) := by
    constructor
    · rcases eq_or_lt_of_le h.2 with h' | h'
      · rw [h', h1]
      · rw [← h1]; exact (mixedRaw_anti h').le
    · rcases eq_or_lt_of_le h.1 with h' | h'
      · rw [← h', h0]
      · rw [← h0]; exact (mixedRaw_anti h').le
  refine ⟨?_, hu⟩
  simp only [wfgMixed]
  have : 1 - x - Real.cos (2 * 5 * Real.pi * x + 0.5 * Real.pi) / (2 * 5 * Real.pi) = mixedRaw x := by
    rw [show 2 * 5 * Real.pi * x + 0.5 * Real.pi = 10 * Real.pi * x + Real.pi / 2 by ring, Real.cos_add_pi_div_two]
    unfold mixedRaw
    ring
  rw [this, correct01_unit hu]

theorem disc_eq {x : ℝ} (h : Unit01 x) : wfgDisconnected 5 x = 1 - x * Real.cos (5 * Real.pi * x) ^ 2 ∧ Unit01 (1 - x * Real.cos (5 * Real.pi * x) ^ 2) := by
  have h1 : Real.cos (5 * Real.pi * x) ^ 2 ≤ 1 := Real.cos_sq_le_one _
  have h2 := sq_nonneg (Real.cos (5 * Real.pi * x))
  have hu : Unit01 (1 - x * Real.cos (5 * Real.pi * x) ^ 2) := ⟨by nlinarith [h.1, h.2], by nlinarith [h.1]⟩
  exact ⟨correct01_unit hu, hu⟩

/-! ### Fronts -/

/-- A solution without distance is Pareto-optimal if the shapes are an antichain. -/
theorem wfg_sound {m n : ℕ} {F : List ℝ → Fin m → ℝ} {T : List ℝ → List ℝ × ℝ} {h : List ℝ → ℕ → ℝ} (anti : ShapeAnti m h)
    (range : ∀ z, Cube n 0 1 z → Cube (m - 1) 0 1 (T z).1 ∧ 0 ≤ (T z).2)
    (hF : ∀ z, Cube n 0 1 z → ∀ i : Fin m, F (wfgScale z) i = (T z).2 + 2 * ((i : ℕ) + 1) * h (T z).1 i) {z : List ℝ} (hz : Cube n 0 1 z)
    (h0 : (T z).2 = 0) : ParetoPoint (WfgBox n) F (F (wfgScale z)) := by
  refine ⟨⟨wfgScale z, scale_box hz, rfl⟩, fun x hx hdom => ?_⟩
  rw [← scale_norm x] at hdom
  have hy := norm_cube hx
  obtain ⟨hle, j, hlt⟩ := hdom
  obtain ⟨hry, hdy⟩ := range _ hy
  obtain ⟨hrz, -⟩ := range _ hz
  have hsh : ∀ i < m, h (T (wfgNorm x)).1 i ≤ h (T z).1 i := by
    intro i hi
    have := hle ⟨i, hi⟩
    rw [hF _ hy, hF _ hz, h0, zero_add] at this
    have hp : (0 : ℝ) < 2 * ((i : ℝ) + 1) := by positivity
    have h3 : 2 * ((i : ℝ) + 1) * h (T (wfgNorm x)).1 i ≤ 2 * ((i : ℝ) + 1) * h (T z).1 i := by
      simp only at this; linarith
    exact le_of_mul_le_mul_left h3 hp
  have heq := anti _ _ hry hrz hsh j j.isLt
  rw [hF _ hy, hF _ hz, h0, zero_add, heq] at hlt
  linarith

theorem wfg_set {m n k : ℕ} (hm : 1 ≤ m) {F : List ℝ → Fin m → ℝ} {T : List ℝ → List ℝ × ℝ} {opt : List ℝ → List ℝ} {h : List ℝ → ℕ → ℝ} (H : WfgMap n k m T opt)
    (hF : ∀ z, Cube n 0 1 z → ∀ i : Fin m, F (wfgScale z) i = (T z).2 + 2 * ((i : ℕ) + 1) * h (T z).1 i) {x : List ℝ} (hx : WfgBox n x)
    (hP : ParetoPoint (WfgBox n) F (F x)) : ∃ K, Cube k 0 1 K ∧ x = wfgScale (opt K) := by
  have hz := norm_cube hx
  obtain ⟨hr, hd⟩ := H.range _ hz
  by_cases h0 : (T (wfgNorm x)).2 = 0
  · obtain ⟨K, hK, he⟩ := (H.zero _ hz).1 h0
    exact ⟨K, hK, by rw [← he, scale_norm]⟩
  · exfalso
    obtain ⟨K, hK, he⟩ := H.onto _ hr
    have hzK := H.inside K hK
    have hK0 := (H.zero _ hzK).2 ⟨K, hK, rfl⟩
    apply hP.2 (wfgScale (opt K)) (scale_box hzK)
    have hlt : ∀ i, F (wfgScale (opt K)) i < F x i := by
      intro i
      rw [← scale_norm x, hF _ hzK, hF _ hz, hK0, he]
      have := lt_of_le_of_ne hd.1 (Ne.symm h0)
      linarith
    exact ⟨fun i => (hlt i).le, ⟨0, by omega⟩, hlt _⟩

/-- All three: Pareto-optimal solutions are the completed positions, and Pareto-optimal objective vectors the shapes. -/
theorem wfg_exact {m n k : ℕ} (hm : 1 ≤ m) {F : List ℝ → Fin m → ℝ} {T : List ℝ → List ℝ × ℝ} {opt : List ℝ → List ℝ} {h : List ℝ → ℕ → ℝ} (H : WfgMap n k m T opt)
    (anti : ShapeAnti m h)
    (hF : ∀ z, Cube n 0 1 z → ∀ i : Fin m, F (wfgScale z) i = (T z).2 + 2 * ((i : ℕ) + 1) * h (T z).1 i) :
    (∀ x, WfgBox n x → (ParetoPoint (WfgBox n) F (F x) ↔ ∃ K, Cube k 0 1 K ∧ x = wfgScale (opt K))) ∧
    ∀ f, ParetoPoint (WfgBox n) F f ↔ ∃ X, Cube (m - 1) 0 1 X ∧ ∀ i : Fin m, f i = 2 * ((i : ℕ) + 1) * h X i := by
  have hs : ∀ x, WfgBox n x → (ParetoPoint (WfgBox n) F (F x) ↔ ∃ K, Cube k 0 1 K ∧ x = wfgScale (opt K)) := by
    intro x hx
    constructor
    · exact wfg_set hm H hF hx
    · rintro ⟨K, hK, rfl⟩
      exact wfg_sound anti (fun z hz => ⟨(H.range z hz).1, (H.range z hz).2.1⟩) hF (H.inside K hK) ((H.zero _ (H.inside K hK)).2 ⟨K, hK, rfl⟩)
  refine ⟨hs, fun f => ?_⟩
  constructor
  · intro hP
    obtain ⟨x, hx, rfl⟩ := hP.1
    obtain ⟨K, hK, rfl⟩ := (hs x hx).1 hP
    have hz := H.inside K hK
    refine ⟨(T (opt K)).1, (H.range _ hz).1, fun i => ?_⟩
    rw [hF _ hz, (H.zero _ hz).2 ⟨K, hK, rfl⟩, zero_add]
  · rintro ⟨X, hX, hf⟩
    obtain ⟨K, hK, rfl⟩ := H.onto X hX
    have hz := H.inside K hK
    have : f = F (wfgScale (opt K)) := by
      funext i
      rw [hF _ hz, (H.zero _ hz).2 ⟨K, hK, rfl⟩, zero_add, hf]
    rw [this]
    exact (hs _ (scale_box hz)).2 ⟨K, hK, rfl⟩

end Props
