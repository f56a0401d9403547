import Verif.Props.MW

/-!
# C130: MW3, MW4, MW6, MW8
-/

set_option linter.unusedVariables false
set_option linter.unusedSectionVars false
set_option linter.unusedSimpArgs false

namespace Props
open Model Spec

/-! ### Constraints along rays -/

/-- A constraint that holds for a point if it holds for a multiple: the front of the constrained problem is the feasible part of the front without constraints, if every attained
point is a multiple (by at least one) of a point of that front with non-negative entries. -/
theorem radial_front {m : ℕ} (C : List ℝ → Prop) (F : List ℝ → Fin m → ℝ) (P : (Fin m → ℝ) → Prop)
    (hstab : ∀ x, C x → ∃ l : ℝ, 1 ≤ l ∧ ∃ f, ParetoPoint C F f ∧ (∀ i, 0 ≤ f i) ∧ ∀ i, F x i = l * f i)
    (hrad : ∀ l : ℝ, 1 ≤ l → ∀ f, ParetoPoint C F f → P (fun i => l * f i) → P f) (f : Fin m → ℝ) :
    ParetoPoint (fun x => C x ∧ P (F x)) F f ↔ ParetoPoint C F f ∧ P f := by
  constructor
  · rintro ⟨⟨x, ⟨hx, hP⟩, rfl⟩, hnd⟩
    obtain ⟨l, hl, g, hg, hg0, hgx⟩ := hstab x hx
    have hFx : F x = fun i => l * g i := funext hgx
    have hPg : P g := hrad l hl g hg (hFx ▸ hP)
    obtain ⟨⟨y, hy, hyg⟩, hgn⟩ := id hg
    have hle : ∀ i, g i ≤ F x i := fun i => by rw [hgx]; nlinarith [hg0 i]
    have heq : g = F x := by
      by_contra hne
      refine hnd y ⟨hy, hyg ▸ hPg⟩ ?_
      rw [hyg]
      refine ⟨hle, ?_⟩
      by_contra hcon
      push Not at hcon
      exact hne (funext fun i => le_antisymm (hle i) (hcon i))
    rw [← heq]
    exact ⟨hg, hPg⟩
  · rintro ⟨⟨⟨x, hx, rfl⟩, hnd⟩, hP⟩
    exact ⟨⟨x, ⟨hx, hP⟩, rfl⟩, fun y hy => hnd y hy.1⟩

/-! ### MW4 -/

theorem polar_linear' : Polar (fun v => 1 - v) (fun v => v) 1 :=
  ⟨by norm_num, fun v hv => ⟨by linarith [hv.2], hv.1, by ring⟩, fun w hw => ⟨w, hw, rfl⟩⟩

theorem polar_half : Polar (fun v => Real.cos (0.5 * Real.pi * v)) (fun v => Real.sin (0.5 * Real.pi * v)) 2 := by
  have h := polar_trig 1 (by norm_num)
  have e : ∀ v : ℝ, v ^ 1 * Real.pi / 2 = 0.5 * Real.pi * v := fun v => by ring
  simpa only [e] using h

/-- The front of MW4 without its constraint. -/
theorem mw4_simplex (m n : ℕ) (hm : 1 ≤ m) (hmn : m < n) (f : Fin m → ℝ) : ParetoPoint (Cube n 0 1) (mw4 n m) f ↔ (∀ i, 0 ≤ f i) ∧ ∑ i, f i = 1 := by
  have h := front_of_sphere hm (by omega) (mw4 n m) _ _ polar_linear' (mwG1 n m) 1 (by norm_num) (fun x i => rfl) (fun XM _ => mwG1_ge n m XM) (mwG1_opt n m hm hmn) f
  simpa using h

theorem mw4_stable (m n : ℕ) (hm : 1 ≤ m) (hmn : m < n) (x : List ℝ) (hx : Cube n 0 1 x) :
    ∃ l : ℝ, 1 ≤ l ∧ ∃ f, ParetoPoint (Cube n 0 1) (mw4 n m) f ∧ ∀ i, mw4 n m x i = l * f i :=
  sphere_stable hm (by omega) (mw4 n m) _ _ polar_linear' (mwG1 n m) 1 (by norm_num) (fun x i => rfl) (fun XM _ => mwG1_ge n m XM) (mwG1_opt n m hm hmn) x hx

/-- C130, MW4 (more variables than objectives): the Pareto-optimal points are exactly the points of the simplex `f ≥ 0`, `∑ f = 1`, and these are what is returned for reference
directions. -/
theorem C130_mw4 (m n : ℕ) (hmn : m + 1 < n) (f : Fin (m + 1) → ℝ) :
    (ParetoPoint (fun x => Cube n 0 1 x ∧ mw4Con (mw4 n (m + 1) x) ≤ 0) (mw4 n (m + 1)) f ↔ (∀ i, 0 ≤ f i) ∧ ∑ i, f i = 1) ∧
    ∀ refDirs : List (Fin (m + 1) → ℝ), (∀ r ∈ refDirs, (∀ i, 0 ≤ r i) ∧ ∑ i, r i = 1) → mw4Front refDirs = refDirs := by
  have hs := mw4_simplex (m + 1) n (by omega) hmn
  constructor
  · refine (restrict_same (Cube n 0 1) (mw4 n (m + 1)) (fun f => mw4Con f ≤ 0) (fun f hf => ?_) (fun x hx => ?_) f).trans (hs f)
    · obtain ⟨-, h1⟩ := (hs f).1 hf
      unfold mw4Con mwLA1
      rw [h1]
      have := even_pow_nonneg (Real.sin (2.5 * Real.pi * (f (Fin.last m) - ∑ i : Fin m, f i.castSucc)))
      linarith
    · obtain ⟨l, hl, g, hg, hgx⟩ := mw4_stable (m + 1) n (by omega) hmn x hx
      exact ⟨g, hg, fun i => le_scaled (((hs g).1 hg).1 i) hl (hgx i)⟩
  · intro R hR
    unfold mw4Front
    rw [List.filter_eq_self]
    intro r hr
    have := even_pow_nonneg (Real.sin (2.5 * Real.pi * (r (Fin.last m) - ∑ i : Fin m, r i.castSucc)))
    rw [decide_eq_true_eq, (hR r hr).2]
    linarith

/-! ### MW8 -/

theorem mw8_sphere (m n : ℕ) (hm : 1 ≤ m) (hmn : m ≤ n) (f : Fin m → ℝ) : ParetoPoint (Cube n 0 1) (mw8 n m) f ↔ (∀ i, 0 ≤ f i) ∧ ∑ i, f i ^ 2 = 1 := by
  have h := front_of_sphere hm (by omega) (mw8 n m) _ _ polar_half (mwG2 n m) 1 (by norm_num) (fun x i => rfl) (fun XM _ => mwG2_ge n m XM) (mwG2_opt n m hm hmn 1 le_rfl) f
  simpa using h

theorem mw8_stable (m n : ℕ) (hm : 1 ≤ m) (hmn : m ≤ n) (x : List ℝ) (hx : Cube n 0 1 x) :
    ∃ l : ℝ, 1 ≤ l ∧ ∃ f, ParetoPoint (Cube n 0 1) (mw8 n m) f ∧ ∀ i, mw8 n m x i = l * f i :=
  sphere_stable hm (by omega) (mw8 n m) _ _ polar_half (mwG2 n m) 1 (by norm_num) (fun x i => rfl) (fun XM _ => mwG2_ge n m XM) (mwG2_opt n m hm hmn 1 le_rfl) x hx

/-- C130, MW8: the Pareto-optimal points are exactly the feasible points of the unit sphere with non-negative entries. -/
theorem C130_mw8 (m n : ℕ) (hmn : m + 1 ≤ n) (f : Fin (m + 1) → ℝ) :
    ParetoPoint (fun x => Cube n 0 1 x ∧ mw8Con (mw8 n (m + 1) x) ≤ 0) (mw8 n (m + 1)) f ↔ ((∀ i, 0 ≤ f i) ∧ ∑ i, f i ^ 2 = 1) ∧ mw8Con f ≤ 0 := by
  have hs := mw8_sphere (m + 1) n (by omega) hmn
  rw [← hs]
  refine radial_front (Cube n 0 1) (mw8 n (m + 1)) (fun f => mw8Con f ≤ 0) (fun x hx => ?_) (fun l hl g hg hP => ?_) f
  · obtain ⟨l, hl, g, hg, hgx⟩ := mw8_stable (m + 1) n (by omega) hmn x hx
    exact ⟨l, hl, g, hg, ((hs g).1 hg).1, hgx⟩
  · obtain ⟨-, h1⟩ := (hs g).1 hg
    unfold mw8Con at hP ⊢
    have e : ∑ i, (l * g i) ^ 2 = l ^ 2 := by
      simp only [mul_pow]
      rw [← Finset.mul_sum, h1, mul_one]
    simp only [e, h1] at hP ⊢
    rw [Real.sqrt_sq (by linarith), mul_div_cancel_left₀ _ (by linarith : l ≠ 0)] at hP
    rw [Real.sqrt_one, div_one]
    nlinarith

/-- C130, MW8: exactly the Pareto-optimal ones of the directions, scaled onto the sphere, are returned. -/
theorem C130_mw8_front (m n : ℕ) (hmn : m + 1 ≤ n) (refDirs : List (Fin (m + 1) → ℝ)) (h0 : ∀ d ∈ refDirs, (∀ i, 0 ≤ d i) ∧ ∃ i, d i ≠ 0) (f : Fin (m + 1) → ℝ) :
    f ∈ mw8Front refDirs ↔ f ∈ refDirs.map genericSphere ∧ ParetoPoint (fun x => Cube n 0 1 x ∧ mw8Con (mw8 n (m + 1) x) ≤ 0) (mw8 n (m + 1)) f := by
  unfold mw8Front
  rw [List.mem_filter, C130_mw8 m n hmn]
  refine and_congr_right fun hf => ?_
  obtain ⟨d, hd, rfl⟩ := List.mem_map.1 hf
  obtain ⟨g0, g1, -⟩ := C82_generic_sphere d (h0 d hd).1 (h0 d hd).2
  rw [decide_eq_true_eq]
  unfold mw8Con
  simp only [g1, Real.sqrt_one, div_one]
  constructor
  · intro h; exact ⟨⟨g0, trivial⟩, by nlinarith⟩
  · rintro ⟨-, h⟩; nlinarith

/-! ### MW6 -/

theorem mwAtan_scale (l : ℝ) (hl : l ≠ 0) (f : Fin 2 → ℝ) : mwAtan (fun i => l * f i) = mwAtan f := by
  unfold mwAtan
  by_cases h : f 0 = 0
  · simp [h]
  · rw [if_neg h, if_neg (mul_ne_zero hl h), mul_div_mul_left _ _ hl]

theorem mw6_val (n : ℕ) (x : List ℝ) : mw6 n x = fun i => mwG2 n 2 (x.drop 1) * (![x.getD 0 0, √(1.21 - x.getD 0 0 ^ 2)] : Fin 2 → ℝ) i := by
  have h := mwG2_ge n 2 (x.drop 1)
  unfold mw6
  simp only
  rw [mul_div_cancel_left₀ _ (by linarith : mwG2 n 2 (x.drop 1) ≠ 0)]
  funext i
  fin_cases i
  · rfl
  · show _ * √(1.1 * 1.1 - x.getD 0 0 ^ 2) = _ * √(1.21 - x.getD 0 0 ^ 2)
    norm_num

theorem mw6_circle (n : ℕ) (hn : 2 ≤ n) (f : Fin 2 → ℝ) : ParetoPoint (Cube n 0 1.1) (mw6 n) f ↔ (∀ i, 0 ≤ f i) ∧ f 0 ^ 2 + f 1 ^ 2 = 1.21 := by
  refine front_exact _ _ (fun f => (∀ i, 0 ≤ f i) ∧ f 0 ^ 2 + f 1 ^ 2 = 1.21) ?_ ?_ f
  · rintro f ⟨h0, h1⟩
    obtain ⟨XM, hXM, hg⟩ := mwG2_opt n 2 (by norm_num) hn 1.1 (by norm_num)
    have hf0 : f 0 ≤ 1.1 := by nlinarith [h0 0, sq_nonneg (f 1)]
    refine ⟨⟨f 0 :: XM, cube_cons' (by omega) (h0 0) hf0 hXM, ?_⟩, ?_⟩
    · rw [mw6_val]
      funext i
      simp only [List.drop_succ_cons, List.drop_zero, hg, one_mul, List.getD_cons_zero]
      fin_cases i
      · rfl
      · show √(1.21 - f 0 ^ 2) = f 1
        rw [show 1.21 - f 0 ^ 2 = f 1 ^ 2 by linarith, Real.sqrt_sq (h0 1)]
    · intro y hy hd
      obtain ⟨b0, b1⟩ := cube_getD (by omega) hy
      have hg := mwG2_ge n 2 (y.drop 1)
      have hnn : ∀ i, 0 ≤ mw6 n y i := by
        intro i
        rw [mw6_val]
        refine mul_nonneg (by linarith) ?_
        fin_cases i
        · exact b0
        · exact Real.sqrt_nonneg _
      have := sum_pow_lt (p := 2) (by norm_num) hnn hd
      rw [Fin.sum_univ_two, Fin.sum_univ_two, h1, mw6_val] at this
      simp only [Matrix.cons_val_zero, Matrix.cons_val_one, mul_pow] at this
      rw [Real.sq_sqrt (by nlinarith)] at this
      nlinarith
  · intro x hx
    obtain ⟨b0, b1⟩ := cube_getD (by omega) hx
    have hg := mwG2_ge n 2 (x.drop 1)
    refine ⟨![x.getD 0 0, √(1.21 - x.getD 0 0 ^ 2)], ⟨fun i => ?_, ?_⟩, fun i => ?_⟩
    · fin_cases i
      · exact b0
      · exact Real.sqrt_nonneg _
    · simp only [Matrix.cons_val_zero, Matrix.cons_val_one]
      rw [Real.sq_sqrt (by nlinarith)]; ring
    · rw [mw6_val]
      have : 0 ≤ (![x.getD 0 0, √(1.21 - x.getD 0 0 ^ 2)] : Fin 2 → ℝ) i := by
        fin_cases i
        · exact b0
        · exact Real.sqrt_nonneg _
      simp only
      nlinarith

/-- C130, MW6: the Pareto-optimal points are exactly the feasible points of the circle of radius `1.1` with non-negative entries. -/
theorem C130_mw6 (n : ℕ) (hn : 2 ≤ n) (f : Fin 2 → ℝ) :
    ParetoPoint (fun x => Cube n 0 1.1 x ∧ mw6Con (mw6 n x) ≤ 0) (mw6 n) f ↔ ((∀ i, 0 ≤ f i) ∧ f 0 ^ 2 + f 1 ^ 2 = 1.21) ∧ mw6Con f ≤ 0 := by
  have hs := mw6_circle n hn
  rw [← hs]
  refine radial_front (Cube n 0 1.1) (mw6 n) (fun f => mw6Con f ≤ 0) (fun x hx => ?_) (fun l hl g hg hP => ?_) f
  · obtain ⟨b0, b1⟩ := cube_getD (by omega) hx
    have h0 : ∀ i, 0 ≤ (![x.getD 0 0, √(1.21 - x.getD 0 0 ^ 2)] : Fin 2 → ℝ) i := by
      intro i; fin_cases i
      · exact b0
      · exact Real.sqrt_nonneg _
    refine ⟨mwG2 n 2 (x.drop 1), mwG2_ge n 2 _, _, (hs _).2 ⟨h0, ?_⟩, h0, fun i => by rw [mw6_val]⟩
    simp only [Matrix.cons_val_zero, Matrix.cons_val_one]
    rw [Real.sq_sqrt (by nlinarith)]; ring
  · unfold mw6Con at hP ⊢
    rw [mwAtan_scale l (by linarith)] at hP
    simp only at hP ⊢
    set L := Real.cos (6 * mwAtan g ^ 4) ^ 10
    have h1 : 0 ≤ g 0 ^ 2 / (1 + 0.15 * L) ^ 2 := by positivity
    have h2 : 0 ≤ g 1 ^ 2 / (1 + 0.75 * L) ^ 2 := by positivity
    have e : (l * g 0) ^ 2 / (1 + 0.15 * L) ^ 2 + (l * g 1) ^ 2 / (1 + 0.75 * L) ^ 2 = l ^ 2 * (g 0 ^ 2 / (1 + 0.15 * L) ^ 2 + g 1 ^ 2 / (1 + 0.75 * L) ^ 2) := by ring
    rw [e] at hP
    have hl2 : 1 ≤ l ^ 2 := by nlinarith
    nlinarith [mul_le_mul_of_nonneg_right hl2 (add_nonneg h1 h2)]

/-- The angle used by the constraint is the polar angle. -/
theorem mwAtan_polar (r θ : ℝ) (hr : 0 < r) (h0 : 0 ≤ θ) (h1 : θ ≤ Real.pi / 2) : mwAtan ![r * Real.cos θ, r * Real.sin θ] = θ := by
  have hpi := Real.pi_pos
  unfold mwAtan
  rcases eq_or_lt_of_le h1 with rfl | h1
  · rw [if_pos (by simp)]
  · have hc : 0 < Real.cos θ := Real.cos_pos_of_mem_Ioo ⟨by linarith, h1⟩
    rw [if_neg (show (![r * Real.cos θ, r * Real.sin θ] : Fin 2 → ℝ) 0 ≠ 0 from (mul_pos hr hc).ne')]
    show Real.arctan (r * Real.sin θ / (r * Real.cos θ)) = θ
    rw [mul_div_mul_left _ _ hr.ne', ← Real.tan_eq_sin_div_cos, Real.arctan_tan (by linarith) h1]

/-- C130, MW6, in polar coordinates: the Pareto-optimal points are the points of the circle of radius `1.1` at the angles `θ` for which the constraint of the paper holds. -/
theorem C130_mw6_polar (n : ℕ) (hn : 2 ≤ n) (f : Fin 2 → ℝ) :
    ParetoPoint (fun x => Cube n 0 1.1 x ∧ mw6Con (mw6 n x) ≤ 0) (mw6 n) f ↔
      ∃ θ, (0 ≤ θ ∧ θ ≤ Real.pi / 2) ∧ f = ![1.1 * Real.cos θ, 1.1 * Real.sin θ] ∧
        (1.1 * Real.cos θ / (1 + 0.15 * Real.cos (6 * θ ^ 4) ^ 10)) ^ 2 + (1.1 * Real.sin θ / (1 + 0.75 * Real.cos (6 * θ ^ 4) ^ 10)) ^ 2 ≤ 1 := by
  have hpi := Real.pi_pos
  rw [C130_mw6 n hn]
  have con : ∀ θ, 0 ≤ θ → θ ≤ Real.pi / 2 → (mw6Con ![1.1 * Real.cos θ, 1.1 * Real.sin θ] ≤ 0 ↔
      (1.1 * Real.cos θ / (1 + 0.15 * Real.cos (6 * θ ^ 4) ^ 10)) ^ 2 + (1.1 * Real.sin θ / (1 + 0.75 * Real.cos (6 * θ ^ 4) ^ 10)) ^ 2 ≤ 1) := by
    intro θ h0 h1
    unfold mw6Con
    simp only [mwAtan_polar 1.1 θ (by norm_num) h0 h1, Matrix.cons_val_zero, Matrix.cons_val_one, div_pow, tsub_le_iff_right, zero_add]
  constructor
  · rintro ⟨⟨h0, h1⟩, hc⟩
    have a0 := h0 0
    have a1 := h0 1
    set θ := Real.arcsin (f 1 / 1.1) with hθ
    have b0 : 0 ≤ f 1 / 1.1 := by positivity
    have b1 : f 1 / 1.1 ≤ 1 := by rw [div_le_one (by norm_num)]; nlinarith [sq_nonneg (f 0)]
    have t0 : 0 ≤ θ := Real.arcsin_nonneg.2 b0
    have t1 : θ ≤ Real.pi / 2 := Real.arcsin_le_pi_div_two _
    have hs : Real.sin θ = f 1 / 1.1 := Real.sin_arcsin (by linarith) b1
    have hcos : 0 ≤ Real.cos θ := Real.cos_nonneg_of_mem_Icc ⟨by linarith, t1⟩
    have e1 : 1.1 * Real.sin θ = f 1 := by rw [hs]; field_simp
    have e0 : 1.1 * Real.cos θ = f 0 := by
      have h2 := Real.sin_sq_add_cos_sq θ
      have : (1.1 * Real.cos θ) ^ 2 = f 0 ^ 2 := by
        have : (1.1 * Real.cos θ) ^ 2 = 1.21 * (Real.sin θ ^ 2 + Real.cos θ ^ 2) - (1.1 * Real.sin θ) ^ 2 := by ring
        rw [this, h2, e1]; linarith
      exact (pow_left_inj₀ (by positivity) a0 two_ne_zero).1 this
    have hf : f = ![1.1 * Real.cos θ, 1.1 * Real.sin θ] := by
      funext i; fin_cases i
      · exact e0.symm
      · exact e1.symm
    refine ⟨θ, ⟨t0, t1⟩, hf, (con θ t0 t1).1 (hf ▸ hc)⟩
  · rintro ⟨θ, ⟨t0, t1⟩, rfl, hc⟩
    have hcos : 0 ≤ Real.cos θ := Real.cos_nonneg_of_mem_Icc ⟨by linarith, t1⟩
    have hsin : 0 ≤ Real.sin θ := Real.sin_nonneg_of_nonneg_of_le_pi t0 (by linarith)
    refine ⟨⟨fun i => ?_, ?_⟩, (con θ t0 t1).2 hc⟩
    · fin_cases i
      · show 0 ≤ 1.1 * Real.cos θ; positivity
      · show 0 ≤ 1.1 * Real.sin θ; positivity
    · simp only [Matrix.cons_val_zero, Matrix.cons_val_one]
      have h2 := Real.sin_sq_add_cos_sq θ
      nlinarith

/-- C130, MW6: exactly the Pareto-optimal ones of the scaled rows are returned. -/
theorem C130_mw6_front (n : ℕ) (hn : 2 ≤ n) (refDirs : Option (List (Fin 2 → ℝ))) (h : RowsOk refDirs) (f : Fin 2 → ℝ) :
    f ∈ (mw6Front refDirs).1 ↔ f ∈ (mwRows (fun t => 1 - t) refDirs).1.map (fun F i => F i / √((F 0 ^ 2 + F 1 ^ 2) / 1.21)) ∧
      ParetoPoint (fun x => Cube n 0 1.1 x ∧ mw6Con (mw6 n x) ≤ 0) (mw6 n) f := by
  unfold mw6Front
  simp only
  rw [List.mem_filter, C130_mw6 n hn]
  refine and_congr_right fun hf => ?_
  obtain ⟨F, hF, rfl⟩ := List.mem_map.1 hf
  obtain ⟨h0, h1, h2⟩ := mwRows_mem _ _ h F hF
  have hpos : 0 < F 0 ^ 2 + F 1 ^ 2 := by rw [h2]; nlinarith
  have hs : 0 < √((F 0 ^ 2 + F 1 ^ 2) / 1.21) := Real.sqrt_pos.2 (by positivity)
  have hsq : √((F 0 ^ 2 + F 1 ^ 2) / 1.21) ^ 2 = (F 0 ^ 2 + F 1 ^ 2) / 1.21 := Real.sq_sqrt (by positivity)
  have hnn : ∀ i, 0 ≤ (fun i => F i / √((F 0 ^ 2 + F 1 ^ 2) / 1.21)) i := by
    intro i
    refine div_nonneg ?_ hs.le
    fin_cases i
    · exact h0
    · show 0 ≤ F 1; rw [h2]; linarith
  have hc : (F 0 / √((F 0 ^ 2 + F 1 ^ 2) / 1.21)) ^ 2 + (F 1 / √((F 0 ^ 2 + F 1 ^ 2) / 1.21)) ^ 2 = 1.21 := by
    rw [div_pow, div_pow, hsq, ← add_div]
    field_simp
  rw [decide_eq_true_eq]
  unfold mw6Con
  simp only
  rw [div_pow (F 0 / _), div_pow (F 1 / _)]
  constructor
  · intro hh; exact ⟨⟨hnn, hc⟩, by linarith⟩
  · rintro ⟨-, hh⟩; linarith

end Props
