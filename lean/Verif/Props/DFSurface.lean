import Verif.Props.DF

/-!
# C117, continued: DF10 to DF14 (three objectives)
-/

set_option linter.unusedSimpArgs false
set_option linter.unusedVariables false

namespace Props
open Model Spec Lemmas

/-- The first two variables of a point in the box. -/
theorem box_two {n : ℕ} (hn : 2 ≤ n) {a b c d : ℝ} {x : List ℝ} (hx : dfBox 2 n a b c d x) :
    (a ≤ x.getD 0 0 ∧ x.getD 0 0 ≤ b) ∧ (a ≤ x.getD 1 0 ∧ x.getD 1 0 ≤ b) := by
  cases x with
  | nil => have := hx.1; simp at this; omega
  | cons v l =>
    cases l with
    | nil => have := hx.1; simp at this; omega
    | cons w l => exact ⟨hx.2.1 v (by simp), hx.2.1 w (by simp)⟩

theorem box_two_rep {n : ℕ} (hn : 2 ≤ n) {a b c d u v w : ℝ} (h0 : a ≤ u ∧ u ≤ b) (h1 : a ≤ v ∧ v ≤ b) (h2 : c ≤ w ∧ w ≤ d) :
    dfBox 2 n a b c d (u :: v :: List.replicate (n - 2) w) := by
  refine ⟨by simp; omega, fun z hz => ?_, fun z hz => ?_⟩
  · simp at hz; rcases hz with rfl | rfl <;> assumption
  · simp at hz; rw [hz.2]; exact h2

theorem quarter_nonneg {u : ℝ} (hu : Unit01 u) : 0 ≤ Real.sin (0.5 * Real.pi * u) ∧ 0 ≤ Real.cos (0.5 * Real.pi * u) := by
  have hpi := Real.pi_pos
  have h0 : 0 ≤ 0.5 * Real.pi * u := by have := hu.1; positivity
  have h1 : 0.5 * Real.pi * u ≤ Real.pi / 2 := by nlinarith [hu.2]
  exact ⟨Real.sin_nonneg_of_nonneg_of_le_pi h0 (by linarith), Real.cos_nonneg_of_neg_pi_div_two_le_of_le (by linarith) h1⟩

theorem sphere_three (a b : ℝ) : Real.sin a ^ 2 + (Real.sin b * Real.cos a) ^ 2 + (Real.cos b * Real.cos a) ^ 2 = 1 := by
  have h1 := Real.sin_sq_add_cos_sq a
  have h2 := Real.sin_sq_add_cos_sq b
  have : Real.sin a ^ 2 + (Real.sin b * Real.cos a) ^ 2 + (Real.cos b * Real.cos a) ^ 2 =
      Real.sin a ^ 2 + Real.cos a ^ 2 * (Real.sin b ^ 2 + Real.cos b ^ 2) := by ring
  rw [this, h2, mul_one, h1]

/-- A surface `C` that consists of the points `c u v` of the unit square. -/
def Surface {m : ℕ} (c : ℝ → ℝ → Fin m → ℝ) (f : Fin m → ℝ) : Prop := ∃ u v, Unit01 u ∧ Unit01 v ∧ f = c u v

/-- All points of the grid are points of the surface, and there are 400 of them, whatever number of points was asked for. -/
theorem C117_grid {m : ℕ} (c : ℝ → ℝ → Fin m → ℝ) : (dfGrid c).length = 400 ∧ ∀ f ∈ dfGrid c, Surface c f := by
  constructor
  · simp [dfGrid, linspace, Function.comp_def, List.map_const', List.sum_replicate]
  · intro f hf
    obtain ⟨u, hu, hf⟩ := List.mem_flatMap.1 hf
    obtain ⟨v, hv, rfl⟩ := List.mem_map.1 hf
    exact ⟨u, v, linspace_mem (by norm_num) hu, linspace_mem (by norm_num) hv, rfl⟩

/-- C117, DF10: at every time the Pareto-optimal points are exactly the points of the surface. -/
theorem C117_df10_surface (n : ℕ) (hn : 2 ≤ n) (t : ℝ) (f : Fin 3 → ℝ) :
    ParetoPoint (dfBox 2 n 0 1 (-1) 1) (df10 t) f ↔ Surface (df10Curve t) f := by
  have hH : 0 < 2.25 + 2 * Real.cos (0.5 * Real.pi * t) := by linarith [Real.neg_one_le_cos (0.5 * Real.pi * t)]
  set H := 2.25 + 2 * Real.cos (0.5 * Real.pi * t) with hHd
  let s : ℝ → ℝ → Fin 3 → ℝ := fun u v => ![Real.sin (0.5 * Real.pi * u), Real.sin (0.5 * Real.pi * v) * Real.cos (0.5 * Real.pi * u),
    Real.cos (0.5 * Real.pi * v) * Real.cos (0.5 * Real.pi * u)]
  have hs0 : ∀ u v, Unit01 u → Unit01 v → ∀ i, 0 ≤ s u v i := by
    intro u v hu hv i
    have h1 := quarter_nonneg hu
    have h2 := quarter_nonneg hv
    fin_cases i
    · exact h1.1
    · exact mul_nonneg h2.1 h1.2
    · exact mul_nonneg h2.2 h1.2
  have hcs : ∀ u v, Unit01 u → Unit01 v → ∀ i, df10Curve t u v i = s u v i ^ H := by
    intro u v hu hv i
    have h1 := quarter_nonneg hu
    have h2 := quarter_nonneg hv
    fin_cases i
    · simp [df10Curve, s, ← hHd]
    · simp [df10Curve, s, ← hHd, Real.mul_rpow h2.1 h1.2]
    · simp [df10Curve, s, ← hHd, Real.mul_rpow h2.2 h1.2]
  have hsum : ∀ u v, ∑ i, s u v i ^ 2 = 1 := by
    intro u v
    rw [Fin.sum_univ_three]
    exact sphere_three _ _
  refine front_antichain _ _ (Surface (df10Curve t)) ?_ ?_ (fun x hx => ?_) f
  · rintro a b ⟨u, v, hu, hv, rfl⟩ ⟨u', v', hu', hv', rfl⟩ hd
    have hd' : Dominates (s u v) (s u' v') := by
      constructor
      · intro i
        have := hd.1 i
        rw [hcs _ _ hu hv, hcs _ _ hu' hv'] at this
        exact (Real.rpow_le_rpow_iff (hs0 _ _ hu hv i) (hs0 _ _ hu' hv' i) hH).1 this
      · obtain ⟨i, hi⟩ := hd.2
        rw [hcs _ _ hu hv, hcs _ _ hu' hv'] at hi
        exact ⟨i, (Real.rpow_lt_rpow_iff (hs0 _ _ hu hv i) (hs0 _ _ hu' hv' i) hH).1 hi⟩
    have := sum_pow_lt (p := 2) (by norm_num) (hs0 _ _ hu hv) hd'
    rw [hsum, hsum] at this
    exact lt_irrefl _ this
  · rintro c ⟨u, v, hu, hv, rfl⟩
    have hA := dfAbs_mem t
    have hsm := abs_le.2 ⟨Real.neg_one_le_sin (4 * Real.pi * (u + v)), Real.sin_le_one (4 * Real.pi * (u + v))⟩
    have hw : |Real.sin (4 * Real.pi * (u + v)) / (1 + |dfSin t|)| ≤ 1 := by
      rw [abs_div, abs_of_pos (by linarith : 0 < 1 + |dfSin t|), div_le_one (by linarith)]
      linarith
    refine ⟨_, box_two_rep hn hu hv (w := Real.sin (4 * Real.pi * (u + v)) / (1 + |dfSin t|)) (abs_le.1 hw), ?_⟩
    ext i
    rw [hcs _ _ hu hv]
    fin_cases i <;> simp [df10, dfDist_rep, s, ← hHd]
  · obtain ⟨h0, h1⟩ := box_two hn hx
    refine ⟨_, ⟨x.getD 0 0, x.getD 1 0, h0, h1, rfl⟩, fun i => ?_⟩
    rw [hcs _ _ h0 h1]
    have hg := dfDist_ge (Real.sin (4 * Real.pi * (x.getD 0 0 + x.getD 1 0)) / (1 + |dfSin t|)) (x.drop 2)
    have hp := fun i => Real.rpow_nonneg (hs0 _ _ h0 h1 i) H
    fin_cases i
    · exact le_mul_of_one_le_left (hp 0) hg
    · exact le_mul_of_one_le_left (hp 1) hg
    · exact le_mul_of_one_le_left (hp 2) hg

/-- C117, DF10: every returned point is Pareto-optimal. -/
theorem C117_df10 (n : ℕ) (hn : 2 ≤ n) (t : ℝ) : ∀ f ∈ dfGrid (df10Curve t), ParetoPoint (dfBox 2 n 0 1 (-1) 1) (df10 t) f :=
  fun f hf => (C117_df10_surface n hn t f).2 ((C117_grid _).2 f hf)

theorem df11Angle_nonneg (t : ℝ) {u : ℝ} (hu : Unit01 u) : 0 ≤ Real.sin (df11Angle t u) ∧ 0 ≤ Real.cos (df11Angle t u) := by
  have hpi := Real.pi_pos
  have hA := dfAbs_mem t
  have h0 : 0 ≤ df11Angle t u := by
    unfold df11Angle
    have : 0 ≤ Real.pi / 2 - Real.pi * |dfSin t| / 3 := by nlinarith
    have := mul_nonneg this hu.1
    have : 0 ≤ Real.pi * |dfSin t| / 6 := by positivity
    linarith
  have h1 : df11Angle t u ≤ Real.pi / 2 := by
    unfold df11Angle
    have h2 : 0 ≤ Real.pi / 2 - Real.pi * |dfSin t| / 3 := by nlinarith
    have h3 := mul_le_mul_of_nonneg_left hu.2 h2
    have : 0 ≤ Real.pi * |dfSin t| := by positivity
    linarith
  exact ⟨Real.sin_nonneg_of_nonneg_of_le_pi h0 (by linarith), Real.cos_nonneg_of_neg_pi_div_two_le_of_le (by linarith) h1⟩

/-- C117, DF11: at every time the Pareto-optimal points are exactly the points of the surface. -/
theorem C117_df11_surface (n : ℕ) (hn : 2 ≤ n) (t : ℝ) (f : Fin 3 → ℝ) :
    ParetoPoint (dfBox 2 n 0 1 0 1) (df11 t) f ↔ Surface (df11Curve t) f := by
  have hA := dfAbs_mem t
  have hc0 : ∀ u v, Unit01 u → Unit01 v → ∀ i, 0 ≤ df11Curve t u v i := by
    intro u v hu hv i
    have h1 := df11Angle_nonneg t hu
    have h2 := df11Angle_nonneg t hv
    have h3 : 0 ≤ 1 + |dfSin t| := by linarith
    fin_cases i
    · exact mul_nonneg h3 h1.1
    · exact mul_nonneg (mul_nonneg h3 h2.1) h1.2
    · exact mul_nonneg (mul_nonneg h3 h2.2) h1.2
  have hsum : ∀ u v, ∑ i, df11Curve t u v i ^ 2 = (1 + |dfSin t|) ^ 2 := by
    intro u v
    rw [Fin.sum_univ_three]
    have := sphere_three (df11Angle t u) (df11Angle t v)
    have e : df11Curve t u v 0 ^ 2 + df11Curve t u v 1 ^ 2 + df11Curve t u v 2 ^ 2 = (1 + |dfSin t|) ^ 2 *
        (Real.sin (df11Angle t u) ^ 2 + (Real.sin (df11Angle t v) * Real.cos (df11Angle t u)) ^ 2 +
          (Real.cos (df11Angle t v) * Real.cos (df11Angle t u)) ^ 2) := by simp [df11Curve]; ring
    rw [e, this, mul_one]
  refine front_antichain _ _ (Surface (df11Curve t)) ?_ ?_ (fun x hx => ?_) f
  · rintro a b ⟨u, v, hu, hv, rfl⟩ ⟨u', v', hu', hv', rfl⟩ hd
    have := sum_pow_lt (p := 2) (by norm_num) (hc0 _ _ hu hv) hd
    rw [hsum, hsum] at this
    exact lt_irrefl _ this
  · rintro c ⟨u, v, hu, hv, rfl⟩
    refine ⟨_, box_two_rep hn hu hv (w := 0.5 * |dfSin t| * u) ⟨by have := hu.1; positivity, ?_⟩, ?_⟩
    · have := mul_le_mul hA.2 hu.2 hu.1 (by norm_num); linarith
    · simp [df11, df11Curve]
  · obtain ⟨h0, h1⟩ := box_two hn hx
    refine ⟨_, ⟨x.getD 0 0, x.getD 1 0, h0, h1, rfl⟩, fun i => ?_⟩
    have hsq : 0 ≤ ((x.drop 2).map fun v => (v - 0.5 * |dfSin t| * x.getD 0 0) ^ (2 : ℕ)).sum := List.sum_nonneg fun v hv => by
      obtain ⟨w, _, rfl⟩ := List.mem_map.1 hv; positivity
    have a0 := df11Angle_nonneg t h0
    have a1 := df11Angle_nonneg t h1
    fin_cases i
    · exact mul_le_mul_of_nonneg_right (by linarith) a0.1
    · exact mul_le_mul_of_nonneg_right (mul_le_mul_of_nonneg_right (by linarith) a1.1) a0.2
    · exact mul_le_mul_of_nonneg_right (mul_le_mul_of_nonneg_right (by linarith) a1.2) a0.2

/-- C117, DF11: every returned point is Pareto-optimal. -/
theorem C117_df11 (n : ℕ) (hn : 2 ≤ n) (t : ℝ) : ∀ f ∈ dfGrid (df11Curve t), ParetoPoint (dfBox 2 n 0 1 0 1) (df11 t) f :=
  fun f hf => (C117_df11_surface n hn t f).2 ((C117_grid _).2 f hf)

/-- C117 is violated by DF12: the objectives of a solution depend on the other solutions it is evaluated with. -/
theorem C117_df12_refuted : ∃ (t : ℝ) (x y : List ℝ), dfBox 2 3 0 1 (-1) 1 x ∧ dfBox 2 3 0 1 (-1) 1 y ∧
    (df12Batch t [x, y])[0]? ≠ (df12Batch t [x])[0]? := by
  refine ⟨0.5, [0.575, 0.575, 0], [0.5, 0.5, 0], ⟨rfl, ?_, ?_⟩, ⟨rfl, ?_, ?_⟩, fun h => ?_⟩
  · intro v hv; simp at hv; rw [hv]; norm_num
  · intro v hv; simp at hv; rw [hv]; norm_num
  · intro v hv; simp at hv; rw [hv]; norm_num
  · intro v hv; simp at hv; rw [hv]; norm_num
  · have hk : (10 : ℝ) * Real.sin (Real.pi * 0.5) = 10 := by
      have : Real.pi * 0.5 = Real.pi / 2 := by ring
      rw [this, Real.sin_pi_div_two]; norm_num
    have hx : df12Tmp 0.5 [0.575, 0.575, 0] = [1, 1] := by
      have hf : ⌊(10 * (2 * 0.575 - 1) : ℝ)⌋ = 1 := by rw [Int.floor_eq_iff]; norm_num
      simp only [df12Tmp, hk, List.take_succ_cons, List.take_zero, List.map_cons, List.map_nil, hf]
      simp
    have hy : df12Tmp 0.5 [0.5, 0.5, 0] = [0, 0] := by
      have hf : ⌊(10 * (2 * 0.5 - 1) : ℝ)⌋ = 0 := by rw [Int.floor_eq_iff]; norm_num
      simp only [df12Tmp, hk, List.take_succ_cons, List.take_zero, List.map_cons, List.map_nil, hf]
      simp
    simp only [df12Batch, List.flatMap_cons, List.flatMap_nil, hx, hy, List.map_cons, List.getElem?_cons_zero, Option.some.injEq] at h
    have h2 := congrFun h 2
    have hs : 0 < Real.sin (0.5 * Real.pi * 0.575) := Real.sin_pos_of_pos_of_lt_pi (by positivity) (by nlinarith [Real.pi_pos])
    simp only [List.cons_append, List.nil_append, List.append_nil, List.prod_cons, List.prod_nil, List.getD_cons_zero, List.getD_cons_succ, Matrix.cons_val] at h2
    norm_num at h2
    nlinarith [hs]

/-- C117, DF13: while the third objective has no waves, the Pareto-optimal points are exactly the points of the surface. -/
theorem C117_df13_surface_partial (n : ℕ) (hn : 2 ≤ n) (t : ℝ) (h0 : 0 ≤ dfSin t) (h1 : dfSin t < 1 / 6) (f : Fin 3 → ℝ) :
    ParetoPoint (dfBox 2 n 0 1 (-1) 1) (df13 t) f ↔ Surface (df13Curve t) f := by
  have hf : ⌊6 * dfSin t⌋ = 0 := by rw [Int.floor_eq_iff]; push_cast; constructor <;> linarith
  have hh : ∀ u, df13h t u = Real.sin (0.5 * Real.pi * u) ^ 2 + Real.sin (0.5 * Real.pi * u) := by
    intro u; simp [df13h, hf]
  have hsc : ∀ u, Real.cos (0.5 * Real.pi * u) ^ 2 = 1 - Real.sin (0.5 * Real.pi * u) ^ 2 := fun u => by
    linarith [Real.sin_sq_add_cos_sq (0.5 * Real.pi * u)]
  refine front_antichain _ _ (Surface (df13Curve t)) ?_ ?_ (fun x hx => ?_) f
  · rintro a b ⟨u, v, hu, hv, rfl⟩ ⟨u', v', hu', hv', rfl⟩ hd
    have d0 := hd.1 0
    have d1 := hd.1 1
    have d2 := hd.1 2
    simp only [df13Curve, hh, hsc, Matrix.cons_val] at d0 d1 d2
    have p1 := (quarter_nonneg hu).1
    have p2 := (quarter_nonneg hv).1
    have p3 := (quarter_nonneg hu').1
    have p4 := (quarter_nonneg hv').1
    have q1 : Real.sin (0.5 * Real.pi * u') ≤ Real.sin (0.5 * Real.pi * u) := by nlinarith
    have q2 : Real.sin (0.5 * Real.pi * v') ≤ Real.sin (0.5 * Real.pi * v) := by nlinarith
    have e1 : Real.sin (0.5 * Real.pi * u') = Real.sin (0.5 * Real.pi * u) := by nlinarith
    have e2 : Real.sin (0.5 * Real.pi * v') = Real.sin (0.5 * Real.pi * v) := by nlinarith
    obtain ⟨i, hi⟩ := hd.2
    fin_cases i
    · simp [df13Curve, hh, hsc, e1, e2] at hi
    · simp [df13Curve, hh, hsc, e1, e2] at hi
    · simp [df13Curve, hh, hsc, e1, e2] at hi
  · rintro c ⟨u, v, hu, hv, rfl⟩
    refine ⟨_, box_two_rep hn hu hv (dfSin_mem t), ?_⟩
    simp [df13, df13Curve, dfDist_rep]
  · obtain ⟨g0, g1⟩ := box_two hn hx
    refine ⟨_, ⟨x.getD 0 0, x.getD 1 0, g0, g1, rfl⟩, fun i => ?_⟩
    have hg := dfDist_ge (dfSin t) (x.drop 2)
    have p1 := (quarter_nonneg g0).1
    have p2 := (quarter_nonneg g1).1
    fin_cases i
    · exact le_mul_of_one_le_left (sq_nonneg (Real.cos (0.5 * Real.pi * x.getD 0 0))) hg
    · exact le_mul_of_one_le_left (sq_nonneg (Real.cos (0.5 * Real.pi * x.getD 1 0))) hg
    · refine le_mul_of_one_le_left ?_ hg
      show 0 ≤ df13h t _ + df13h t _
      rw [hh, hh]; positivity

/-- C117, DF13: while the third objective has no waves, every returned point is Pareto-optimal and all points of the grid are returned. -/
theorem C117_df13_partial (n : ℕ) (hn : 2 ≤ n) (t : ℝ) (h0 : 0 ≤ dfSin t) (h1 : dfSin t < 1 / 6) :
    df13Front t = dfGrid (df13Curve t) ∧ ∀ f ∈ df13Front t, ParetoPoint (dfBox 2 n 0 1 (-1) 1) (df13 t) f := by
  constructor
  · refine List.filter_eq_self.2 fun p hp => ?_
    simp only [decide_eq_true_eq]
    intro q hq hd
    have hP := (C117_df13_surface_partial n hn t h0 h1 p).2 ((C117_grid _).2 p hp)
    obtain ⟨⟨x, hx, hxq⟩, _⟩ := (C117_df13_surface_partial n hn t h0 h1 q).2 ((C117_grid _).2 q hq)
    exact hP.2 x hx (hxq ▸ hd)
  · intro f hf
    exact (C117_df13_surface_partial n hn t h0 h1 f).2 ((C117_grid _).2 f (List.mem_filter.1 (show f ∈ List.filter _ _ from hf)).1)

/-- The first times of the default setting: 0. -/
example : 0 ≤ dfSin 0 ∧ dfSin 0 < 1 / 6 := by norm_num [dfSin]

theorem df14_slope : |(0.05:ℝ) * (6 * Real.pi)| < 1 := by
  have hpi := Real.pi_lt_d2
  have hpi0 := Real.pi_pos
  rw [abs_lt]
  constructor <;> nlinarith

theorem sin_six_pi : Real.sin (6 * Real.pi) = 0 := by exact_mod_cast Real.sin_nat_mul_pi 6

theorem df14_y (t : ℝ) {u : ℝ} (hu : Unit01 u) : Unit01 (0.5 + dfSin t * (u - 0.5)) := by
  have hG := dfSin_mem t
  have h1 : |dfSin t * (u - 0.5)| ≤ 0.5 := by
    rw [abs_mul]
    have a1 := (dfAbs_mem t).2
    have a2 : |u - 0.5| ≤ 0.5 := abs_le.2 ⟨by linarith [hu.1], by linarith [hu.2]⟩
    nlinarith [abs_nonneg (u - 0.5), abs_nonneg (dfSin t)]
  have := abs_le.1 h1
  exact ⟨by linarith, by linarith⟩

/-- C117, DF14: at every time the Pareto-optimal points are exactly the points of the surface. -/
theorem C117_df14_surface (n : ℕ) (hn : 2 ≤ n) (t : ℝ) (f : Fin 3 → ℝ) :
    ParetoPoint (dfBox 2 n 0 1 (-1) 1) (df14 t) f ↔ Surface (df14Curve t) f := by
  let A : ℝ → ℝ := fun v => 1 - v + 0.05 * Real.sin (6 * Real.pi * v)
  let B : ℝ → ℝ := fun v => v + 0.05 * Real.sin (6 * Real.pi * v)
  have hAB : ∀ {u v : ℝ}, u < v → B u < B v ∧ A v < A u := fun h => wave_mono df14_slope h
  have hpos : ∀ {u : ℝ}, Unit01 u → 0 ≤ B u ∧ 0 ≤ A u := fun h => wave_nonneg df14_slope sin_six_pi h
  have hsum : ∀ v, 0 < A v + B v := fun v => by
    have := Real.neg_one_le_sin (6 * Real.pi * v)
    show 0 < (1 - v + 0.05 * Real.sin (6 * Real.pi * v)) + (v + 0.05 * Real.sin (6 * Real.pi * v))
    linarith
  have hc : ∀ u v, df14Curve t u v = ![A (0.5 + dfSin t * (u - 0.5)), A v * B (0.5 + dfSin t * (u - 0.5)), B v * B (0.5 + dfSin t * (u - 0.5))] :=
    fun u v => rfl
  refine front_antichain _ _ (Surface (df14Curve t)) ?_ ?_ (fun x hx => ?_) f
  · rintro a b ⟨u, v, hu, hv, rfl⟩ ⟨u', v', hu', hv', rfl⟩ hd
    rw [hc, hc] at hd
    set y := 0.5 + dfSin t * (u - 0.5) with hy
    set y' := 0.5 + dfSin t * (u' - 0.5) with hy'
    have hyU : Unit01 y := df14_y t hu
    have hyU' : Unit01 y' := df14_y t hu'
    have d0 : A y ≤ A y' := by simpa using hd.1 0
    have d1 : A v * B y ≤ A v' * B y' := by simpa using hd.1 1
    have d2 : B v * B y ≤ B v' * B y' := by simpa using hd.1 2
    have hyy : y' ≤ y := by
      by_contra hcon
      push Not at hcon
      exact absurd d0 (not_le.2 (hAB hcon).2)
    have hBy : B y' ≤ B y := by
      rcases eq_or_lt_of_le hyy with e | e
      · rw [e]
      · exact (hAB e).1.le
    have pv := hpos hv
    have pv' := hpos hv'
    have py := hpos hyU
    have py' := hpos hyU'
    have hyeq : y' = y := by
      by_contra hne
      have hlt : B y' < B y := (hAB (lt_of_le_of_ne hyy hne)).1
      have b0 : 0 < B y := lt_of_le_of_lt py'.1 hlt
      rcases lt_trichotomy v v' with h | h | h
      · have := (hAB h).2
        have a0 : 0 < A v := lt_of_le_of_lt pv'.2 this
        have : A v' * B y' ≤ A v' * B y := mul_le_mul_of_nonneg_left hBy pv'.2
        have : A v' * B y < A v * B y := mul_lt_mul_of_pos_right (hAB h).2 b0
        linarith
      · subst h
        have e1 : A v * (B y - B y') ≤ 0 := by linarith
        have e2 : B v * (B y - B y') ≤ 0 := by linarith
        have e3 : (A v + B v) * (B y - B y') ≤ 0 := by linarith
        have := mul_pos (hsum v) (sub_pos.2 hlt)
        linarith
      · have : B v' * B y' ≤ B v' * B y := mul_le_mul_of_nonneg_left hBy pv'.1
        have : B v' * B y < B v * B y := mul_lt_mul_of_pos_right (hAB h).1 b0
        linarith
    rw [hyeq] at hd d1 d2
    rcases eq_or_lt_of_le py.1 with hz | hz
    · obtain ⟨i, hi⟩ := hd.2
      rw [← hz] at hi
      fin_cases i <;> simp at hi
    · have a1 : A v ≤ A v' := le_of_mul_le_mul_right d1 hz
      have b1 : B v ≤ B v' := le_of_mul_le_mul_right d2 hz
      have hvv : v = v' := by
        rcases lt_trichotomy v v' with h | h | h
        · linarith [(hAB h).2]
        · exact h
        · linarith [(hAB h).1]
      rw [hvv] at hd
      obtain ⟨i, hi⟩ := hd.2
      exact lt_irrefl _ hi
  · rintro c ⟨u, v, hu, hv, rfl⟩
    refine ⟨_, box_two_rep hn hu hv (dfSin_mem t), ?_⟩
    simp [df14, df14Curve, dfDist_rep]
  · obtain ⟨g0, g1⟩ := box_two hn hx
    refine ⟨_, ⟨x.getD 0 0, x.getD 1 0, g0, g1, rfl⟩, fun i => ?_⟩
    have hg := dfDist_ge (dfSin t) (x.drop 2)
    have py := hpos (df14_y t g0)
    have pv := hpos g1
    fin_cases i
    · exact le_mul_of_one_le_left py.2 hg
    · exact mul_le_mul_of_nonneg_right (le_mul_of_one_le_left pv.2 hg) py.1
    · exact mul_le_mul_of_nonneg_right (le_mul_of_one_le_left pv.1 hg) py.1

/-- C117, DF14: every returned point is Pareto-optimal. -/
theorem C117_df14 (n : ℕ) (hn : 2 ≤ n) (t : ℝ) : ∀ f ∈ dfGrid (df14Curve t), ParetoPoint (dfBox 2 n 0 1 (-1) 1) (df14 t) f :=
  fun f hf => (C117_df14_surface n hn t f).2 ((C117_grid _).2 f hf)

/-- The boxes are not empty. -/
example : dfBox 2 10 0 1 (-1) 1 [0, 1, 0, 0, 0, 0, 0, 0, 0, -1] ∧ dfBox 1 3 1 4 0 1 [2, 0, 1] := by
  refine ⟨⟨rfl, ?_, ?_⟩, rfl, ?_, ?_⟩ <;> intro v hv <;> simp at hv
  · rcases hv with rfl | rfl <;> norm_num
  · rcases hv with rfl | rfl <;> norm_num
  · subst hv; norm_num
  · rcases hv with rfl | rfl <;> norm_num

end Props
