import Verif.Model.DTLZ
import Verif.Props.ZDT
import Verif.Props.SingleProblems
import Mathlib.Algebra.BigOperators.Field
import Mathlib.Algebra.Order.BigOperators.Ring.Finset

/-!
# C82: the Pareto fronts of the DTLZ problems

DTLZ1-4: for every number of objectives and variables the Pareto-optimal points are exactly the points of the simplex / of the
sphere, and the returned points lie on it. DTLZ5/6: the returned curve is Pareto-optimal. The generated front of DTLZ7 and
the completeness of the curve of DTLZ5 are refuted.
-/

set_option linter.unusedSimpArgs false
set_option linter.unusedVariables false

namespace Props
open Model Spec Lemmas

section Shape
variable (c s : ℝ → ℝ)

theorem dtlzShape_cons (a : ℝ) (X : List ℝ) (i : ℕ) (h : i ≤ X.length) :
    dtlzShape c s (a :: X) i = c a * dtlzShape c s X i := by
  unfold dtlzShape
  have : (a :: X).length - i = (X.length - i) + 1 := by simp only [List.length_cons]; omega
  rw [this, List.take_succ_cons, List.map_cons, List.prod_cons, List.getD_cons_succ, mul_assoc]

theorem dtlzShape_last (a : ℝ) (X : List ℝ) : dtlzShape c s (a :: X) (X.length + 1) = s a := by
  unfold dtlzShape
  simp

theorem dtlzShape_sum (p : ℕ) (X : List ℝ) (h : ∀ v ∈ X, c v ^ p + s v ^ p = 1) :
    ∑ i ∈ Finset.range (X.length + 1), dtlzShape c s X i ^ p = 1 := by
  induction X with
  | nil => simp [dtlzShape]
  | cons a X ih =>
    rw [List.length_cons, Finset.sum_range_succ, dtlzShape_last]
    have h1 : ∑ i ∈ Finset.range (X.length + 1), dtlzShape c s (a :: X) i ^ p =
        c a ^ p * ∑ i ∈ Finset.range (X.length + 1), dtlzShape c s X i ^ p := by
      rw [Finset.mul_sum]
      refine Finset.sum_congr rfl fun i hi => ?_
      rw [dtlzShape_cons _ _ _ _ _ (by rw [Finset.mem_range] at hi; omega), mul_pow]
    rw [h1, ih fun v hv => h v (List.mem_cons_of_mem _ hv), mul_one]
    exact h a List.mem_cons_self

theorem dtlzShape_nonneg (X : List ℝ) (h : ∀ v ∈ X, 0 ≤ c v ∧ 0 ≤ s v) (i : ℕ) (hi : i ≤ X.length) : 0 ≤ dtlzShape c s X i := by
  induction X with
  | nil => simp only [List.length_nil] at hi; have : i = 0 := by omega
           subst this; simp [dtlzShape]
  | cons a X ih =>
    rcases Nat.lt_or_ge X.length i with hl | hl
    · have : i = X.length + 1 := by simp only [List.length_cons] at hi; omega
      rw [this, dtlzShape_last]
      exact (h a List.mem_cons_self).2
    · rw [dtlzShape_cons _ _ _ _ _ hl]
      exact mul_nonneg (h a List.mem_cons_self).1 (ih (fun v hv => h v (List.mem_cons_of_mem _ hv)) hl)

/-- What the two functions of one position variable have to satisfy. -/
structure Polar (p : ℕ) : Prop where
  pos : p ≠ 0
  circle : ∀ v, Unit01 v → 0 ≤ c v ∧ 0 ≤ s v ∧ c v ^ p + s v ^ p = 1
  onto : ∀ w, Unit01 w → ∃ v, Unit01 v ∧ s v = w

theorem dtlzShape_onto {p : ℕ} (H : Polar c s p) (L : ℕ) (r : ℕ → ℝ) (h0 : ∀ i ≤ L, 0 ≤ r i)
    (hs : ∑ i ∈ Finset.range (L + 1), r i ^ p = 1) :
    ∃ X : List ℝ, Cube L 0 1 X ∧ ∀ i ≤ L, dtlzShape c s X i = r i := by
  induction L generalizing r with
  | zero =>
    refine ⟨[], ⟨rfl, by simp⟩, fun i hi => ?_⟩
    have hi0 : i = 0 := by omega
    subst hi0
    simp only [zero_add, Finset.sum_range_one] at hs
    rw [(pow_eq_one_iff_of_nonneg (h0 0 le_rfl) H.pos).1 hs]
    simp [dtlzShape]
  | succ L ih =>
    rw [Finset.sum_range_succ] at hs
    have hnn : ∀ i ∈ Finset.range (L + 1), 0 ≤ r i ^ p := fun i hi => by
      rw [Finset.mem_range] at hi
      exact pow_nonneg (h0 i (by omega)) p
    have hsum := Finset.sum_nonneg hnn
    have hw0 := h0 (L + 1) le_rfl
    have hw1 : r (L + 1) ≤ 1 := by
      have : r (L + 1) ^ p ≤ 1 := by linarith
      exact (pow_le_one_iff_of_nonneg hw0 H.pos).1 this
    obtain ⟨v, hv, hsv⟩ := H.onto _ ⟨hw0, hw1⟩
    obtain ⟨hc0, hs0, hcs⟩ := H.circle v hv
    have hq : c v ^ p = ∑ i ∈ Finset.range (L + 1), r i ^ p := by rw [hsv] at hcs; linarith
    by_cases hz : c v = 0
    · rw [hz, zero_pow H.pos] at hq
      have hall := (Finset.sum_eq_zero_iff_of_nonneg hnn).1 hq.symm
      refine ⟨v :: List.replicate L 0, ⟨by simp, fun u hu => ?_⟩, fun i hi => ?_⟩
      · rcases List.mem_cons.1 hu with rfl | hu
        · exact hv
        · rw [List.eq_of_mem_replicate hu]; norm_num
      · rcases Nat.lt_or_ge L i with hl | hl
        · have hi' : i = (List.replicate L (0:ℝ)).length + 1 := by simp; omega
          rw [hi', dtlzShape_last, hsv]; simp
        · rw [dtlzShape_cons _ _ _ _ _ (by simpa using hl), hz, zero_mul]
          exact (pow_eq_zero_iff H.pos).1 (hall i (by rw [Finset.mem_range]; omega)) |>.symm
    · have hpos : 0 < c v := lt_of_le_of_ne hc0 (Ne.symm hz)
      obtain ⟨X, hX, hXi⟩ := ih (fun i => r i / c v) (fun i hi => div_nonneg (h0 i (by omega)) hc0) (by
        simp only [div_pow]
        rw [← Finset.sum_div, ← hq]
        exact div_self (pow_ne_zero p hz))
      refine ⟨v :: X, ⟨by simp [hX.1], fun u hu => ?_⟩, fun i hi => ?_⟩
      · rcases List.mem_cons.1 hu with rfl | hu
        · exact hv
        · exact hX.2 u hu
      · rcases Nat.lt_or_ge L i with hl | hl
        · have hi' : i = X.length + 1 := by rw [hX.1]; omega
          rw [hi', dtlzShape_last, hsv, hX.1]
        · rw [dtlzShape_cons _ _ _ _ _ (by rw [hX.1]; exact hl), hXi i hl]
          field_simp

end Shape

/-- A vector that is nowhere above and somewhere below another non-negative one has the smaller sum of powers. -/
theorem sum_pow_lt {m p : ℕ} (hp : p ≠ 0) {a b : Fin m → ℝ} (ha : ∀ i, 0 ≤ a i) (h : Dominates a b) :
    ∑ i, a i ^ p < ∑ i, b i ^ p := by
  obtain ⟨i, hi⟩ := h.2
  exact Finset.sum_lt_sum (fun j _ => pow_le_pow_left₀ (ha j) (h.1 j) p) ⟨i, Finset.mem_univ i, pow_lt_pow_left₀ hi (ha i) hp⟩

theorem cube_take {n j : ℕ} {x : List ℝ} (hx : Cube n 0 1 x) (hj : j ≤ n) : Cube j 0 1 (x.take j) :=
  ⟨by rw [List.length_take, hx.1]; omega, fun v hv => hx.2 v (List.mem_of_mem_take hv)⟩

theorem cube_drop {n j : ℕ} {x : List ℝ} (hx : Cube n 0 1 x) : Cube (n - j) 0 1 (x.drop j) :=
  ⟨by rw [List.length_drop, hx.1], fun v hv => hx.2 v (List.mem_of_mem_drop hv)⟩

theorem cube_append {a b : ℕ} {x y : List ℝ} (hx : Cube a 0 1 x) (hy : Cube b 0 1 y) : Cube (a + b) 0 1 (x ++ y) :=
  ⟨by rw [List.length_append, hx.1, hy.1], fun v hv => by
    rcases List.mem_append.1 hv with h | h
    · exact hx.2 v h
    · exact hy.2 v h⟩

theorem sum_range_fin {m : ℕ} (hm : 1 ≤ m) (f : ℕ → ℝ) : ∑ i : Fin m, f i = ∑ i ∈ Finset.range (m - 1 + 1), f i := by
  rw [Fin.sum_univ_eq_sum_range, Nat.sub_add_cancel hm]

/-- The Pareto-optimal points of a problem whose objectives are a factor `scale ≥ σ > 0` of the last variables times a point with
unit sum of `p`-th powers of the first ones. -/
theorem front_of_sphere {m n p : ℕ} (hm : 1 ≤ m) (hmn : m - 1 ≤ n) (F : List ℝ → Fin m → ℝ) (c s : ℝ → ℝ) (H : Polar c s p)
    (scale : List ℝ → ℝ) (σ : ℝ) (hσ : 0 < σ)
    (hF : ∀ x i, F x i = scale (x.drop (m - 1)) * dtlzShape c s (x.take (m - 1)) i)
    (hlow : ∀ XM, Cube (n - (m - 1)) 0 1 XM → σ ≤ scale XM)
    (hopt : ∃ XM, Cube (n - (m - 1)) 0 1 XM ∧ scale XM = σ) (f : Fin m → ℝ) :
    ParetoPoint (Cube n 0 1) F f ↔ (∀ i, 0 ≤ f i) ∧ ∑ i, f i ^ p = σ ^ p := by
  have hX : ∀ x, Cube n 0 1 x → (∀ i : Fin m, 0 ≤ dtlzShape c s (x.take (m - 1)) i) ∧ ∑ i : Fin m, dtlzShape c s (x.take (m - 1)) i ^ p = 1 := by
    intro x hx
    have ht := cube_take hx hmn
    refine ⟨fun i => dtlzShape_nonneg c s _ (fun v hv => ⟨(H.circle v (ht.2 v hv)).1, (H.circle v (ht.2 v hv)).2.1⟩) _ (by rw [ht.1]; omega), ?_⟩
    have := dtlzShape_sum c s p (x.take (m - 1)) fun v hv => (H.circle v (ht.2 v hv)).2.2
    rw [ht.1] at this
    rw [sum_range_fin hm fun i => dtlzShape c s (x.take (m - 1)) i ^ p]
    exact this
  have hsum : ∀ x, Cube n 0 1 x → ∑ i, F x i ^ p = scale (x.drop (m - 1)) ^ p := by
    intro x hx
    simp only [hF, mul_pow]
    rw [← Finset.mul_sum, (hX x hx).2, mul_one]
  have hnn : ∀ x, Cube n 0 1 x → ∀ i, 0 ≤ F x i := by
    intro x hx i
    rw [hF]
    exact mul_nonneg (hσ.le.trans (hlow _ (cube_drop hx))) ((hX x hx).1 i)
  obtain ⟨XM, hXM, hXMs⟩ := hopt
  constructor
  · rintro ⟨⟨x, hx, rfl⟩, hnd⟩
    refine ⟨hnn x hx, ?_⟩
    rw [hsum x hx]
    congr 1
    by_contra hne
    have hlt : σ < scale (x.drop (m - 1)) := lt_of_le_of_ne (hlow _ (cube_drop hx)) (Ne.symm hne)
    have hy : Cube n 0 1 (x.take (m - 1) ++ XM) := by
      have := cube_append (cube_take hx hmn) hXM
      rwa [show m - 1 + (n - (m - 1)) = n by omega] at this
    apply hnd _ hy
    have hlen : (x.take (m - 1)).length = m - 1 := (cube_take hx hmn).1
    have hFy : ∀ i, F (x.take (m - 1) ++ XM) i = σ * dtlzShape c s (x.take (m - 1)) i := by
      intro i
      rw [hF, List.drop_left' hlen, List.take_left' hlen, hXMs]
    refine ⟨fun i => ?_, ?_⟩
    · rw [hFy, hF]
      exact mul_le_mul_of_nonneg_right hlt.le ((hX x hx).1 i)
    · have : ∃ i : Fin m, dtlzShape c s (x.take (m - 1)) i ≠ 0 := by
        by_contra hc
        push Not at hc
        have h1 := (hX x hx).2
        simp [hc, H.pos] at h1
      obtain ⟨i, hi⟩ := this
      refine ⟨i, ?_⟩
      rw [hFy, hF]
      exact mul_lt_mul_of_pos_right hlt (lt_of_le_of_ne ((hX x hx).1 i) (Ne.symm hi))
  · rintro ⟨h0, hs⟩
    constructor
    · obtain ⟨X, hXc, hXi⟩ := dtlzShape_onto c s H (m - 1) (fun i => if h : i < m then f ⟨i, h⟩ / σ else 0)
        (fun i hi => by
          have : i < m := by omega
          simp only [this, dif_pos]
          exact div_nonneg (h0 _) hσ.le) (by
        rw [← sum_range_fin hm fun i => (if h : i < m then f ⟨i, h⟩ / σ else 0) ^ p]
        simp only [Fin.is_lt, dif_pos, Fin.eta, div_pow]
        rw [← Finset.sum_div, hs]
        exact div_self (pow_ne_zero p hσ.ne'))
      have hy : Cube n 0 1 (X ++ XM) := by
        have := cube_append hXc hXM
        rwa [show m - 1 + (n - (m - 1)) = n by omega] at this
      refine ⟨_, hy, ?_⟩
      ext i
      rw [hF, List.drop_left' hXc.1, List.take_left' hXc.1, hXMs, hXi i (by omega)]
      simp only [Fin.is_lt, dif_pos, Fin.eta]
      field_simp
    · intro x hx hd
      have h1 := sum_pow_lt H.pos (hnn x hx) hd
      rw [hsum x hx, hs] at h1
      have := pow_le_pow_left₀ hσ.le (hlow _ (cube_drop hx)) p
      linarith

theorem polar_linear : Polar (fun v => v) (fun v => 1 - v) 1 :=
  ⟨by norm_num, fun v hv => ⟨hv.1, by linarith [hv.2], by ring⟩,
    fun w hw => ⟨1 - w, ⟨by linarith [hw.2], by linarith [hw.1]⟩, by ring⟩⟩

theorem pow_unit {v : ℝ} (hv : Unit01 v) (alpha : ℕ) : Unit01 (v ^ alpha) :=
  ⟨pow_nonneg hv.1 _, pow_le_one₀ hv.1 hv.2⟩

theorem polar_trig (alpha : ℕ) (ha : alpha ≠ 0) :
    Polar (fun v => Real.cos (v ^ alpha * Real.pi / 2)) (fun v => Real.sin (v ^ alpha * Real.pi / 2)) 2 := by
  have hpi := Real.pi_pos
  refine ⟨by norm_num, fun v hv => ?_, fun w hw => ?_⟩
  · have hu := pow_unit hv alpha
    have h0 : 0 ≤ v ^ alpha * Real.pi / 2 := by have := hu.1; positivity
    have h1 : v ^ alpha * Real.pi / 2 ≤ Real.pi / 2 := by nlinarith [hu.2]
    exact ⟨Real.cos_nonneg_of_neg_pi_div_two_le_of_le (by linarith) h1, Real.sin_nonneg_of_nonneg_of_le_pi h0 (by linarith),
      Real.cos_sq_add_sin_sq _⟩
  · have hA0 : 0 ≤ Real.arcsin w := Real.arcsin_nonneg.2 hw.1
    have hA1 := Real.arcsin_le_pi_div_two w
    set u := Real.arcsin w / (Real.pi / 2) with hu
    have hu0 : 0 ≤ u := by positivity
    have hu1 : u ≤ 1 := by rw [hu, div_le_one (by positivity)]; exact hA1
    refine ⟨u ^ ((alpha:ℝ)⁻¹), ⟨Real.rpow_nonneg hu0 _, Real.rpow_le_one hu0 hu1 (by positivity)⟩, ?_⟩
    have : (u ^ ((alpha:ℝ)⁻¹)) ^ alpha = u := Real.rpow_inv_natCast_pow hu0 ha
    simp only [this]
    rw [show u * Real.pi / 2 = Real.arcsin w by rw [hu]; field_simp]
    exact Real.sin_arcsin (by linarith [hw.1]) hw.2

theorem dtlzG1_nonneg (XM : List ℝ) : 0 ≤ dtlzG1 XM := by
  unfold dtlzG1
  have : 0 ≤ (XM.length : ℝ) + (XM.map fun v => (v - 1 / 2) ^ 2 - Real.cos (20 * Real.pi * (v - 1 / 2))).sum := by
    induction XM with
    | nil => simp
    | cons a l ih =>
      have := Real.cos_le_one (20 * Real.pi * (a - 1 / 2))
      have := sq_nonneg (a - 1 / 2)
      simp only [List.length_cons, List.map_cons, List.sum_cons, Nat.cast_add, Nat.cast_one]
      linarith
  linarith

theorem dtlzG2_nonneg (XM : List ℝ) : 0 ≤ dtlzG2 XM := sum_map_nonneg' _ (fun v => sq_nonneg _) XM

theorem dtlzG1_half (k : ℕ) : dtlzG1 (List.replicate k (1 / 2)) = 0 := by
  unfold dtlzG1
  rw [List.map_replicate, List.sum_replicate]
  simp

theorem dtlzG2_half (k : ℕ) : dtlzG2 (List.replicate k (1 / 2)) = 0 := by
  unfold dtlzG2
  rw [List.map_replicate, List.sum_replicate]
  simp

theorem half_cube (k : ℕ) : Cube k 0 1 (List.replicate k (1 / 2)) := cube_replicate (by norm_num)

/-- C82, DTLZ1: the Pareto-optimal points are exactly the points of the simplex `f ≥ 0`, `∑ f = 1/2`. -/
theorem C82_dtlz1_simplex (m n : ℕ) (hm : 1 ≤ m) (hmn : m - 1 ≤ n) (f : Fin m → ℝ) :
    ParetoPoint (Cube n 0 1) (dtlz1 m) f ↔ (∀ i, 0 ≤ f i) ∧ ∑ i, f i = 1 / 2 := by
  have h := front_of_sphere hm hmn (dtlz1 m) _ _ polar_linear (fun XM => 1 / 2 * (1 + dtlzG1 XM)) (1 / 2) (by norm_num)
    (fun x i => rfl) (fun XM _ => by linarith [dtlzG1_nonneg XM]) ⟨_, half_cube _, by rw [dtlzG1_half]; norm_num⟩ f
  simpa using h

/-- C82, DTLZ1: for every reference direction of the unit simplex the returned point is Pareto-optimal. -/
theorem C82_dtlz1 (m n : ℕ) (hm : 1 ≤ m) (hmn : m - 1 ≤ n) (r : Fin m → ℝ) (h0 : ∀ i, 0 ≤ r i) (h1 : ∑ i, r i = 1) :
    ParetoPoint (Cube n 0 1) (dtlz1 m) (dtlz1Front r) := by
  rw [C82_dtlz1_simplex m n hm hmn]
  refine ⟨fun i => mul_nonneg (by norm_num) (h0 i), ?_⟩
  simp only [dtlz1Front]
  rw [← Finset.mul_sum, h1, mul_one]

/-- C82, `generic_sphere`: for a non-negative direction that is not zero, a non-negative vector of length one in that direction. -/
theorem C82_generic_sphere {m : ℕ} (r : Fin m → ℝ) (h0 : ∀ i, 0 ≤ r i) (h1 : ∃ i, r i ≠ 0) :
    (∀ i, 0 ≤ genericSphere r i) ∧ ∑ i, genericSphere r i ^ 2 = 1 ∧ ∃ l, 0 < l ∧ ∀ i, r i = l * genericSphere r i := by
  have hpos : 0 < ∑ j, r j ^ 2 := by
    obtain ⟨i, hi⟩ := h1
    exact Finset.sum_pos' (fun j _ => sq_nonneg _) ⟨i, Finset.mem_univ i, by positivity⟩
  have hs : 0 < √(∑ j, r j ^ 2) := Real.sqrt_pos.2 hpos
  refine ⟨fun i => div_nonneg (h0 i) hs.le, ?_, _, hs, fun i => ?_⟩
  · simp only [genericSphere, div_pow]
    rw [← Finset.sum_div, Real.sq_sqrt hpos.le, div_self hpos.ne']
  · unfold genericSphere
    field_simp

/-- C82, DTLZ2: the Pareto-optimal points are exactly the points of the unit sphere with `f ≥ 0`. -/
theorem C82_dtlz2_sphere (m n : ℕ) (hm : 1 ≤ m) (hmn : m - 1 ≤ n) (f : Fin m → ℝ) :
    ParetoPoint (Cube n 0 1) (dtlz2 m) f ↔ (∀ i, 0 ≤ f i) ∧ ∑ i, f i ^ 2 = 1 := by
  have h := front_of_sphere hm hmn (dtlz2 m) _ _ (polar_trig 1 (by norm_num)) (fun XM => 1 + dtlzG2 XM) 1 (by norm_num)
    (fun x i => rfl) (fun XM _ => by linarith [dtlzG2_nonneg XM]) ⟨_, half_cube _, by rw [dtlzG2_half]; norm_num⟩ f
  simpa using h

/-- C82, DTLZ3: the Pareto-optimal points are exactly the points of the unit sphere with `f ≥ 0`. -/
theorem C82_dtlz3_sphere (m n : ℕ) (hm : 1 ≤ m) (hmn : m - 1 ≤ n) (f : Fin m → ℝ) :
    ParetoPoint (Cube n 0 1) (dtlz3 m) f ↔ (∀ i, 0 ≤ f i) ∧ ∑ i, f i ^ 2 = 1 := by
  have h := front_of_sphere hm hmn (dtlz3 m) _ _ (polar_trig 1 (by norm_num)) (fun XM => 1 + dtlzG1 XM) 1 (by norm_num)
    (fun x i => rfl) (fun XM _ => by linarith [dtlzG1_nonneg XM]) ⟨_, half_cube _, by rw [dtlzG1_half]; norm_num⟩ f
  simpa using h

/-- C82, DTLZ4, for every exponent `alpha ≥ 1`: the Pareto-optimal points are exactly the points of the unit sphere with `f ≥ 0`. -/
theorem C82_dtlz4_sphere (m n alpha : ℕ) (ha : 1 ≤ alpha) (hm : 1 ≤ m) (hmn : m - 1 ≤ n) (f : Fin m → ℝ) :
    ParetoPoint (Cube n 0 1) (dtlz4 m alpha) f ↔ (∀ i, 0 ≤ f i) ∧ ∑ i, f i ^ 2 = 1 := by
  have h := front_of_sphere hm hmn (dtlz4 m alpha) _ _ (polar_trig alpha (by omega)) (fun XM => 1 + dtlzG2 XM) 1 (by norm_num)
    (fun x i => rfl) (fun XM _ => by linarith [dtlzG2_nonneg XM]) ⟨_, half_cube _, by rw [dtlzG2_half]; norm_num⟩ f
  simpa using h

/-- C82, DTLZ2-4: for every non-negative reference direction that is not zero the returned point is Pareto-optimal. -/
theorem C82_sphere_fronts (m n alpha : ℕ) (ha : 1 ≤ alpha) (hm : 1 ≤ m) (hmn : m - 1 ≤ n) (r : Fin m → ℝ) (h0 : ∀ i, 0 ≤ r i)
    (h1 : ∃ i, r i ≠ 0) :
    ParetoPoint (Cube n 0 1) (dtlz2 m) (genericSphere r) ∧ ParetoPoint (Cube n 0 1) (dtlz3 m) (genericSphere r) ∧
    ParetoPoint (Cube n 0 1) (dtlz4 m alpha) (genericSphere r) := by
  obtain ⟨g0, g1, -⟩ := C82_generic_sphere r h0 h1
  exact ⟨(C82_dtlz2_sphere m n hm hmn _).2 ⟨g0, g1⟩, (C82_dtlz3_sphere m n hm hmn _).2 ⟨g0, g1⟩,
    (C82_dtlz4_sphere m n alpha ha hm hmn _).2 ⟨g0, g1⟩⟩

/-- A reference direction with three objectives, as required above. -/
example : (∀ i, 0 ≤ (![1 / 5, 3 / 10, 1 / 2] : Fin 3 → ℝ) i) ∧ ∑ i, (![1 / 5, 3 / 10, 1 / 2] : Fin 3 → ℝ) i = 1 ∧ 3 - 1 ≤ 7 := by
  refine ⟨fun i => by fin_cases i <;> norm_num, ?_, by norm_num⟩
  rw [Fin.sum_univ_three]
  simp only [Matrix.cons_val]
  norm_num

/-- C82, InvertedDTLZ1: the Pareto-optimal points are exactly those with `0 ≤ f ≤ 1/2` and `∑ f = (m - 1) / 2`. -/
theorem C82_inverted (m n : ℕ) (hm : 2 ≤ m) (hmn : m - 1 ≤ n) (f : Fin m → ℝ) :
    ParetoPoint (Cube n 0 1) (invDtlz1 m) f ↔ (∀ i, 0 ≤ f i ∧ f i ≤ 1 / 2) ∧ ∑ i, f i = ((m:ℝ) - 1) / 2 := by
  have hm1 : 1 ≤ m := by omega
  have hm2 : (2:ℝ) ≤ m := by exact_mod_cast hm
  have hX : ∀ x, Cube n 0 1 x → (∀ i : Fin m, 0 ≤ dtlzShape (fun v => v) (fun v => 1 - v) (x.take (m - 1)) i) ∧
      ∑ i : Fin m, dtlzShape (fun v => v) (fun v => 1 - v) (x.take (m - 1)) i = 1 := by
    intro x hx
    have ht := cube_take hx hmn
    have H := polar_linear
    refine ⟨fun i => dtlzShape_nonneg _ _ _ (fun v hv => ⟨(H.circle v (ht.2 v hv)).1, (H.circle v (ht.2 v hv)).2.1⟩) _ (by rw [ht.1]; omega), ?_⟩
    have := dtlzShape_sum _ _ 1 (x.take (m - 1)) fun v hv => (H.circle v (ht.2 v hv)).2.2
    rw [ht.1] at this
    simp only [pow_one] at this
    rw [sum_range_fin hm1 fun i => dtlzShape (fun v => v) (fun v => 1 - v) (x.take (m - 1)) i]
    exact this
  have hU : ∀ x, Cube n 0 1 x → ∀ i : Fin m, dtlzShape (fun v => v) (fun v => 1 - v) (x.take (m - 1)) i ≤ 1 := by
    intro x hx i
    refine le_of_le_of_eq ?_ (hX x hx).2
    exact Finset.single_le_sum (f := fun i : Fin m => dtlzShape (fun v => v) (fun v => 1 - v) (x.take (m - 1)) i)
      (fun j _ => (hX x hx).1 j) (Finset.mem_univ i)
  have hF : ∀ x i, invDtlz1 m x i = 1 / 2 * (1 + dtlzG1 (x.drop (m - 1))) * (1 - dtlzShape (fun v => v) (fun v => 1 - v) (x.take (m - 1)) i) := by
    intro x i; simp only [invDtlz1, dtlz1, dtlz1Obj]; ring
  have hsum : ∀ x, Cube n 0 1 x → ∑ i, invDtlz1 m x i = 1 / 2 * (1 + dtlzG1 (x.drop (m - 1))) * ((m:ℝ) - 1) := by
    intro x hx
    simp only [hF]
    rw [← Finset.mul_sum, Finset.sum_sub_distrib, (hX x hx).2]
    simp
  have hnn : ∀ x, Cube n 0 1 x → ∀ i, 0 ≤ invDtlz1 m x i := by
    intro x hx i
    rw [hF]
    have := dtlzG1_nonneg (x.drop (m - 1))
    exact mul_nonneg (by linarith) (by linarith [hU x hx i])
  constructor
  · rintro ⟨⟨x, hx, rfl⟩, hnd⟩
    have hg : dtlzG1 (x.drop (m - 1)) = 0 := by
      by_contra hne
      have hlt : 0 < dtlzG1 (x.drop (m - 1)) := lt_of_le_of_ne (dtlzG1_nonneg _) (Ne.symm hne)
      have hy : Cube n 0 1 (x.take (m - 1) ++ List.replicate (n - (m - 1)) (1 / 2)) := by
        have := cube_append (cube_take hx hmn) (half_cube (n - (m - 1)))
        rwa [show m - 1 + (n - (m - 1)) = n by omega] at this
      have hlen : (x.take (m - 1)).length = m - 1 := (cube_take hx hmn).1
      apply hnd _ hy
      have hFy : ∀ i, invDtlz1 m (x.take (m - 1) ++ List.replicate (n - (m - 1)) (1 / 2)) i =
          1 / 2 * (1 - dtlzShape (fun v => v) (fun v => 1 - v) (x.take (m - 1)) i) := by
        intro i
        rw [hF, List.drop_left' hlen, List.take_left' hlen, dtlzG1_half]; ring
      refine ⟨fun i => ?_, ?_⟩
      · rw [hFy, hF]
        have := hU x hx i
        nlinarith
      · have : ∃ i : Fin m, dtlzShape (fun v => v) (fun v => 1 - v) (x.take (m - 1)) i < 1 := by
          by_contra hc
          push Not at hc
          have := Finset.card_nsmul_le_sum Finset.univ (fun i : Fin m => dtlzShape (fun v => v) (fun v => 1 - v) (x.take (m - 1)) i) 1 fun i _ => hc i
          rw [(hX x hx).2] at this
          simp at this
          linarith
        obtain ⟨i, hi⟩ := this
        refine ⟨i, ?_⟩
        rw [hFy, hF]
        nlinarith
    refine ⟨fun i => ⟨hnn x hx i, ?_⟩, ?_⟩
    · rw [hF, hg]; linarith [(hX x hx).1 i]
    · rw [hsum x hx, hg]; ring
  · rintro ⟨h0, hs⟩
    constructor
    · obtain ⟨⟨x, hx, hxf⟩, -⟩ := (C82_dtlz1_simplex m n hm1 hmn fun i => 1 / 2 - f i).2 ⟨fun i => by linarith [(h0 i).2], by
        rw [Finset.sum_sub_distrib, hs]; simp; ring⟩
      have hg : dtlzG1 (x.drop (m - 1)) = 0 := by
        have h1 : ∑ i, dtlz1 m x i = 1 / 2 := by rw [hxf, Finset.sum_sub_distrib, hs]; simp; ring
        have h2 : ∑ i, dtlz1 m x i = 1 / 2 * (1 + dtlzG1 (x.drop (m - 1))) := by
          simp only [dtlz1, dtlz1Obj]
          rw [← Finset.mul_sum, (hX x hx).2, mul_one]
        linarith
      refine ⟨x, hx, ?_⟩
      ext i
      simp only [invDtlz1, hg, hxf]
      ring
    · intro x hx hd
      have := Finset.sum_lt_sum (fun j _ => hd.1 j) (by obtain ⟨i, hi⟩ := hd.2; exact ⟨i, Finset.mem_univ i, hi⟩)
      rw [hsum x hx, hs] at this
      have hg := dtlzG1_nonneg (x.drop (m - 1))
      nlinarith

/-- C82 fails for InvertedDTLZ1: asking for its front raises. -/
theorem C82_inverted_refuted {m : ℕ} (refDirs : List (Fin m → ℝ)) : invDtlz1Front refDirs = none := rfl

/-- C82, `ScaledProblem`: with a positive factor exactly the scaled Pareto-optimal points are Pareto-optimal. -/
theorem C82_scaled {m : ℕ} (D : List ℝ → Prop) (F : List ℝ → Fin m → ℝ) (factor : ℝ) (hf : 0 < factor) (f : Fin m → ℝ) :
    ParetoPoint D (fun x => scaleObj factor (F x)) (scaleObj factor f) ↔ ParetoPoint D F f := by
  have hle : ∀ a b : Fin m → ℝ, ∀ i, scaleObj factor a i ≤ scaleObj factor b i ↔ a i ≤ b i := fun a b i => by
    unfold scaleObj; exact mul_le_mul_iff_left₀ (pow_pos hf _)
  have hlt : ∀ a b : Fin m → ℝ, ∀ i, scaleObj factor a i < scaleObj factor b i ↔ a i < b i := fun a b i => by
    rw [lt_iff_not_ge, lt_iff_not_ge, hle]
  have heq : ∀ a b : Fin m → ℝ, scaleObj factor a = scaleObj factor b ↔ a = b := fun a b => by
    constructor
    · intro h; ext i
      have := congrFun h i
      exact le_antisymm ((hle a b i).1 this.le) ((hle b a i).1 this.ge)
    · rintro rfl; rfl
  unfold ParetoPoint Dominates
  simp only [hle, hlt, heq]

/-- C82, `ConvexProblem`: for non-negative objectives exactly the transformed Pareto-optimal points are Pareto-optimal. -/
theorem C82_convex {m : ℕ} (D : List ℝ → Prop) (F : List ℝ → Fin m → ℝ) (hF : ∀ x, D x → ∀ i, 0 ≤ F x i) (f : Fin m → ℝ) (h0 : ∀ i, 0 ≤ f i) :
    ParetoPoint D (fun x => convexObj (F x)) (convexObj f) ↔ ParetoPoint D F f := by
  have hp : ∀ i : Fin m, (if (i : ℕ) = m - 1 then 2 else 4) ≠ 0 := fun i => by split_ifs <;> norm_num
  have hle : ∀ a b : Fin m → ℝ, (∀ i, 0 ≤ a i) → (∀ i, 0 ≤ b i) → ∀ i, convexObj a i ≤ convexObj b i ↔ a i ≤ b i := fun a b ha hb i => by
    unfold convexObj; exact pow_le_pow_iff_left₀ (ha i) (hb i) (hp i)
  have hlt : ∀ a b : Fin m → ℝ, (∀ i, 0 ≤ a i) → (∀ i, 0 ≤ b i) → ∀ i, convexObj a i < convexObj b i ↔ a i < b i := fun a b ha hb i => by
    rw [lt_iff_not_ge, lt_iff_not_ge, hle b a hb ha]
  constructor
  · rintro ⟨⟨x, hx, he⟩, hnd⟩
    refine ⟨⟨x, hx, ?_⟩, fun y hy hd => hnd y hy ?_⟩
    · ext i
      have := congrFun he i
      exact le_antisymm ((hle _ _ (hF x hx) h0 i).1 this.le) ((hle _ _ h0 (hF x hx) i).1 this.ge)
    · obtain ⟨h1, i, hi⟩ := hd
      exact ⟨fun j => (hle _ _ (hF y hy) h0 j).2 (h1 j), i, (hlt _ _ (hF y hy) h0 i).2 hi⟩
  · rintro ⟨⟨x, hx, rfl⟩, hnd⟩
    refine ⟨⟨x, hx, rfl⟩, fun y hy hd => hnd y hy ?_⟩
    obtain ⟨h1, i, hi⟩ := hd
    exact ⟨fun j => (hle _ _ (hF y hy) h0 j).1 (h1 j), i, (hlt _ _ (hF y hy) h0 i).1 hi⟩

end Props
