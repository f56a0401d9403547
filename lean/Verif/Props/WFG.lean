import Verif.Props.WFGFront
import Verif.Props.Misc

/-! # C133: the WFG problems — the range of the objectives, the Pareto-optimal solutions and objective vectors, what `pareto_set` and `pareto_front` return -/

namespace Props
open Spec Model

section
variable {m k l gap : ℕ} (hm : 2 ≤ m) (hgap : 0 < gap) (hk : k = (m - 1) * gap) (hl : 0 < l)
include hm

/-! ### Objectives in terms of the reduced parameters -/

theorem sphere_eval {t : List ℝ × ℝ} (h1 : Cube (m - 1) 0 1 t.1) (h2 : Unit01 t.2) (i : Fin m) : wfgSphere m t i =
    t.2 + 2 * ((i : ℕ) + 1) * dtlzShape (fun v => Real.sin (0.5 * v * Real.pi)) (fun v => Real.cos (0.5 * v * Real.pi)) t.1 i := by
  simp only [wfgSphere, wfgCalc]
  rw [post_ones h2.2]
  unfold wfgConcave
  rw [(wfgShape_eq (fun v hv => sin_cos_unit hv) h1 i (by omega)).1]

theorem wfg1_eval {n : ℕ} {opt : List ℝ → List ℝ} (H : WfgMap n k m (wfg1Red m k) opt) {z : List ℝ} (hz : Cube n 0 1 z) (i : Fin m) : wfg1 m k (wfgScale z) i =
    (wfg1Red m k z).2 + 2 * ((i : ℕ) + 1) * if (i : ℕ) < m - 1 then
      dtlzShape (fun v => 1 - Real.cos (0.5 * v * Real.pi)) (fun v => 1 - Real.sin (0.5 * v * Real.pi)) (wfg1Red m k z).1 i
      else mixedRaw ((wfg1Red m k z).1.getD 0 0) := by
  obtain ⟨h1, h2⟩ := H.range z hz
  simp only [wfg1, wfgCalc]
  rw [norm_scale, post_ones h2.2, (mixed_eq (getD_unit' h1 0)).1]
  unfold wfgConvex
  rw [(wfgShape_eq convex_fns.1 h1 i (by omega)).1]

theorem wfg2_eval {n : ℕ} {opt : List ℝ → List ℝ} (H : WfgMap n k m (wfg2Red m k) opt) {z : List ℝ} (hz : Cube n 0 1 z) (i : Fin m) : wfg2 m k (wfgScale z) i =
    (wfg2Red m k z).2 + 2 * ((i : ℕ) + 1) * if (i : ℕ) < m - 1 then
      dtlzShape (fun v => 1 - Real.cos (0.5 * v * Real.pi)) (fun v => 1 - Real.sin (0.5 * v * Real.pi)) (wfg2Red m k z).1 i
      else 1 - (wfg2Red m k z).1.getD 0 0 * Real.cos (5 * Real.pi * (wfg2Red m k z).1.getD 0 0) ^ 2 := by
  obtain ⟨h1, h2⟩ := H.range z hz
  simp only [wfg2, wfgCalc]
  rw [norm_scale, post_ones h2.2, (disc_eq (getD_unit' h1 0)).1]
  unfold wfgConvex
  rw [(wfgShape_eq convex_fns.1 h1 i (by omega)).1]

theorem wfg3_eval {n : ℕ} {opt : List ℝ → List ℝ} (H : WfgMap n k m (wfg2Red m k) opt) {z : List ℝ} (hz : Cube n 0 1 z) :
    Cube (m - 1) 0 1 (wfgPost (fun i => if i = 0 then 1 else 0) (wfg2Red m k z)).1 ∧ ∀ i : Fin m, wfg3 m k (wfgScale z) i =
    (wfg2Red m k z).2 + 2 * ((i : ℕ) + 1) * dtlzShape (fun v => v) (fun v => 1 - v) (wfgPost (fun i => if i = 0 then 1 else 0) (wfg2Red m k z)).1 i := by
  obtain ⟨h1, h2⟩ := H.range z hz
  have hc : Cube (m - 1) 0 1 (wfgPost (fun i => if i = 0 then 1 else 0) (wfg2Red m k z)).1 :=
    post_range (fun i => by split <;> simp [Unit01]) h1 h2
  refine ⟨hc, fun i => ?_⟩
  simp only [wfg3, wfgCalc]
  rw [norm_scale]
  unfold wfgLinear
  rw [(wfgShape_eq (fun v hv => ⟨hv, by linarith [hv.2], by linarith [hv.1]⟩) hc i (by omega)).1]
  rfl

theorem wfg9_eval {n : ℕ} {opt : List ℝ → List ℝ} (H : WfgMap n k m (wfg9Red m k) opt) {z : List ℝ} (hz : Cube n 0 1 z) (i : Fin m) : wfg9 m k (wfgScale z) i =
    (wfg9Red m k z).2 + 2 * ((i : ℕ) + 1) * dtlzShape (fun v => Real.sin (0.5 * v * Real.pi)) (fun v => Real.cos (0.5 * v * Real.pi)) (wfg9Red m k z).1 i := by
  obtain ⟨h1, h2⟩ := H.range z hz
  simp only [wfg9, wfgCalc]
  rw [norm_scale]
  unfold wfgConcave
  rw [(wfgShape_eq (fun v hv => sin_cos_unit hv) h1 i (by omega)).1]

/-- WFG9 leaves out the post-processing, which changes nothing. -/
theorem wfg9_post {n : ℕ} {opt : List ℝ → List ℝ} (H : WfgMap n k m (wfg9Red m k) opt) {x : List ℝ} (hx : WfgBox n x) :
    wfg9 m k x = wfgSphere m (wfg9Red m k (wfgNorm x)) := by
  obtain ⟨h1, h2⟩ := H.range _ (norm_cube hx)
  simp only [wfg9, wfgSphere]
  rw [post_ones h2.2]

theorem sphere_surface (f : Fin m → ℝ) : (∃ X, Cube (m - 1) 0 1 X ∧ ∀ i : Fin m, f i = 2 * ((i : ℕ) + 1) *
    dtlzShape (fun v => Real.sin (0.5 * v * Real.pi)) (fun v => Real.cos (0.5 * v * Real.pi)) X i) ↔ WfgEllipsoid f := by
  have hpos : ∀ i : ℕ, (0 : ℝ) < 2 * ((i : ℝ) + 1) := fun i => by positivity
  constructor
  · rintro ⟨X, hX, hf⟩
    refine ⟨fun i => ?_, ?_⟩
    · rw [hf]
      exact mul_nonneg (hpos i).le (wfgShape_eq (fun v hv => sin_cos_unit hv) hX i (by omega)).2.1
    · have h1 : ∀ i : Fin m, f i / (2 * ((i : ℕ) + 1)) = dtlzShape (fun v => Real.sin (0.5 * v * Real.pi)) (fun v => Real.cos (0.5 * v * Real.pi)) X i := fun i => by
        rw [hf, mul_div_cancel_left₀ _ (hpos i).ne']
      simp only [h1]
      rw [sum_range_fin (by omega) fun i => dtlzShape (fun v => Real.sin (0.5 * v * Real.pi)) (fun v => Real.cos (0.5 * v * Real.pi)) X i ^ 2]
      have := dtlzShape_sum (fun v => Real.sin (0.5 * v * Real.pi)) (fun v => Real.cos (0.5 * v * Real.pi)) 2 X fun v hv => (concave_polar.circle v (hX.2 v hv)).2.2
      rwa [hX.1] at this
  · rintro ⟨h0, h1⟩
    set r : ℕ → ℝ := fun i => if h : i < m then f ⟨i, h⟩ / (2 * ((i : ℝ) + 1)) else 0 with hr
    obtain ⟨X, hX, hXr⟩ := dtlzShape_onto _ _ concave_polar (m - 1) r (fun i hi => by
        simp only [hr]
        split
        · exact div_nonneg (h0 _) (hpos i).le
        · exact le_rfl) (by
        rw [← sum_range_fin (by omega) fun i => r i ^ 2, ← h1]
        refine Finset.sum_congr rfl fun i _ => ?_
        simp only [hr, i.isLt, dif_pos])
    refine ⟨X, hX, fun i => ?_⟩
    rw [hXr i (by omega)]
    simp only [hr, i.isLt, dif_pos]
    rw [mul_div_cancel₀ _ (hpos i).ne']

include hgap hk hl

/-! ### WFG4 - WFG9: the exact Pareto set and front -/

/-- WFG4-WFG9: a solution is Pareto-optimal exactly if it is a completion of some positions by `_positional_to_optimal`. -/
theorem C133_sphere_sets (x : List ℝ) (hx : WfgBox (k + l) x) :
    (ParetoPoint (WfgBox (k + l)) (wfg4 m k) (wfg4 m k x) ↔ ∃ K, Cube k 0 1 K ∧ x = wfgScale (wfgOptimal l K)) ∧
    (ParetoPoint (WfgBox (k + l)) (wfg5 m k) (wfg5 m k x) ↔ ∃ K, Cube k 0 1 K ∧ x = wfgScale (wfgOptimal l K)) ∧
    (ParetoPoint (WfgBox (k + l)) (wfg6 m k) (wfg6 m k x) ↔ ∃ K, Cube k 0 1 K ∧ x = wfgScale (wfgOptimal l K)) ∧
    (ParetoPoint (WfgBox (k + l)) (wfg7 m k) (wfg7 m k x) ↔ ∃ K, Cube k 0 1 K ∧ x = wfgScale (wfgOptimal l K)) ∧
    (ParetoPoint (WfgBox (k + l)) (wfg8 m k) (wfg8 m k x) ↔ ∃ K, Cube k 0 1 K ∧ x = wfgScale (wfg8Optimal l K)) ∧
    (ParetoPoint (WfgBox (k + l)) (wfg9 m k) (wfg9 m k x) ↔ ∃ K, Cube k 0 1 K ∧ x = wfgScale (wfg9Optimal l K)) := by
  have anti := anti_polar hm concave_polar
  have ev : ∀ (Red : List ℝ → List ℝ × ℝ) (opt : List ℝ → List ℝ), WfgMap (k + l) k m Red opt → ∀ z, Cube (k + l) 0 1 z → ∀ i : Fin m,
      wfgSphere m (Red (wfgNorm (wfgScale z))) i = (Red z).2 + 2 * ((i : ℕ) + 1) *
        dtlzShape (fun v => Real.sin (0.5 * v * Real.pi)) (fun v => Real.cos (0.5 * v * Real.pi)) (Red z).1 i := fun Red opt H z hz i => by
    rw [norm_scale]; exact sphere_eval hm (H.range z hz).1 (H.range z hz).2 i
  exact ⟨(wfg_exact (by omega) (wfg4_map hm hgap hk hl) anti (ev _ _ (wfg4_map hm hgap hk hl))).1 x hx,
    (wfg_exact (by omega) (wfg5_map hm hgap hk hl) anti (ev _ _ (wfg5_map hm hgap hk hl))).1 x hx,
    (wfg_exact (by omega) (wfg6_map hm hgap hk hl) anti (ev _ _ (wfg6_map hm hgap hk hl))).1 x hx,
    (wfg_exact (by omega) (wfg7_map hm hgap hk hl) anti (ev _ _ (wfg7_map hm hgap hk hl))).1 x hx,
    (wfg_exact (by omega) (wfg8_map hm hgap hk hl) anti (ev _ _ (wfg8_map hm hgap hk hl))).1 x hx,
    (wfg_exact (by omega) (wfg9_map hm hgap hk hl) anti fun z hz i => wfg9_eval hm (wfg9_map hm hgap hk hl) hz i).1 x hx⟩

/-- WFG4-WFG9: the Pareto-optimal objective vectors are exactly the points of the ellipsoid. -/
theorem C133_sphere_fronts (f : Fin m → ℝ) :
    (ParetoPoint (WfgBox (k + l)) (wfg4 m k) f ↔ WfgEllipsoid f) ∧ (ParetoPoint (WfgBox (k + l)) (wfg5 m k) f ↔ WfgEllipsoid f) ∧
    (ParetoPoint (WfgBox (k + l)) (wfg6 m k) f ↔ WfgEllipsoid f) ∧ (ParetoPoint (WfgBox (k + l)) (wfg7 m k) f ↔ WfgEllipsoid f) ∧
    (ParetoPoint (WfgBox (k + l)) (wfg8 m k) f ↔ WfgEllipsoid f) ∧ (ParetoPoint (WfgBox (k + l)) (wfg9 m k) f ↔ WfgEllipsoid f) := by
  have anti := anti_polar hm concave_polar
  have ev : ∀ (Red : List ℝ → List ℝ × ℝ) (opt : List ℝ → List ℝ), WfgMap (k + l) k m Red opt → ∀ z, Cube (k + l) 0 1 z → ∀ i : Fin m,
      wfgSphere m (Red (wfgNorm (wfgScale z))) i = (Red z).2 + 2 * ((i : ℕ) + 1) *
        dtlzShape (fun v => Real.sin (0.5 * v * Real.pi)) (fun v => Real.cos (0.5 * v * Real.pi)) (Red z).1 i := fun Red opt H z hz i => by
    rw [norm_scale]; exact sphere_eval hm (H.range z hz).1 (H.range z hz).2 i
  rw [← sphere_surface hm f]
  exact ⟨(wfg_exact (by omega) (wfg4_map hm hgap hk hl) anti (ev _ _ (wfg4_map hm hgap hk hl))).2 f,
    (wfg_exact (by omega) (wfg5_map hm hgap hk hl) anti (ev _ _ (wfg5_map hm hgap hk hl))).2 f,
    (wfg_exact (by omega) (wfg6_map hm hgap hk hl) anti (ev _ _ (wfg6_map hm hgap hk hl))).2 f,
    (wfg_exact (by omega) (wfg7_map hm hgap hk hl) anti (ev _ _ (wfg7_map hm hgap hk hl))).2 f,
    (wfg_exact (by omega) (wfg8_map hm hgap hk hl) anti (ev _ _ (wfg8_map hm hgap hk hl))).2 f,
    (wfg_exact (by omega) (wfg9_map hm hgap hk hl) anti fun z hz i => wfg9_eval hm (wfg9_map hm hgap hk hl) hz i).2 f⟩

/-- The front WFG9 returns: every reference direction is taken to a Pareto-optimal objective vector. -/
theorem C133_wfg9_front (r : Fin m → ℝ) (h0 : ∀ i, 0 ≤ r i) (h1 : ∃ i, r i ≠ 0) : ParetoPoint (WfgBox (k + l)) (wfg9 m k) (wfg9Front r) := by
  rw [(C133_sphere_fronts hm hgap hk hl _).2.2.2.2.2]
  obtain ⟨h2, h3, -⟩ := C82_generic_sphere r h0 h1
  refine ⟨fun i => mul_nonneg (h2 i) (by positivity), ?_⟩
  refine (Finset.sum_congr rfl fun i _ => ?_).trans h3
  unfold wfg9Front
  rw [mul_div_cancel_right₀]
  positivity

/-! ### WFG1 -/

theorem wfg1_shape (X : List ℝ) (hX : Cube (m - 1) 0 1 X) (i : Fin m) :
    (2 * ((i : ℕ) + 1) * if (i : ℕ) < m - 1 then dtlzShape (fun v => 1 - Real.cos (0.5 * v * Real.pi)) (fun v => 1 - Real.sin (0.5 * v * Real.pi)) X i
      else mixedRaw (X.getD 0 0)) = wfg1Surface (fun j => X.getD j 0) i := by
  have hi := i.isLt
  unfold wfg1Surface
  congr 1
  rcases Nat.lt_or_ge i (m - 1) with h | h
  · rw [if_pos h, if_neg (by omega)]
    unfold dtlzShape
    rw [hX.1]
    have h1 : (X.take (m - 1 - i)) = (List.range (m - 1 - i)).map fun j : ℕ => X.getD j 0 := by
      apply List.ext_getElem
      · simp [hX.1]
      · intro j hj hj'
        have : j < X.length := by rw [List.length_take] at hj; omega
        simp [List.getD, this]
    have hprod : ∀ (n : ℕ) (f : ℕ → ℝ), ((List.range n).map f).prod = ∏ j ∈ Finset.range n, f j := fun _ _ => rfl
    rw [h1, List.map_map, hprod]
    have h2 : ∀ v : ℝ, 0.5 * v * Real.pi = Real.pi * v / 2 := fun v => by ring
    simp only [Function.comp, h2]
    congr 1
    rcases Nat.eq_zero_or_pos (i : ℕ) with h0 | h0
    · rw [if_neg (by omega), if_pos h0]
    · rw [if_pos h0, if_neg (by omega)]
  · rw [if_neg (by omega), if_pos (by omega)]
    simp only [mixedRaw]

/-- WFG1: the Pareto-optimal solutions are exactly the completions, the Pareto-optimal objective vectors exactly the surface. -/
theorem C133_wfg1 :
    (∀ x, WfgBox (k + l) x → (ParetoPoint (WfgBox (k + l)) (wfg1 m k) (wfg1 m k x) ↔ ∃ K, Cube k 0 1 K ∧ x = wfgScale (wfgOptimal l K))) ∧
    ∀ f, ParetoPoint (WfgBox (k + l)) (wfg1 m k) f ↔ ∃ t : ℕ → ℝ, (∀ j, 0 ≤ t j ∧ t j ≤ 1) ∧ f = wfg1Surface t := by
  have H := wfg1_map hm hgap hk hl
  have anti := anti_convex (e := mixedRaw) convex_fns.1 convex_fns.2.1 convex_fns.2.2.1 convex_fns.2.2.2 (fun u v _ _ h => mixedRaw_anti h) hm
  obtain ⟨h1, h2⟩ := wfg_exact (by omega) H anti fun z hz i => wfg1_eval hm H hz i
  refine ⟨h1, fun f => ?_⟩
  rw [h2 f]
  constructor
  · rintro ⟨X, hX, hf⟩
    exact ⟨fun j => X.getD j 0, fun j => getD_unit' hX j, funext fun i => by rw [hf, wfg1_shape hm hgap hk hl X hX i]⟩
  · rintro ⟨t, ht, rfl⟩
    have hX : Cube (m - 1) 0 1 ((List.range (m - 1)).map t) := ⟨by simp, fun v hv => by
      obtain ⟨j, _, rfl⟩ := List.mem_map.1 hv; exact ht j⟩
    refine ⟨_, hX, fun i => ?_⟩
    rw [wfg1_shape hm hgap hk hl _ hX i]
    have hget : ∀ j < m - 1, ((List.range (m - 1)).map t).getD j 0 = t j := fun j hj => by simp [List.getD, hj]
    simp only [wfg1Surface]
    rw [hget 0 (by omega)]
    congr 2
    congr 1
    · refine Finset.prod_congr rfl fun j hj => ?_
      rw [hget j (by rw [Finset.mem_range] at hj; omega)]
    · by_cases h0 : (i : ℕ) = 0
      · rw [if_pos h0, if_pos h0]
      · rw [if_neg h0, if_neg h0, hget _ (by omega)]

end

end Props
