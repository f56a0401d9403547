import Verif.Props.WFG
import Mathlib.Tactic.IntervalCases

/-! # C133: WFG2 and WFG3, the range of the objectives, and what `pareto_set`, `pareto_front` and the constructor do -/

namespace Props
open Spec Model

/-! ### The range of the objectives -/

theorem range_of {m n k : ℕ} {F : List ℝ → Fin m → ℝ} {T : List ℝ → List ℝ × ℝ} {opt : List ℝ → List ℝ} {h : List ℝ → ℕ → ℝ} (H : WfgMap n k m T opt)
    (hF : ∀ z, Cube n 0 1 z → ∀ i : Fin m, ∃ v, Unit01 v ∧ F (wfgScale z) i = (T z).2 + 2 * ((i : ℕ) + 1) * v) {x : List ℝ} (hx : WfgBox n x) (i : Fin m) :
    0 ≤ F x i ∧ F x i ≤ 1 + 2 * ((i : ℕ) + 1) := by
  have hz := norm_cube hx
  obtain ⟨-, hd⟩ := H.range _ hz
  obtain ⟨v, hv, he⟩ := hF _ hz i
  rw [scale_norm] at he
  rw [he]
  have hp : (0 : ℝ) ≤ 2 * ((i : ℕ) + 1) := by positivity
  have h1 := mul_nonneg hp hv.1
  have h2 := mul_le_of_le_one_right hp hv.2
  exact ⟨by linarith [hd.1], by linarith [hd.2]⟩

section
variable {m k l q gap : ℕ} (hm : 2 ≤ m) (hgap : 0 < gap) (hk : k = (m - 1) * gap)
include hm hgap hk

/-- Whatever the solution, objective `i` (from zero) of a WFG problem lies between 0 and `1 + 2 (i + 1)`. -/
theorem C133_range (hl : 0 < l) (x : List ℝ) (hx : WfgBox (k + l) x) (i : Fin m) :
    ∀ F ∈ [wfg1 m k, wfg4 m k, wfg5 m k, wfg6 m k, wfg7 m k, wfg8 m k, wfg9 m k], 0 ≤ F x i ∧ F x i ≤ 1 + 2 * ((i : ℕ) + 1) := by
  have sph : ∀ t : List ℝ × ℝ, Cube (m - 1) 0 1 t.1 → Unit01 t.2 → ∀ i : Fin m, ∃ v, Unit01 v ∧ wfgSphere m t i = t.2 + 2 * ((i : ℕ) + 1) * v :=
    fun t h1 h2 i => ⟨_, (wfgShape_eq (fun v hv => sin_cos_unit hv) h1 i (by omega)).2, sphere_eval hm h1 h2 i⟩
  have ev : ∀ (Red : List ℝ → List ℝ × ℝ) (opt : List ℝ → List ℝ), WfgMap (k + l) k m Red opt → ∀ z, Cube (k + l) 0 1 z → ∀ i : Fin m,
      ∃ v, Unit01 v ∧ wfgSphere m (Red (wfgNorm (wfgScale z))) i = (Red z).2 + 2 * ((i : ℕ) + 1) * v := fun Red opt H z hz i => by
    rw [norm_scale]; exact sph _ (H.range z hz).1 (H.range z hz).2 i
  intro F hF
  simp only [List.mem_cons, List.not_mem_nil, or_false] at hF
  rcases hF with rfl | rfl | rfl | rfl | rfl | rfl | rfl
  · have H := wfg1_map hm hgap hk hl
    refine range_of (h := fun _ _ => 0) H (fun z hz i => ⟨_, ?_, wfg1_eval hm H hz i⟩) hx i
    split
    · exact (wfgShape_eq convex_fns.1 (H.range z hz).1 i (by omega)).2
    · exact (mixed_eq (getD_unit' (H.range z hz).1 0)).2
  · exact range_of (h := fun _ _ => 0) (wfg4_map hm hgap hk hl) (ev _ _ (wfg4_map hm hgap hk hl)) hx i
  · exact range_of (h := fun _ _ => 0) (wfg5_map hm hgap hk hl) (ev _ _ (wfg5_map hm hgap hk hl)) hx i
  · exact range_of (h := fun _ _ => 0) (wfg6_map hm hgap hk hl) (ev _ _ (wfg6_map hm hgap hk hl)) hx i
  · exact range_of (h := fun _ _ => 0) (wfg7_map hm hgap hk hl) (ev _ _ (wfg7_map hm hgap hk hl)) hx i
  · exact range_of (h := fun _ _ => 0) (wfg8_map hm hgap hk hl) (ev _ _ (wfg8_map hm hgap hk hl)) hx i
  · have H := wfg9_map hm hgap hk hl
    exact range_of (h := fun _ _ => 0) H (fun z hz i => ⟨_, (wfgShape_eq (fun v hv => sin_cos_unit hv) (H.range z hz).1 i (by omega)).2, wfg9_eval hm H hz i⟩) hx i

/-- The same for WFG2 and WFG3, whose number of distance variables is even. -/
theorem C133_range_even (hq : 0 < q) (x : List ℝ) (hx : WfgBox (k + 2 * q) x) (i : Fin m) :
    (0 ≤ wfg2 m k x i ∧ wfg2 m k x i ≤ 1 + 2 * ((i : ℕ) + 1)) ∧ 0 ≤ wfg3 m k x i ∧ wfg3 m k x i ≤ 1 + 2 * ((i : ℕ) + 1) := by
  have H := wfg2_map hm hgap hk hq
  constructor
  · refine range_of (h := fun _ _ => 0) H (fun z hz i => ⟨_, ?_, wfg2_eval hm H hz i⟩) hx i
    split
    · exact (wfgShape_eq convex_fns.1 (H.range z hz).1 i (by omega)).2
    · exact (disc_eq (getD_unit' (H.range z hz).1 0)).2
  · refine range_of (h := fun _ _ => 0) H (fun z hz i => ⟨_, ?_, (wfg3_eval hm H hz).2 i⟩) hx i
    exact (wfgShape_eq (fun v hv => ⟨hv, by linarith [hv.2], by linarith [hv.1]⟩) (wfg3_eval hm H hz).1 i (by omega)).2

/-! ### WFG2 -/

/-- WFG2: a Pareto-optimal solution is a completion of some positions. What is missing: the converse, which is false (`C133_wfg2_refuted`). -/
theorem C133_wfg2_partial (hq : 0 < q) (x : List ℝ) (hx : WfgBox (k + 2 * q) x) (hP : ParetoPoint (WfgBox (k + 2 * q)) (wfg2 m k) (wfg2 m k x)) :
    ∃ K, Cube k 0 1 K ∧ x = wfgScale (wfgOptimal (2 * q) K) :=
  wfg_set (by omega) (h := fun X i => if i < m - 1 then dtlzShape (fun v => 1 - Real.cos (0.5 * v * Real.pi)) (fun v => 1 - Real.sin (0.5 * v * Real.pi)) X i
      else 1 - X.getD 0 0 * Real.cos (5 * Real.pi * X.getD 0 0) ^ 2)
    (wfg2_map hm hgap hk hq) (fun z hz i => wfg2_eval hm (wfg2_map hm hgap hk hq) hz i) hx hP

/-! ### WFG3 -/

theorem wfg3_post_zero {t : List ℝ × ℝ} (h1 : Cube (m - 1) 0 1 t.1) (h0 : t.2 = 0) :
    (wfgPost (fun i => if i = 0 then 1 else 0) t).1 = t.1.getD 0 0 :: List.replicate (m - 2) 0.5 := by
  obtain ⟨X, d⟩ := t
  simp only at h1 h0
  subst h0
  obtain ⟨x, X, rfl⟩ : ∃ x X', X = x :: X' := by
    cases X with
    | nil => have := h1.1; simp at this; omega
    | cons x X => exact ⟨x, X, rfl⟩
  have hl : X.length = m - 2 := by have := h1.1; simp at this; omega
  unfold wfgPost
  simp only [List.zipIdx_cons, List.map_cons, if_true, List.getD_cons_zero]
  congr 1
  · rw [max_eq_right (by norm_num)]; ring
  · rw [List.eq_replicate_iff]
    refine ⟨by simp [hl], fun v hv => ?_⟩
    obtain ⟨e, he, rfl⟩ := List.mem_map.1 hv
    have : e.2 ≠ 0 := by
      have := List.le_snd_of_mem_zipIdx he
      omega
    rw [if_neg this, max_self]; ring

theorem degenerate_shape (u : ℝ) (i : Fin m) : dtlzShape (fun v => v) (fun v => 1 - v) (u :: List.replicate (m - 2) (0.5 : ℝ)) i =
    if (i : ℕ) = m - 1 then 1 - u else u * (1 / 2) ^ (m - 1 - max (i : ℕ) 1) := by
  have hi := i.isLt
  have hrep : ∀ (L j : ℕ), j ≤ L → dtlzShape (fun v => v) (fun v => 1 - v) (List.replicate L (0.5 : ℝ)) j = (1 / 2) ^ (L + 1 - max j 1) := by
    intro L
    induction L with
    | zero => intro j hj; have : j = 0 := by omega
              subst this; simp [dtlzShape]
    | succ L ih =>
      intro j hj
      rw [List.replicate_succ]
      rcases Nat.lt_or_ge L j with h | h
      · have : j = L + 1 := by omega
        subst this
        have := dtlzShape_last (fun v => v) (fun v => 1 - v) 0.5 (List.replicate L 0.5)
        rw [List.length_replicate] at this
        rw [this, show L + 1 + 1 - max (L + 1) 1 = 1 by omega]; norm_num
      · rw [dtlzShape_cons _ _ _ _ _ (by rw [List.length_replicate]; exact h), ih j h, show L + 1 + 1 - max j 1 = (L + 1 - max j 1) + 1 by omega, pow_succ]
        norm_num; ring
  by_cases h : (i : ℕ) = m - 1
  · rw [if_pos h]
    have := dtlzShape_last (fun v => v) (fun v => 1 - v) u (List.replicate (m - 2) 0.5)
    rw [List.length_replicate, show m - 2 + 1 = m - 1 by omega, ← h] at this
    exact this
  · rw [if_neg h, dtlzShape_cons _ _ _ _ _ (by rw [List.length_replicate]; omega), hrep _ _ (by omega), show m - 2 + 1 = m - 1 by omega]

/-- WFG3: the completions are Pareto-optimal, and their objective vectors are exactly the points of a segment (`u` between 0 and 1). -/
theorem C133_wfg3 (hq : 0 < q) :
    (∀ K, Cube k 0 1 K → ParetoPoint (WfgBox (k + 2 * q)) (wfg3 m k) (wfg3 m k (wfgScale (wfgOptimal (2 * q) K)))) ∧
    ∀ f : Fin m → ℝ, (∃ K, Cube k 0 1 K ∧ f = wfg3 m k (wfgScale (wfgOptimal (2 * q) K))) ↔
      ∃ u : ℝ, 0 ≤ u ∧ u ≤ 1 ∧ ∀ i : Fin m, f i = 2 * ((i : ℕ) + 1) * if (i : ℕ) = m - 1 then 1 - u else u * (1 / 2) ^ (m - 1 - max (i : ℕ) 1) := by
  have H := wfg2_map hm hgap hk hq
  have img : ∀ K, Cube k 0 1 K → ∀ i : Fin m, wfg3 m k (wfgScale (wfgOptimal (2 * q) K)) i =
      2 * ((i : ℕ) + 1) * if (i : ℕ) = m - 1 then 1 - (wfg2Red m k (wfgOptimal (2 * q) K)).1.getD 0 0
        else (wfg2Red m k (wfgOptimal (2 * q) K)).1.getD 0 0 * (1 / 2) ^ (m - 1 - max (i : ℕ) 1) := by
    intro K hK i
    have hz := H.inside K hK
    have h0 := (H.zero _ hz).2 ⟨K, hK, rfl⟩
    rw [(wfg3_eval hm H hz).2 i, wfg3_post_zero hm hgap hk (H.range _ hz).1 h0, h0, zero_add, degenerate_shape hm hgap hk]
  refine ⟨fun K hK => ?_, fun f => ?_⟩
  · exact wfg_sound (T := fun z => wfgPost (fun i => if i = 0 then 1 else 0) (wfg2Red m k z)) (anti_polar hm polar_linear)
      (fun z hz => ⟨(wfg3_eval hm H hz).1, (H.range z hz).2.1⟩) (fun z hz i => (wfg3_eval hm H hz).2 i) (H.inside K hK) ((H.zero _ (H.inside K hK)).2 ⟨K, hK, rfl⟩)
  · constructor
    · rintro ⟨K, hK, rfl⟩
      have hu := getD_unit' (H.range _ (H.inside K hK)).1 0
      exact ⟨_, hu.1, hu.2, fun i => img K hK i⟩
    · rintro ⟨u, hu0, hu1, hf⟩
      obtain ⟨K, hK, he⟩ := H.onto (u :: List.replicate (m - 2) 0) ⟨by simp; omega, fun v hv => by
        rcases List.mem_cons.1 hv with rfl | hv
        · exact ⟨hu0, hu1⟩
        · rw [(List.mem_replicate.1 hv).2]; exact ⟨le_rfl, zero_le_one⟩⟩
      refine ⟨K, hK, funext fun i => ?_⟩
      rw [hf, img K hK i, he]
      rfl

end

/-- WFG3 with three objectives, four position and two distance variables: a Pareto-optimal objective vector, at the greatest possible
distance, that is not among the objective vectors of the completions, so that neither `pareto_set` nor `pareto_front` can contain it. -/
theorem C133_wfg3_refuted : ∃ x, WfgBox 6 x ∧ ParetoPoint (WfgBox 6) (wfg3 3 4) (wfg3 3 4 x) ∧ (∀ i, wfg3 3 4 x i = ![3, 1, 1] i) ∧
    ¬ ∃ K, Cube 4 0 1 K ∧ wfg3 3 4 x = wfg3 3 4 (wfgScale (wfgOptimal 2 K)) := by
  have hm : 2 ≤ 3 := by norm_num
  have hgap : 0 < 2 := by norm_num
  have hk : 4 = (3 - 1) * 2 := by norm_num
  have H : WfgMap 6 4 3 (wfg2Red 3 4) (wfgOptimal 2) := wfg2_map hm hgap hk (q := 1) (by norm_num)
  have hz : Cube 6 0 1 [1, 1, 1, 1, 1, 0.35] := ⟨rfl, fun v hv => by
    simp only [List.mem_cons, List.not_mem_nil, or_false] at hv
    rcases hv with rfl | rfl | rfl | rfl | rfl | rfl <;> norm_num⟩
  have hshape : ∀ X : List ℝ, dtlzShape (fun v => v) (fun v => 1 - v) X = fun i => ((X.take (X.length - i)).map fun v => v).prod * (if 0 < i then 1 - X.getD (X.length - i) 0 else 1) := fun X => rfl
  have hT : wfg2Red 3 4 [1, 1, 1, 1, 1, 0.35] = ([1, 1], 1) := by
    have hs1 : wfgShiftLinear 0.35 1 = 1 := by rw [shift_high (by norm_num) le_rfl]; norm_num
    have hs2 : wfgShiftLinear 0.35 0.35 = 0 := (shift_zero ⟨by norm_num, by norm_num⟩).2 rfl
    have hn : wfgNonSep 2 [1, 0] = 1 := by
      rw [nonSep_eq (by norm_num) (by rfl)]
      unfold spread
      simp only [Fin.sum_univ_two]
      norm_num [correct01]
    have hm2 : wfgMean [1, 1] = 1 := by have := mean_rep (n := 2) (by norm_num) (v := 1) (by norm_num [Unit01]); exact this
    have hm1 : wfgMean [1] = 1 := by have := mean_rep (n := 1) (by norm_num) (v := 1) (by norm_num [Unit01]); exact this
    simp only [wfg2Red, wfg2T3, wfg2T2, wfg1T1, wfgGroups]
    simp [hs1, hs2, wfgPairs, hn, hm1, hm2, List.range_succ]
  have hpost : (wfgPost (fun i => if i = 0 then 1 else 0) (([1, 1], 1) : List ℝ × ℝ)).1 = [1, 1] := by
    simp [wfgPost]
  have hval : ∀ i, wfg3 3 4 (wfgScale [1, 1, 1, 1, 1, 0.35]) i = ![3, 1, 1] i := by
    intro i
    rw [(wfg3_eval hm H hz).2 i, hT, hpost, hshape]
    fin_cases i <;> norm_num
  refine ⟨wfgScale [1, 1, 1, 1, 1, 0.35], scale_box hz, ⟨⟨_, scale_box hz, rfl⟩, fun x hx hdom => ?_⟩, hval, ?_⟩
  · have hy := norm_cube hx
    rw [← scale_norm x] at hdom
    obtain ⟨hr, hd⟩ := H.range _ hy
    obtain ⟨hc, he⟩ := wfg3_eval hm H hy
    set t := wfg2Red 3 4 (wfgNorm x) with ht
    obtain ⟨⟨t0, t1, hT'⟩⟩ : Nonempty (∃ a b, t.1 = [a, b]) := by
      have hl := hr.1
      match h : t.1, hl with
      | [a, b], _ => exact ⟨a, b, rfl⟩
    have hu0 : Unit01 t0 := hr.2 t0 (by rw [hT']; simp)
    have hu1 : Unit01 t1 := hr.2 t1 (by rw [hT']; simp)
    have hp : (wfgPost (fun i => if i = 0 then 1 else 0) t).1 = [t0, t.2 * (t1 - 0.5) + 0.5] := by
      unfold wfgPost
      rw [hT']
      simp only [List.zipIdx_cons, List.zipIdx_nil, List.map_cons, List.map_nil, if_true]
      rw [max_eq_right hd.2, if_neg (by norm_num), max_eq_left hd.1]
      congr 1; ring
    have e0 := he 0
    have e1 := he 1
    have e2 := he 2
    rw [hp, hshape] at e0 e1 e2
    simp at e0 e1 e2
    obtain ⟨hle, j, hlt⟩ := hdom
    have l0 := hle 0
    have l1 := hle 1
    have l2 := hle 2
    rw [hval, e0] at l0
    rw [hval, e1] at l1
    rw [hval, e2] at l2
    simp at l0 l1 l2
    have hd0 := hd.1
    have hd1 := hd.2
    have ha : (5 + t.2) / 6 ≤ t0 := by linarith
    have hb : (1 - t.2) / 2 ≤ 1 - (t.2 * (t1 - 0.5) + 0.5) := by norm_num; nlinarith [hu1.2]
    have hab : (5 + t.2) / 6 * ((1 - t.2) / 2) ≤ t0 * (1 - (t.2 * (t1 - 0.5) + 0.5)) :=
      mul_le_mul ha hb (by linarith) hu0.1
    have hd' : t.2 = 1 := by
      norm_num at l1 hab
      nlinarith
    have ht0 : t0 = 1 := by rw [hd'] at l2; norm_num at l2; linarith [hu0.2]
    have ht1 : t1 = 1 := by rw [hd', ht0] at l1; norm_num at l1; linarith [hu1.2]
    rw [hd', ht0, ht1] at e0 e1
    rw [hd', ht0] at e2
    norm_num at e0 e1 e2
    rw [hval] at hlt
    fin_cases j
    · simp at hlt; rw [e0] at hlt; norm_num at hlt
    · simp at hlt; rw [e1] at hlt; norm_num at hlt
    · simp at hlt; rw [e2] at hlt; norm_num at hlt
  · intro h
    obtain ⟨u, hu0, hu1, hf⟩ := ((C133_wfg3 hm hgap hk (q := 1) (by norm_num)).2 _).1 h
    have h1 := hf 1
    have h2 := hf 2
    rw [hval] at h1 h2
    simp at h1 h2
    linarith

/-! ### `pareto_set` and `pareto_front` -/

theorem extremes_mem {k : ℕ} : (wfgExtremes k).length = 2 ^ k ∧ ∀ K, K ∈ wfgExtremes k ↔ K.length = k ∧ ∀ v ∈ K, v = 0 ∨ v = 1 := by
  obtain ⟨-, h2, h3⟩ := C128_wfg_corners k
  refine ⟨by unfold wfgExtremes; rw [List.length_map, h2], fun K => ?_⟩
  unfold wfgExtremes
  rw [List.mem_map]
  constructor
  · rintro ⟨c, hc, rfl⟩
    refine ⟨by simp, fun v hv => ?_⟩
    obtain ⟨j, rfl⟩ := (List.mem_ofFn' _ _).1 hv
    rcases (h3 c).1 hc j with h | h <;> simp [h]
  · rintro ⟨hl, hK⟩
    subst hl
    refine ⟨fun j => if K[j] = 0 then 0 else 1, (h3 _).2 fun j => by split <;> simp, ?_⟩
    apply List.ext_getElem (by simp)
    intro i h1 h2
    rw [List.getElem_ofFn]
    rcases hK _ (List.getElem_mem h2) with h | h <;> simp [h]

theorem extremes_cube {k : ℕ} {K : List ℝ} (h : K ∈ wfgExtremes k) : Cube k 0 1 K := by
  obtain ⟨h1, h2⟩ := (extremes_mem.2 K).1 h
  exact ⟨h1, fun v hv => by rcases h2 v hv with rfl | rfl <;> norm_num⟩

/-- What `pareto_set` returns, if the completions are Pareto-optimal. -/
theorem set_of {m n k : ℕ} {F : List ℝ → Fin m → ℝ} {opt : List ℝ → List ℝ}
    (sound : ∀ K, Cube k 0 1 K → WfgBox n (wfgScale (opt K)) ∧ ParetoPoint (WfgBox n) F (F (wfgScale (opt K))))
    (draws : ℕ → List (List ℝ)) (hd : ∀ j, (draws j).length = j ∧ ∀ K ∈ draws j, Cube k 0 1 K) (nPoints : ℕ) :
    (2 ^ k ≤ nPoints → ∃ rows, wfgSet opt k draws nPoints = .ok rows ∧ rows.length = nPoints ∧
      (∀ K, K.length = k → (∀ v ∈ K, v = 0 ∨ v = 1) → wfgScale (opt K) ∈ rows) ∧
      ∀ x ∈ rows, WfgBox n x ∧ ParetoPoint (WfgBox n) F (F x)) ∧ (nPoints < 2 ^ k → ∃ e, wfgSet opt k draws nPoints = .error e) := by
  have hl : (wfgExtremes k).length = 2 ^ k := extremes_mem.1
  constructor
  · intro h
    refine ⟨_, by unfold wfgSet; rw [hl, if_neg (by omega)], ?_, ?_, ?_⟩
    · rw [List.length_map, List.length_append, hl, (hd _).1]; omega
    · intro K h1 h2
      rw [List.mem_map]
      exact ⟨K, List.mem_append_left _ ((extremes_mem.2 K).2 ⟨h1, h2⟩), rfl⟩
    · intro x hx
      obtain ⟨K, hK, rfl⟩ := List.mem_map.1 hx
      apply sound
      rcases List.mem_append.1 hK with hK | hK
      · exact extremes_cube hK
      · exact (hd _).2 K hK
  · intro h
    exact ⟨_, by unfold wfgSet; rw [hl, if_pos h]⟩

/-- What `pareto_front` returns, if the completions are Pareto-optimal: whatever is drawn and whichever rows are chosen. -/
theorem front_of {m n k : ℕ} {F : List ℝ → Fin m → ℝ} {opt : List ℝ → List ℝ}
    (sound : ∀ K, Cube k 0 1 K → WfgBox n (wfgScale (opt K)) ∧ ParetoPoint (WfgBox n) F (F (wfgScale (opt K))))
    (closest : List (Fin m → ℝ) → List ℕ) (draws : List (List (List ℝ))) (hd : ∀ Ks ∈ draws, ∀ K ∈ Ks, Cube k 0 1 K) :
    ∀ f ∈ wfgFront F opt k closest draws, ParetoPoint (WfgBox n) F f := by
  have key : ∀ (draws : List (List (List ℝ))) (pf : List (Fin m → ℝ)), (∀ Ks ∈ draws, ∀ K ∈ Ks, Cube k 0 1 K) → (∀ f ∈ pf, ParetoPoint (WfgBox n) F f) →
      ∀ f ∈ draws.foldl (fun pf Ks => wfgRound closest pf (Ks.map fun K => F (wfgScale (opt K)))) pf, ParetoPoint (WfgBox n) F f := by
    intro draws
    induction draws with
    | nil => intro pf _ hpf; exact hpf
    | cons Ks draws ih =>
      intro pf hd hpf
      rw [List.foldl_cons]
      refine ih _ (fun Ks' h => hd Ks' (List.mem_cons_of_mem _ h)) fun f hf => ?_
      unfold wfgRound at hf
      obtain ⟨i, -, hi⟩ := List.mem_filterMap.1 hf
      rcases List.mem_append.1 (List.mem_of_getElem? hi) with h | h
      · exact hpf f h
      · obtain ⟨K, hK, rfl⟩ := List.mem_map.1 h
        exact (sound K (hd Ks List.mem_cons_self K hK)).2
  refine key draws _ hd fun f hf => ?_
  obtain ⟨K, hK, rfl⟩ := List.mem_map.1 hf
  exact (sound K (extremes_cube hK)).2

section
variable {m k l q gap : ℕ} (hm : 2 ≤ m) (hgap : 0 < gap) (hk : k = (m - 1) * gap)
include hm hgap hk

/-- The completions of WFG1 and WFG4-9 are Pareto-optimal. -/
theorem completions (hl : 0 < l) : ∀ p ∈ [(wfg1 m k, wfgOptimal l), (wfg4 m k, wfgOptimal l), (wfg5 m k, wfgOptimal l), (wfg6 m k, wfgOptimal l),
    (wfg7 m k, wfgOptimal l), (wfg8 m k, wfg8Optimal l), (wfg9 m k, wfg9Optimal l)], ∀ K, Cube k 0 1 K →
      WfgBox (k + l) (wfgScale (p.2 K)) ∧ ParetoPoint (WfgBox (k + l)) p.1 (p.1 (wfgScale (p.2 K))) := by
  intro p hp K hK
  have h1 := scale_box (std_inside (l := l) hK)
  have h8 := scale_box ((wfg8_map hm hgap hk hl).inside K hK)
  have h9 := scale_box ((wfg9_map hm hgap hk hl).inside K hK)
  have hs := C133_sphere_sets hm hgap hk hl
  simp only [List.mem_cons, List.not_mem_nil, or_false] at hp
  rcases hp with rfl | rfl | rfl | rfl | rfl | rfl | rfl
  · exact ⟨h1, ((C133_wfg1 hm hgap hk hl).1 _ h1).2 ⟨K, hK, rfl⟩⟩
  · exact ⟨h1, (hs _ h1).1.2 ⟨K, hK, rfl⟩⟩
  · exact ⟨h1, (hs _ h1).2.1.2 ⟨K, hK, rfl⟩⟩
  · exact ⟨h1, (hs _ h1).2.2.1.2 ⟨K, hK, rfl⟩⟩
  · exact ⟨h1, (hs _ h1).2.2.2.1.2 ⟨K, hK, rfl⟩⟩
  · exact ⟨h8, (hs _ h8).2.2.2.2.1.2 ⟨K, hK, rfl⟩⟩
  · exact ⟨h9, (hs _ h9).2.2.2.2.2.2 ⟨K, hK, rfl⟩⟩

/-- `pareto_set(n_points)` of WFG1 and WFG4-9: as many solutions as asked for, among them all the extremes, all of them Pareto-optimal and
within the bounds, if at least as many points are asked for as there are extremes; otherwise it raises. -/
theorem C133_pareto_set (hl : 0 < l) : ∀ p ∈ [(wfg1 m k, wfgOptimal l), (wfg4 m k, wfgOptimal l), (wfg5 m k, wfgOptimal l), (wfg6 m k, wfgOptimal l),
    (wfg7 m k, wfgOptimal l), (wfg8 m k, wfg8Optimal l), (wfg9 m k, wfg9Optimal l)],
    ∀ (draws : ℕ → List (List ℝ)), (∀ j, (draws j).length = j ∧ ∀ K ∈ draws j, Cube k 0 1 K) → ∀ nPoints,
    (2 ^ k ≤ nPoints → ∃ rows, wfgSet p.2 k draws nPoints = .ok rows ∧ rows.length = nPoints ∧
      (∀ K, K.length = k → (∀ v ∈ K, v = 0 ∨ v = 1) → wfgScale (p.2 K) ∈ rows) ∧
      ∀ x ∈ rows, WfgBox (k + l) x ∧ ParetoPoint (WfgBox (k + l)) p.1 (p.1 x)) ∧ (nPoints < 2 ^ k → ∃ e, wfgSet p.2 k draws nPoints = .error e) :=
  fun p hp draws hd nPoints => set_of (completions hm hgap hk hl p hp) draws hd nPoints

/-- The same for WFG3. -/
theorem C133_pareto_set_wfg3 (hq : 0 < q) (draws : ℕ → List (List ℝ)) (hd : ∀ j, (draws j).length = j ∧ ∀ K ∈ draws j, Cube k 0 1 K) (nPoints : ℕ) :
    (2 ^ k ≤ nPoints → ∃ rows, wfgSet (wfgOptimal (2 * q)) k draws nPoints = .ok rows ∧ rows.length = nPoints ∧
      (∀ K, K.length = k → (∀ v ∈ K, v = 0 ∨ v = 1) → wfgScale (wfgOptimal (2 * q) K) ∈ rows) ∧
      ∀ x ∈ rows, WfgBox (k + 2 * q) x ∧ ParetoPoint (WfgBox (k + 2 * q)) (wfg3 m k) (wfg3 m k x)) ∧
      (nPoints < 2 ^ k → ∃ e, wfgSet (wfgOptimal (2 * q)) k draws nPoints = .error e) :=
  set_of (fun K hK => ⟨scale_box (std_inside hK), (C133_wfg3 hm hgap hk hq).1 K hK⟩) draws hd nPoints

/-- `pareto_front()` of WFG1, WFG3 (below) and WFG4-8: every row is a Pareto-optimal objective vector. -/
theorem C133_pareto_front (hl : 0 < l) : ∀ p ∈ [(wfg1 m k, wfgOptimal l), (wfg4 m k, wfgOptimal l), (wfg5 m k, wfgOptimal l), (wfg6 m k, wfgOptimal l),
    (wfg7 m k, wfgOptimal l), (wfg8 m k, wfg8Optimal l)],
    ∀ (closest : List (Fin m → ℝ) → List ℕ) (draws : List (List (List ℝ))), (∀ Ks ∈ draws, ∀ K ∈ Ks, Cube k 0 1 K) →
    ∀ f ∈ wfgFront p.1 p.2 k closest draws, ParetoPoint (WfgBox (k + l)) p.1 f :=
  fun p hp closest draws hd => front_of (completions hm hgap hk hl p (by simp only [List.mem_cons, List.not_mem_nil, or_false] at hp ⊢; tauto)) closest draws hd

theorem C133_pareto_front_wfg3 (hq : 0 < q) (closest : List (Fin m → ℝ) → List ℕ) (draws : List (List (List ℝ))) (hd : ∀ Ks ∈ draws, ∀ K ∈ Ks, Cube k 0 1 K) :
    ∀ f ∈ wfgFront (wfg3 m k) (wfgOptimal (2 * q)) k closest draws, ParetoPoint (WfgBox (k + 2 * q)) (wfg3 m k) f :=
  front_of (fun K hK => ⟨scale_box (std_inside hK), (C133_wfg3 hm hgap hk hq).1 K hK⟩) closest draws hd

end

/-- With the default of 500 points `pareto_set()` raises as soon as there are nine position variables, hence with the default parameters for
six objectives or more. -/
theorem C133_default_points_refuted (opt : List ℝ → List ℝ) (draws : ℕ → List (List ℝ)) :
    (∀ k, 9 ≤ k → ∃ e, wfgSet opt k draws 500 = .error e) ∧ ∀ nVar nObj : ℤ, 6 ≤ nObj → 9 ≤ (wfgParams nVar nObj none none).1 := by
  constructor
  · intro k hk
    have : 2 ^ 9 ≤ 2 ^ k := Nat.pow_le_pow_right (by norm_num) hk
    exact ⟨_, by unfold wfgSet; rw [extremes_mem.1, if_pos (by norm_num at this; omega)]⟩
  · intro nVar nObj h
    simp [wfgParams, show nObj ≠ 2 by omega]
    omega

/-- WFG2 with two objectives and four position variables: `pareto_set` always contains a solution that is dominated, the extreme with two
positions at one half. -/
theorem C133_wfg2_refuted {q : ℕ} (hq : 0 < q) (draws : ℕ → List (List ℝ)) (nPoints : ℕ) (hn : 16 ≤ nPoints) :
    ∃ rows x y, wfgSet (wfgOptimal (2 * q)) 4 draws nPoints = .ok rows ∧ x ∈ rows ∧ y ∈ rows ∧ WfgBox (4 + 2 * q) y ∧ Dominates (wfg2 2 4 y) (wfg2 2 4 x) := by
  have hm : 2 ≤ 2 := le_rfl
  have hgap : 0 < 4 := by norm_num
  have hk : 4 = (2 - 1) * 4 := by norm_num
  have H := wfg2_map hm hgap hk hq
  have hK : ∀ a b c d : ℝ, (a = 0 ∨ a = 1) → (b = 0 ∨ b = 1) → (c = 0 ∨ c = 1) → (d = 0 ∨ d = 1) → [a, b, c, d] ∈ wfgExtremes 4 := by
    intro a b c d ha hb hc hd
    rw [extremes_mem.2]
    refine ⟨rfl, fun v hv => ?_⟩
    simp only [List.mem_cons, List.not_mem_nil, or_false] at hv
    rcases hv with rfl | rfl | rfl | rfl <;> assumption
  have img : ∀ K ∈ wfgExtremes 4, ∀ u, K.sum / 4 = u → wfg2 2 4 (wfgScale (wfgOptimal (2 * q) K)) =
      ![2 * (1 - Real.cos (0.5 * u * Real.pi)), 4 * (1 - u * Real.cos (5 * Real.pi * u) ^ 2)] := by
    intro K hKm u hu
    have hKc := extremes_cube hKm
    have hz := H.inside K hKc
    have h0 := (H.zero _ hz).2 ⟨K, hKc, rfl⟩
    have h1 : (wfg2Red 2 4 (wfgOptimal (2 * q) K)).1 = [u] := by
      obtain ⟨-, h2, -⟩ := wfg2_step hm hgap hk hq _ hz
      have ht : (wfgOptimal (2 * q) K).take 4 = K := by
        unfold wfgOptimal; rw [List.take_append_of_le_length (by rw [hKc.1]), List.take_of_length_le (by rw [hKc.1])]
      rw [ht] at h2
      simp only [wfg2Red, wfg2T3, wfgGroups]
      simp only [List.range_one, List.map_cons, List.map_nil, Nat.zero_mul, List.drop_zero, h2, Nat.add_one_sub_one, Nat.div_one]
      rw [(mean_eq hgap hKc).2, hKc.1, ← hu]
      norm_num
    funext i
    rw [wfg2_eval hm H hz i, h0, h1]
    fin_cases i
    · simp [dtlzShape]
    · simp; norm_num
  have hmem : ∀ K ∈ wfgExtremes 4, wfgScale (wfgOptimal (2 * q) K) ∈ (wfgExtremes 4 ++ draws (nPoints - (wfgExtremes 4).length)).map fun K => wfgScale (wfgOptimal (2 * q) K) :=
    fun K hK => List.mem_map.2 ⟨K, List.mem_append_left _ hK, rfl⟩
  have hx := hK 0 0 1 1 (by simp) (by simp) (by simp) (by simp)
  have hy := hK 0 0 0 1 (by simp) (by simp) (by simp) (by simp)
  have hset : wfgSet (wfgOptimal (2 * q)) 4 draws nPoints =
      .ok ((wfgExtremes 4 ++ draws (nPoints - (wfgExtremes 4).length)).map fun K => wfgScale (wfgOptimal (2 * q) K)) := by
    unfold wfgSet
    rw [if_neg (by rw [(extremes_mem (k := 4)).1]; norm_num; omega)]
  refine ⟨_, _, _, hset, hmem _ hx, hmem _ hy,
    scale_box (H.inside _ (extremes_cube hy)), ?_⟩
  rw [img _ hx (1 / 2) (by norm_num), img _ hy (1 / 4) (by norm_num)]
  have hpi := Real.pi_pos
  have hc1 : Real.cos (0.5 * (1 / 2) * Real.pi) < Real.cos (0.5 * (1 / 4) * Real.pi) :=
    Real.cos_lt_cos_of_nonneg_of_le_pi_div_two (by positivity) (by linarith) (by linarith)
  have hc2 : Real.cos (5 * Real.pi * (1 / 2)) = 0 := by
    rw [show 5 * Real.pi * (1 / 2) = Real.pi / 2 + 2 * Real.pi by ring, Real.cos_add_two_pi, Real.cos_pi_div_two]
  have h0 : 2 * (1 - Real.cos (0.5 * (1 / 4) * Real.pi)) < 2 * (1 - Real.cos (0.5 * (1 / 2) * Real.pi)) := by linarith
  have h1 : 4 * (1 - 1 / 4 * Real.cos (5 * Real.pi * (1 / 4)) ^ 2) ≤ 4 * (1 - 1 / 2 * Real.cos (5 * Real.pi * (1 / 2)) ^ 2) := by
    rw [hc2]; nlinarith [sq_nonneg (Real.cos (5 * Real.pi * (1 / 4)))]
  refine ⟨fun i => ?_, 0, h0⟩
  fin_cases i
  · exact h0.le
  · exact h1

/-! ### The constructor -/

/-- The constructor accepts exactly: at least two objectives, a number of position variables that is a multiple of the number of objectives
minus one and at least four, and at least as many variables (position and distance) as objectives; for WFG2 and WFG3 an even number of distance
variables. It then uses these numbers. -/
theorem C133_init (even : Bool) (nVar nObj : ℤ) (k l : Option ℤ) (r : ℤ × ℤ) : wfgInit even nVar nObj k l = .ok r ↔
    r = wfgParams nVar nObj k l ∧ 2 ≤ nObj ∧ nObj - 1 ∣ r.1 ∧ 4 ≤ r.1 ∧ nObj ≤ r.1 + r.2 ∧ (even = true → 2 ∣ r.2) := by
  simp only [wfgInit, wfgValidate]
  set p := wfgParams nVar nObj k l with hp
  have hdvd : ∀ a b : ℤ, a.fmod b = 0 ↔ b ∣ a := fun a b => (Int.dvd_iff_fmod_eq_zero).symm
  by_cases h1 : nObj < 2
  · rw [if_pos h1]
    simp only [Except.map]
    constructor
    · intro h; cases h
    · rintro ⟨-, h, -⟩; omega
  rw [if_neg h1]
  by_cases h2 : p.1.fmod (nObj - 1) ≠ 0
  · rw [if_pos h2]
    simp only [Except.map]
    constructor
    · intro h; cases h
    · rintro ⟨rfl, -, h, -⟩; exact absurd ((hdvd _ _).2 h) h2
  rw [if_neg h2]
  push Not at h2
  rw [hdvd] at h2
  by_cases h3 : p.1 < 4
  · rw [if_pos h3]
    simp only [Except.map]
    constructor
    · intro h; cases h
    · rintro ⟨rfl, -, -, h, -⟩; omega
  rw [if_neg h3]
  by_cases h4 : p.1 + p.2 < nObj
  · rw [if_pos h4]
    simp only [Except.map]
    constructor
    · intro h; cases h
    · rintro ⟨rfl, -, -, -, h, -⟩; omega
  rw [if_neg h4]
  by_cases h5 : even = true ∧ p.2.fmod 2 ≠ 0
  · rw [if_pos h5]
    simp only [Except.map]
    constructor
    · intro h; cases h
    · rintro ⟨rfl, -, -, -, -, h⟩; exact absurd ((hdvd _ _).2 (h h5.1)) h5.2
  rw [if_neg h5]
  simp only [Except.map]
  constructor
  · intro h
    have h' := Except.ok.inj h
    subst h'
    refine ⟨rfl, by omega, h2, by omega, by omega, fun he => ?_⟩
    by_contra hne
    exact h5 ⟨he, fun h => hne ((hdvd _ _).1 h)⟩
  · rintro ⟨rfl, -⟩
    rfl

/-- The constructor accepts parameters without distance variables (their number is then zero or negative), and numbers that do not add up
to the number of variables. -/
theorem C133_init_refuted : wfgInit false 3 3 none none = .ok (4, -1) ∧ wfgInit false 4 3 none none = .ok (4, 0) ∧ wfgInit false 10 3 none (some 3) = .ok (4, 3) := by
  decide

/-! ### The hypotheses are met -/

/-- Three objectives, four positions in two groups, two distance variables: a point of the decision space that is Pareto-optimal, and the
point of the front it maps to lies on the ellipsoid. -/
example : WfgBox 6 (wfgScale (wfgOptimal 2 [0, 1, 0.5, 0.25])) ∧
    ParetoPoint (WfgBox 6) (wfg4 3 4) (wfg4 3 4 (wfgScale (wfgOptimal 2 [0, 1, 0.5, 0.25]))) ∧
    WfgEllipsoid (wfg4 3 4 (wfgScale (wfgOptimal 2 [0, 1, 0.5, 0.25]))) := by
  have hK : Cube 4 0 1 [(0 : ℝ), 1, 0.5, 0.25] := ⟨rfl, fun v hv => by
    simp only [List.mem_cons, List.not_mem_nil, or_false] at hv
    rcases hv with rfl | rfl | rfl | rfl <;> norm_num⟩
  have hb : WfgBox 6 (wfgScale (wfgOptimal 2 [0, 1, 0.5, 0.25])) := scale_box (std_inside hK)
  have hp := (C133_sphere_sets (m := 3) (gap := 2) (k := 4) (l := 2) (by norm_num) (by norm_num) (by norm_num) (by norm_num) _ hb).1.2 ⟨_, hK, rfl⟩
  exact ⟨hb, hp, ((C133_sphere_fronts (m := 3) (gap := 2) (k := 4) (l := 2) (by norm_num) (by norm_num) (by norm_num) (by norm_num) _).1).1 hp⟩

/-- Rows drawn as the theorems on `pareto_set` require; two objectives and four positions. -/
example : ∃ rows, wfgSet (wfgOptimal 2) 4 (fun j => List.replicate j [0.5, 0.5, 0.5, 0.5]) 20 = .ok rows ∧ rows.length = 20 ∧
    ∀ x ∈ rows, WfgBox 6 x ∧ ParetoPoint (WfgBox 6) (wfg4 2 4) (wfg4 2 4 x) := by
  obtain ⟨rows, h1, h2, -, h3⟩ := (C133_pareto_set (m := 2) (gap := 4) (k := 4) (l := 2) (by norm_num) (by norm_num) (by norm_num) (by norm_num)
    (wfg4 2 4, wfgOptimal 2) (by simp) (fun j => List.replicate j [0.5, 0.5, 0.5, 0.5]) (fun j => ⟨by simp, fun K hK => by
      rw [List.eq_of_mem_replicate hK]
      refine ⟨rfl, fun v hv => ?_⟩
      simp only [List.mem_cons, List.not_mem_nil, or_false, or_self] at hv
      rw [hv]; norm_num⟩) 20).1 (by norm_num)
  exact ⟨rows, h1, h2, h3⟩

/-- The constructor accepts the usual parameters. -/
example : wfgInit true 10 3 none none = .ok (4, 6) := by decide

end Props
