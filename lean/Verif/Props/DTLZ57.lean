import Verif.Props.DTLZ

/-!
# C82: DTLZ5, DTLZ6 and DTLZ7

DTLZ5/6: every returned point is Pareto-optimal for every number of objectives; from four objectives on the curve is not
the whole front. DTLZ7: the returned points are attained, and exactly those are Pareto-optimal that no other point with `g = 1`
dominates; dominated points are returned.
-/

set_option linter.unusedSimpArgs false
set_option linter.unusedVariables false

namespace Props
open Model Spec Lemmas

/-- The angles of DTLZ5/6 stay in the unit interval. -/
theorem dtlzTheta_cube {g : ℝ} (hg : 0 ≤ g) {L : ℕ} {X : List ℝ} (hX : Cube L 0 1 X) : Cube L 0 1 (dtlzTheta g X) := by
  cases X with
  | nil => exact hX
  | cons a X =>
    refine ⟨by simpa [dtlzTheta] using hX.1, fun v hv => ?_⟩
    simp only [dtlzTheta] at hv
    rcases List.mem_cons.1 hv with rfl | hv
    · exact hX.2 _ List.mem_cons_self
    · obtain ⟨u, hu, rfl⟩ := List.mem_map.1 hv
      obtain ⟨h0, h1⟩ := hX.2 u (List.mem_cons_of_mem _ hu)
      have hpos : 0 < 2 * (1 + g) := by linarith
      have hgu : 0 ≤ g * u := mul_nonneg hg h0
      have hgu1 : g * u ≤ g := mul_le_of_le_one_right hg h1
      constructor
      · exact mul_nonneg (by positivity) (by linarith)
      · rw [one_div, inv_mul_le_iff₀ hpos]; linarith

/-- A problem built like DTLZ5/6 with any non-negative `g`. -/
theorem curve_sq {m n : ℕ} (hm : 1 ≤ m) (hmn : m - 1 ≤ n) (g : ℝ) (hg : 0 ≤ g) (x : List ℝ) (hx : Cube n 0 1 x) :
    (∀ i, 0 ≤ dtlzObj m 1 (dtlzTheta g (x.take (m - 1))) g i) ∧
      ∑ i, dtlzObj m 1 (dtlzTheta g (x.take (m - 1))) g i ^ 2 = (1 + g) ^ 2 := by
  have ht := dtlzTheta_cube hg (cube_take hx hmn)
  have H := polar_trig 1 (by norm_num)
  constructor
  · intro i
    refine mul_nonneg (by linarith) (dtlzShape_nonneg _ _ _ (fun v hv => ⟨(H.circle v (ht.2 v hv)).1, (H.circle v (ht.2 v hv)).2.1⟩) _ (by rw [ht.1]; omega))
  · have h := dtlzShape_sum (fun v => Real.cos (v ^ 1 * Real.pi / 2)) (fun v => Real.sin (v ^ 1 * Real.pi / 2)) 2
      (dtlzTheta g (x.take (m - 1))) fun v hv => (H.circle v (ht.2 v hv)).2.2
    rw [ht.1] at h
    simp only [dtlzObj, mul_pow]
    rw [← Finset.mul_sum, sum_range_fin hm fun i => dtlzShape (fun v => Real.cos (v ^ 1 * Real.pi / 2))
      (fun v => Real.sin (v ^ 1 * Real.pi / 2)) (dtlzTheta g (x.take (m - 1))) i ^ 2, h, mul_one]

/-- The point of the curve at angle `theta1` is what the objectives give for `g = 0`. -/
theorem curve_attained {m : ℕ} (hm : 2 ≤ m) (theta1 : ℝ) :
    dtlzObj m 1 (dtlzTheta 0 (2 / Real.pi * theta1 :: List.replicate (m - 2) 0)) 0 = fun i : Fin m =>
      (((theta1 :: List.replicate (m - 2) (Real.pi / 4)).take (m - 1 - i)).map Real.cos).prod *
      (if 0 < (i : ℕ) then Real.sin ((theta1 :: List.replicate (m - 2) (Real.pi / 4)).getD (m - 1 - i) 0) else 1) := by
  have hpi := Real.pi_pos
  funext i
  have hl : (dtlzTheta 0 (2 / Real.pi * theta1 :: List.replicate (m - 2) 0)).length = m - 1 := by
    simp [dtlzTheta]; omega
  have hth : (dtlzTheta 0 (2 / Real.pi * theta1 :: List.replicate (m - 2) 0)).map (fun v => v ^ 1 * Real.pi / 2) =
      theta1 :: List.replicate (m - 2) (Real.pi / 4) := by
    simp only [dtlzTheta, List.map_cons, List.map_replicate]
    congr 1
    · field_simp
    · congr 1; norm_num; ring
  unfold dtlzObj dtlzShape
  rw [hl, add_zero, one_mul]
  congr 1
  · rw [← hth, ← List.map_take, List.map_map]; rfl
  · split_ifs with h
    · rw [← hth]
      have hlt : m - 1 - (i : ℕ) < m - 1 := by omega
      rw [List.getD_eq_getElem _ _ (by rw [hl]; exact hlt), List.getD_eq_getElem _ _ (by rw [List.length_map, hl]; exact hlt),
        List.getElem_map]
    · rfl

theorem curve_pareto {m n : ℕ} (hm : 2 ≤ m) (hmn : m - 1 ≤ n) (G : List ℝ → ℝ) (hG : ∀ XM, Cube (n - (m - 1)) 0 1 XM → 0 ≤ G XM)
    (hopt : ∃ XM, Cube (n - (m - 1)) 0 1 XM ∧ G XM = 0) (k : ℕ) (F : List ℝ → Fin m → ℝ)
    (hF : ∀ x, F x = dtlzObj m 1 (dtlzTheta (G (x.drop (m - 1))) (x.take (m - 1))) (G (x.drop (m - 1)))) :
    ∀ f ∈ dtlz5Front m k, ParetoPoint (Cube n 0 1) F f := by
  intro f hf
  obtain ⟨theta1, ht, rfl⟩ := List.mem_map.1 hf
  have hpi := Real.pi_pos
  obtain ⟨ht0, ht1⟩ := linspace_mem (by positivity) ht
  obtain ⟨XM, hXM, hXM0⟩ := hopt
  have hX : Cube (m - 1) 0 1 (2 / Real.pi * theta1 :: List.replicate (m - 2) 0) := by
    refine ⟨by simp; omega, fun v hv => ?_⟩
    rcases List.mem_cons.1 hv with rfl | hv
    · constructor
      · positivity
      · rw [div_mul_eq_mul_div, div_le_one hpi]; linarith
    · rw [List.eq_of_mem_replicate hv]; norm_num
  have hy : Cube n 0 1 ((2 / Real.pi * theta1 :: List.replicate (m - 2) 0) ++ XM) := by
    have := cube_append hX hXM
    rwa [show m - 1 + (n - (m - 1)) = n by omega] at this
  have hatt := curve_attained hm theta1
  have hFy := hF ((2 / Real.pi * theta1 :: List.replicate (m - 2) 0) ++ XM)
  rw [List.drop_left' hX.1, List.take_left' hX.1, hXM0, hatt] at hFy
  refine ⟨⟨_, hy, hFy⟩, fun x hx hd => ?_⟩
  have hg := hG _ (cube_drop (j := m - 1) hx)
  obtain ⟨h0, h1⟩ := curve_sq (by omega) hmn _ hg x hx
  have hlt := sum_pow_lt (p := 2) (by norm_num) (by rw [hF x]; exact h0) hd
  rw [hF x, h1] at hlt
  obtain ⟨-, h1'⟩ := curve_sq (by omega) hmn 0 le_rfl _ hy
  rw [List.take_left' hX.1, hatt] at h1'
  rw [h1'] at hlt
  nlinarith

/-- C82, DTLZ5: every point of the returned curve is Pareto-optimal. -/
theorem C82_dtlz5 (m n k : ℕ) (hm : 2 ≤ m) (hmn : m - 1 ≤ n) : ∀ f ∈ dtlz5Front m k, ParetoPoint (Cube n 0 1) (dtlz5 m) f :=
  curve_pareto hm hmn dtlzG2 (fun XM _ => dtlzG2_nonneg XM) ⟨_, half_cube _, dtlzG2_half _⟩ k _ fun x => rfl

/-- C82, DTLZ6: every point of the returned curve is Pareto-optimal. -/
theorem C82_dtlz6 (m n k : ℕ) (hm : 2 ≤ m) (hmn : m - 1 ≤ n) : ∀ f ∈ dtlz5Front m k, ParetoPoint (Cube n 0 1) (dtlz6 m) f :=
  curve_pareto hm hmn (fun XM => (XM.map fun v => v ^ (1 / 10 : ℝ)).sum)
    (fun XM h => List.sum_nonneg fun w hw => by
      obtain ⟨v, hv, rfl⟩ := List.mem_map.1 hw
      exact Real.rpow_nonneg (h.2 v hv).1 _)
    ⟨List.replicate _ 0, cube_replicate (by norm_num), by
      simp [List.map_replicate]⟩ k _ fun x => rfl

/-- The curve of DTLZ5 with four objectives and three points: the first is `(1/2, 1/2, √½, 0)`. -/
example : (dtlz5Front 4 3).length = 3 ∧ ∀ f ∈ dtlz5Front 4 3, ParetoPoint (Cube 13 0 1) (dtlz5 4) f :=
  ⟨by simp [dtlz5Front, linspace], C82_dtlz5 4 13 3 (by norm_num) (by norm_num)⟩

/-- C82: with four objectives the curve is not the whole front of DTLZ5: for every number of variables there is a solution that
no point of the curve, however finely sampled, weakly dominates. -/
theorem C82_dtlz5_refuted (n : ℕ) (hn : 4 ≤ n) :
    ∃ x, Cube n 0 1 x ∧ ∀ k, ∀ f ∈ dtlz5Front 4 k, ¬ ∀ i, f i ≤ dtlz5 4 x i := by
  have hpi := Real.pi_pos
  refine ⟨[0, 1, 1] ++ (0 :: List.replicate (n - 4) (1 / 2)), ⟨by simp; omega, fun v hv => ?_⟩, fun k f hf hle => ?_⟩
  · simp only [List.cons_append, List.nil_append, List.mem_cons, List.mem_replicate] at hv
    rcases hv with rfl | rfl | rfl | rfl | ⟨-, rfl⟩ <;> norm_num
  · have hg : dtlzG2 (0 :: List.replicate (n - 4) (1 / 2)) = 1 / 4 := by
      have := dtlzG2_half (n - 4)
      unfold dtlzG2 at this ⊢
      rw [List.map_cons, List.sum_cons, this]; norm_num
    obtain ⟨t, ht, rfl⟩ := List.mem_map.1 hf
    obtain ⟨ht0, ht1⟩ := linspace_mem (by positivity) ht
    have hx : dtlz5 4 ([0, 1, 1] ++ (0 :: List.replicate (n - 4) (1 / 2))) =
        dtlzObj 4 1 (dtlzTheta (1 / 4) [0, 1, 1]) (1 / 4) := by
      simp only [dtlz5]
      rw [show (4 - 1 : ℕ) = ([0, 1, 1] : List ℝ).length from rfl, List.drop_left, List.take_left, hg]
    rw [hx] at hle
    have h3 := hle 3
    have h0 := hle 0
    simp [dtlzObj, dtlzTheta, dtlzShape] at h3 h0
    -- the last objective forces the first angle to be zero
    have hsin : Real.sin t = 0 := le_antisymm h3 (Real.sin_nonneg_of_nonneg_of_le_pi ht0 (by linarith))
    have hcos : Real.cos t = 1 := by
      have h1 := Real.cos_nonneg_of_mem_Icc ⟨by linarith, ht1⟩
      have h2 := Real.sin_sq_add_cos_sq t
      rw [hsin] at h2
      nlinarith
    rw [hcos] at h0
    have hq : Real.cos (Real.pi / 4) * Real.cos (Real.pi / 4) = 1 / 2 := by
      rw [Real.cos_pi_div_four]
      have := Real.mul_self_sqrt (show (0:ℝ) ≤ 2 by norm_num)
      nlinarith
    have hj : 1 / 5 < Real.sin (Real.pi / 10) := by
      have := Real.mul_lt_sin (x := Real.pi / 10) (by positivity) (by linarith)
      have e : 2 / Real.pi * (Real.pi / 10) = 1 / 5 := by field_simp; norm_num
      linarith
    have hc : Real.cos (3 * Real.pi / 10) * Real.cos (3 * Real.pi / 10) < 2 / 5 := by
      have e : Real.cos (2 * (3 * Real.pi / 10)) = - Real.sin (Real.pi / 10) := by
        rw [show 2 * (3 * Real.pi / 10) = Real.pi / 10 + Real.pi / 2 by ring, Real.cos_add_pi_div_two]
      have := Real.cos_two_mul (3 * Real.pi / 10)
      nlinarith
    norm_num at h0
    rw [show 3 / 5 * Real.pi / 2 = 3 * Real.pi / 10 by ring] at h0
    have := Real.mul_self_sqrt (show (0:ℝ) ≤ 2 by norm_num)
    nlinarith

/-! ## DTLZ7 -/

/-- The objective vector of DTLZ7 for the position values `u` and least `g`. -/
noncomputable def dtlz7Graph (m : ℕ) (u : List ℝ) : Fin m → ℝ :=
  fun i => if (i : ℕ) < m - 1 then u.getD i 0 else 2 * m - (u.map fun v => v * (1 + Real.sin (3 * Real.pi * v))).sum

theorem dtlz7_last (m : ℕ) (x : List ℝ) (hg : 0 ≤ (x.drop (m - 1)).sum) (i : Fin m) (hi : ¬ (i : ℕ) < m - 1) :
    dtlz7 m x i = (2 + 9 / ((x.drop (m - 1)).length : ℝ) * (x.drop (m - 1)).sum) * m -
      ((x.take (m - 1)).map fun v => v * (1 + Real.sin (3 * Real.pi * v))).sum := by
  have hpos : 0 < 1 + (1 + 9 / ((x.drop (m - 1)).length : ℝ) * (x.drop (m - 1)).sum) := by positivity
  have hs : ∀ c : ℝ, 0 < c → ∀ l : List ℝ, c * (l.map fun v => v / c * (1 + Real.sin (3 * Real.pi * v))).sum =
      (l.map fun v => v * (1 + Real.sin (3 * Real.pi * v))).sum := by
    intro c hc l
    induction l with
    | nil => simp
    | cons a l ih =>
      rw [List.map_cons, List.sum_cons, mul_add, ih, List.map_cons, List.sum_cons]; field_simp
  simp only [dtlz7]
  rw [if_neg hi, mul_sub, hs _ hpos]
  ring

theorem dtlz7_first (m : ℕ) (x : List ℝ) (i : Fin m) (hi : (i : ℕ) < m - 1) : dtlz7 m x i = (x.take (m - 1)).getD i 0 := by
  simp only [dtlz7]
  rw [if_pos hi]

/-- C82, DTLZ7: the Pareto-optimal points are exactly the points with `g = 1` that no other point with `g = 1` dominates. -/
theorem C82_dtlz7_graph (m n : ℕ) (hm : 1 ≤ m) (hmn : m - 1 ≤ n) (f : Fin m → ℝ) :
    ParetoPoint (Cube n 0 1) (dtlz7 m) f ↔
      (∃ u, Cube (m - 1) 0 1 u ∧ f = dtlz7Graph m u) ∧ ∀ w, Cube (m - 1) 0 1 w → ¬ Dominates (dtlz7Graph m w) f := by
  have hnn : ∀ x, Cube n 0 1 x → 0 ≤ (x.drop (m - 1)).sum := fun x hx =>
    List.sum_nonneg fun v hv => ((cube_drop (j := m - 1) hx).2 v hv).1
  have hatt : ∀ u, Cube (m - 1) 0 1 u → Cube n 0 1 (u ++ List.replicate (n - (m - 1)) 0) ∧
      dtlz7 m (u ++ List.replicate (n - (m - 1)) 0) = dtlz7Graph m u := by
    intro u hu
    have hc : Cube n 0 1 (u ++ List.replicate (n - (m - 1)) 0) := by
      have := cube_append hu (cube_replicate (n := n - (m - 1)) (show (0:ℝ) ≤ 0 ∧ (0:ℝ) ≤ 1 by norm_num))
      rwa [show m - 1 + (n - (m - 1)) = n by omega] at this
    refine ⟨hc, funext fun i => ?_⟩
    by_cases hi : (i : ℕ) < m - 1
    · rw [dtlz7_first _ _ _ hi, List.take_left' hu.1]; simp [dtlz7Graph, hi]
    · rw [dtlz7_last _ _ (hnn _ hc) _ hi, List.take_left' hu.1, List.drop_left' hu.1]; simp [dtlz7Graph, hi]
  have hlow : ∀ x, Cube n 0 1 x → ∀ i, dtlz7Graph m (x.take (m - 1)) i ≤ dtlz7 m x i := by
    intro x hx i
    by_cases hi : (i : ℕ) < m - 1
    · rw [dtlz7_first _ _ _ hi]; simp [dtlz7Graph, hi]
    · rw [dtlz7_last _ _ (hnn _ hx) _ hi]
      simp only [dtlz7Graph, hi, if_false]
      have h1 : 0 ≤ 9 / ((x.drop (m - 1)).length : ℝ) * (x.drop (m - 1)).sum := mul_nonneg (by positivity) (hnn x hx)
      have h2 : (0:ℝ) ≤ m := Nat.cast_nonneg m
      nlinarith [mul_nonneg h1 h2]
  constructor
  · rintro ⟨⟨x, hx, rfl⟩, hnd⟩
    have heq : dtlz7Graph m (x.take (m - 1)) = dtlz7 m x := by
      by_contra hne
      have hu := cube_take hx hmn
      apply hnd _ (hatt _ hu).1
      rw [(hatt _ hu).2]
      refine ⟨hlow x hx, ?_⟩
      by_contra hno
      push Not at hno
      exact hne (funext fun i => le_antisymm (hlow x hx i) (hno i))
    exact ⟨⟨_, cube_take hx hmn, heq.symm⟩, fun w hw hd => hnd _ (hatt w hw).1 (by rw [(hatt w hw).2]; exact hd)⟩
  · rintro ⟨⟨u, hu, rfl⟩, hnd⟩
    refine ⟨⟨_, hatt u hu⟩, fun x hx hd => hnd _ (cube_take hx hmn) ⟨fun i => (hlow x hx i).trans (hd.1 i), ?_⟩⟩
    obtain ⟨i, hi⟩ := hd.2
    exact ⟨i, (hlow x hx i).trans_lt hi⟩

/-- C82, DTLZ7: every returned point is attained. -/
theorem C82_dtlz7_partial (m n : ℕ) (hm : 1 ≤ m) (hmn : m - 1 ≤ n) (rows : List (List ℝ)) (hr : ∀ u ∈ rows, Cube (m - 1) 0 1 u) :
    ∀ f ∈ dtlz7Front m rows, ∃ x, Cube n 0 1 x ∧ dtlz7 m x = f := by
  intro f hf
  unfold dtlz7Front at hf
  obtain ⟨e, he, rfl⟩ := List.mem_map.1 hf
  obtain ⟨u, hu, rfl⟩ := List.mem_map.1 (List.mem_filter.1 he).1
  have hc := hr u hu
  refine ⟨u ++ List.replicate (n - (m - 1)) 0, ?_, funext fun i => ?_⟩
  · have := cube_append hc (cube_replicate (n := n - (m - 1)) (show (0:ℝ) ≤ 0 ∧ (0:ℝ) ≤ 1 by norm_num))
    rwa [show m - 1 + (n - (m - 1)) = n by omega] at this
  · by_cases hi : (i : ℕ) < m - 1
    · rw [dtlz7_first _ _ _ hi, List.take_left' hc.1]; simp [hi]
    · rw [dtlz7_last _ _ (by rw [List.drop_left' hc.1]; simp) _ hi, List.take_left' hc.1, List.drop_left' hc.1]; simp [hi]

/-- C82, refuted for DTLZ7: with two objectives a random number near one half makes the returned front contain a dominated point;
here for the draws `1/6` and `1/2`. -/
theorem C82_dtlz7_refuted (n : ℕ) (hn : 1 ≤ n) :
    ∃ f ∈ dtlz7Front 2 [[1 / 6], [1 / 2]], ¬ ParetoPoint (Cube n 0 1) (dtlz7 2) f := by
  have h6 : Real.sin (3 * Real.pi * (1 / 6)) = 1 := by
    rw [show 3 * Real.pi * (1 / 6) = Real.pi / 2 by ring, Real.sin_pi_div_two]
  have h2 : Real.sin (3 * Real.pi * (1 / 2)) = -1 := by
    rw [show 3 * Real.pi * (1 / 2) = Real.pi / 2 + Real.pi by ring, Real.sin_add_pi, Real.sin_pi_div_two]
  refine ⟨fun i => if (i : ℕ) < 1 then 1 / 2 else 4, ?_, fun hp => ?_⟩
  · simp only [dtlz7Front, List.map_cons, List.map_nil, List.sum_cons, List.sum_nil]
    rw [h6, h2]
    refine List.mem_map.2 ⟨([1 / 2], 4), ?_, ?_⟩
    · rw [List.mem_filter]
      norm_num
    · funext i; fin_cases i <;> simp
  · have := ((C82_dtlz7_graph 2 n (by norm_num) hn _).1 hp).2 [1 / 6] ⟨rfl, fun v hv => by
      rw [List.mem_singleton.1 hv]; norm_num⟩
    apply this
    refine ⟨fun i => ?_, 0, ?_⟩
    · fin_cases i
      · simp [dtlz7Graph]; norm_num
      · simp only [dtlz7Graph]
        simp only [List.map_cons, List.map_nil, List.sum_cons, List.sum_nil, h6]
        norm_num
    · simp [dtlz7Graph]; norm_num

end Props
