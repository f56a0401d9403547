import Verif.Model.DF
import Verif.Props.ZDT
import Verif.Props.DTLZ
import Verif.Props.MultiProblems
import Mathlib.Analysis.SpecialFunctions.Trigonometric.Bounds

/-!
# C117: the Pareto fronts of the dynamic DF problems

At every time the returned points are Pareto-optimal and the sampled curve or surface is exactly the set of all Pareto-optimal points, for DF1, 2, 3,
5, 6, 7, 8, 10, 11 and 14, for DF4 as long as the curve fits into the bounds and for DF13 as long as its third objective has no waves. DF4's returned
points are not attainable otherwise, DF9's returned points can be dominated, and a row of DF12 has other objectives when it is evaluated together with
other rows.
-/

set_option linter.unusedSimpArgs false
set_option linter.unusedVariables false

namespace Props
open Model Spec Lemmas

/-- No two points of `C` dominate each other, all are attained, and every attained vector is at least as large as a point of `C`: then `C` is the set of
all Pareto-optimal points. -/
theorem front_antichain {m : ℕ} (D : List ℝ → Prop) (F : List ℝ → Fin m → ℝ) (C : (Fin m → ℝ) → Prop)
    (hanti : ∀ c c', C c → C c' → ¬ Dominates c c') (hatt : ∀ c, C c → ∃ x, D x ∧ F x = c)
    (hstab : ∀ x, D x → ∃ c, C c ∧ ∀ i, c i ≤ F x i) (f : Fin m → ℝ) : ParetoPoint D F f ↔ C f := by
  refine front_exact D F C (fun c hc => ⟨hatt c hc, fun x hx hd => ?_⟩) hstab f
  obtain ⟨c', hc', hle⟩ := hstab x hx
  obtain ⟨i, hi⟩ := hd.2
  exact hanti c' c hc' hc ⟨fun j => (hle j).trans (hd.1 j), i, lt_of_le_of_lt (hle i) hi⟩

/-- A curve whose first coordinate increases and whose second one decreases. -/
theorem curve_antichain (U : ℝ → Prop) (c : ℝ → Fin 2 → ℝ) (h : ∀ u v, U u → U v → u < v → c u 0 < c v 0 ∧ c v 1 < c u 1) :
    ∀ a b, (∃ u, U u ∧ a = c u) → (∃ u, U u ∧ b = c u) → ¬ Dominates a b := by
  rintro a b ⟨u, hu, rfl⟩ ⟨v, hv, rfl⟩ hd
  have h0 := hd.1 0
  have h1 := hd.1 1
  rcases lt_trichotomy u v with huv | rfl | huv
  · linarith [(h u v hu hv huv).2]
  · obtain ⟨i, hi⟩ := hd.2
    exact lt_irrefl _ hi
  · linarith [(h v u hv hu huv).1]

theorem dfSin_mem (t : ℝ) : -1 ≤ dfSin t ∧ dfSin t ≤ 1 := ⟨Real.neg_one_le_sin _, Real.sin_le_one _⟩

theorem dfAbs_mem (t : ℝ) : 0 ≤ |dfSin t| ∧ |dfSin t| ≤ 1 := ⟨abs_nonneg _, abs_le.2 ⟨by linarith [(dfSin_mem t).1], (dfSin_mem t).2⟩⟩

theorem dfDist_ge (c : ℝ) (x : List ℝ) : 1 ≤ dfDist c x := by
  have : 0 ≤ (x.map fun v => (v - c) ^ (2 : ℕ)).sum := List.sum_nonneg fun v hv => by
    obtain ⟨w, _, rfl⟩ := List.mem_map.1 hv; positivity
  unfold dfDist; linarith

theorem dfDist_rep (c : ℝ) (k : ℕ) : dfDist c (List.replicate k c) = 1 := by
  simp [dfDist]

/-- The first variable of a point in the box. -/
theorem box_head {n : ℕ} (hn : 1 ≤ n) {a b c d : ℝ} {x : List ℝ} (hx : dfBox 1 n a b c d x) : a ≤ x.headD 0 ∧ x.headD 0 ≤ b := by
  cases x with
  | nil => have := hx.1; simp at this; omega
  | cons v l => exact hx.2.1 v (by simp)

theorem box_cons {n : ℕ} (hn : 1 ≤ n) {a b c d v : ℝ} {l : List ℝ} (h0 : a ≤ v ∧ v ≤ b) (hl : l.length = n - 1) (h : ∀ w ∈ l, c ≤ w ∧ w ≤ d) :
    dfBox 1 n a b c d (v :: l) := by
  refine ⟨by simp [hl]; omega, fun w hw => ?_, fun w hw => ?_⟩
  · simp at hw; rw [hw]; exact h0
  · simp at hw; exact h w hw

theorem box_rep {n : ℕ} (hn : 1 ≤ n) {a b c d v w : ℝ} (h0 : a ≤ v ∧ v ≤ b) (h1 : c ≤ w ∧ w ≤ d) :
    dfBox 1 n a b c d (v :: List.replicate (n - 1) w) :=
  box_cons hn h0 (by simp) fun u hu => by rw [List.eq_of_mem_replicate hu]; exact h1

theorem rpow_curve {g f H : ℝ} (hg : 1 ≤ g) (h0 : 0 ≤ f) (h1 : f ≤ 1) (hH : 0 < H) : 1 - f ^ H ≤ g * (1 - (f / g) ^ H) := by
  have h2 : f / g ≤ f := div_le_self h0 hg
  have h3 : (f / g) ^ H ≤ f ^ H := Real.rpow_le_rpow (div_nonneg h0 (by linarith)) h2 hH.le
  have h4 : f ^ H ≤ 1 := Real.rpow_le_one h0 h1 hH.le
  nlinarith

theorem rpow_anti {H : ℝ} (hH : 0 < H) (u v : ℝ) (hu : Unit01 u) (h : u < v) : 1 - v ^ H < 1 - u ^ H := by
  have := Real.rpow_lt_rpow hu.1 h hH
  linarith

/-- C117, DF1: at every time the Pareto-optimal points are exactly the points of the curve. -/
theorem C117_df1_curve (n : ℕ) (hn : 1 ≤ n) (t : ℝ) (f : Fin 2 → ℝ) :
    ParetoPoint (dfBox 1 n 0 1 0 1) (df1 t) f ↔ ∃ u, Unit01 u ∧ f = ![u, 1 - u ^ (0.75 * dfSin t + 1.25)] := by
  have hH : 0 < 0.75 * dfSin t + 1.25 := by linarith [(dfSin_mem t).1]
  refine front_antichain _ _ _ (curve_antichain Unit01 _ fun u v hu hv huv => ⟨by simpa using huv, by simpa using rpow_anti hH u v hu huv⟩)
    ?_ (fun x hx => ⟨_, ⟨x.headD 0, box_head hn hx, rfl⟩, fun i => ?_⟩) f
  · rintro c ⟨u, hu, rfl⟩
    refine ⟨_, box_rep hn hu (dfAbs_mem t), ?_⟩
    simp [df1, dfDist_rep]
  · fin_cases i
    · simp [df1]
    · simpa [df1] using rpow_curve (dfDist_ge _ _) (box_head hn hx).1 (box_head hn hx).2 hH

/-- C117, DF1: every returned point is Pareto-optimal. -/
theorem C117_df1 (n : ℕ) (hn : 1 ≤ n) (t : ℝ) (k : ℕ) : ∀ f ∈ df1Front t k, ParetoPoint (dfBox 1 n 0 1 0 1) (df1 t) f := by
  intro f hf
  obtain ⟨u, hu, rfl⟩ := List.mem_map.1 hf
  exact (C117_df1_curve n hn t _).2 ⟨u, linspace_mem (by norm_num) hu, rfl⟩

theorem df2_index (n : ℕ) (hn : 1 ≤ n) (t : ℝ) : ⌊((n : ℝ) - 1) * |dfSin t|⌋₊ < n := by
  have h1 : (1:ℝ) ≤ n := by exact_mod_cast hn
  rw [Nat.floor_lt (mul_nonneg (by linarith) (abs_nonneg _))]
  have := (dfAbs_mem t).2
  nlinarith [(dfAbs_mem t).1]

/-- C117, DF2: at every time the Pareto-optimal points are exactly the points of the curve. -/
theorem C117_df2_curve (n : ℕ) (hn : 1 ≤ n) (t : ℝ) (f : Fin 2 → ℝ) :
    ParetoPoint (Cube n 0 1) (df2 t) f ↔ ∃ u, Unit01 u ∧ f = ![u, 1 - √u] := by
  have hr := df2_index n hn t
  refine front_antichain _ _ _ (curve_antichain Unit01 _ fun u v hu hv huv => ⟨by simpa using huv, by simpa using Real.sqrt_lt_sqrt hu.1 huv⟩)
    ?_ (fun x hx => ?_) f
  · rintro c ⟨u, hu, rfl⟩
    refine ⟨(List.replicate n |dfSin t|).set ⌊((n : ℝ) - 1) * |dfSin t|⌋₊ u, ⟨by simp, fun v hv => ?_⟩, ?_⟩
    · rcases List.mem_or_eq_of_mem_set hv with h | rfl
      · rw [List.eq_of_mem_replicate h]; exact dfAbs_mem t
      · exact hu
    · have he : ((List.replicate n |dfSin t|).set ⌊((n : ℝ) - 1) * |dfSin t|⌋₊ u).eraseIdx ⌊((n : ℝ) - 1) * |dfSin t|⌋₊ =
          List.replicate (n - 1) |dfSin t| := by
        rw [List.eraseIdx_set_eq, List.eraseIdx_replicate]
        rw [if_pos hr]
      have hg : ((List.replicate n |dfSin t|).set ⌊((n : ℝ) - 1) * |dfSin t|⌋₊ u).getD ⌊((n : ℝ) - 1) * |dfSin t|⌋₊ 0 = u := by
        rw [List.getD_eq_getElem?_getD, List.getElem?_set_self (by simpa using hr)]; rfl
      unfold df2
      simp only [List.length_set, List.length_replicate, he, hg, dfDist_rep]
      rw [Real.sqrt_eq_rpow]; norm_num
  · have hu : Unit01 (x.getD ⌊((n : ℝ) - 1) * |dfSin t|⌋₊ 0) := by
      rw [List.getD_eq_getElem?_getD, List.getElem?_eq_getElem (by rw [hx.1]; exact hr)]
      exact hx.2 _ (List.getElem_mem _)
    refine ⟨_, ⟨_, hu, rfl⟩, fun i => ?_⟩
    fin_cases i
    · simp [df2, hx.1]
    · have := rpow_curve (H := 0.5) (dfDist_ge |dfSin t| (x.eraseIdx ⌊((n : ℝ) - 1) * |dfSin t|⌋₊)) hu.1 hu.2 (by norm_num)
      rw [Real.sqrt_eq_rpow]
      simp only [df2, hx.1]
      norm_num at this ⊢
      exact this

/-- C117, DF2: every returned point is Pareto-optimal. -/
theorem C117_df2 (n : ℕ) (hn : 1 ≤ n) (t : ℝ) (k : ℕ) : ∀ f ∈ df2Front k, ParetoPoint (Cube n 0 1) (df2 t) f := by
  intro f hf
  obtain ⟨u, hu, rfl⟩ := List.mem_map.1 hf
  exact (C117_df2_curve n hn t _).2 ⟨u, linspace_mem (by norm_num) hu, rfl⟩

/-- C117, DF3: at every time the Pareto-optimal points are exactly the points of the curve. -/
theorem C117_df3_curve (n : ℕ) (hn : 1 ≤ n) (t : ℝ) (f : Fin 2 → ℝ) :
    ParetoPoint (dfBox 1 n 0 1 (-1) 2) (df3 t) f ↔ ∃ u, Unit01 u ∧ f = ![u, 1 - u ^ (dfSin t + 1.5)] := by
  have hH : 0 < dfSin t + 1.5 := by linarith [(dfSin_mem t).1]
  refine front_antichain _ _ _ (curve_antichain Unit01 _ fun u v hu hv huv => ⟨by simpa using huv, by simpa using rpow_anti hH u v hu huv⟩)
    ?_ (fun x hx => ⟨_, ⟨x.headD 0, box_head hn hx, rfl⟩, fun i => ?_⟩) f
  · rintro c ⟨u, hu, rfl⟩
    have h1 := Real.rpow_nonneg hu.1 (dfSin t + 1.5)
    have h2 := Real.rpow_le_one hu.1 hu.2 hH.le
    have h3 := dfSin_mem t
    refine ⟨_, box_rep hn hu (w := dfSin t + u ^ (dfSin t + 1.5)) ⟨by linarith, by linarith⟩, ?_⟩
    simp [df3, dfDist_rep]
  · fin_cases i
    · simp [df3]
    · simpa [df3] using rpow_curve (dfDist_ge _ _) (box_head hn hx).1 (box_head hn hx).2 hH

/-- C117, DF3: every returned point is Pareto-optimal. -/
theorem C117_df3 (n : ℕ) (hn : 1 ≤ n) (t : ℝ) (k : ℕ) : ∀ f ∈ df3Front t k, ParetoPoint (dfBox 1 n 0 1 (-1) 2) (df3 t) f := by
  intro f hf
  obtain ⟨u, hu, rfl⟩ := List.mem_map.1 hf
  exact (C117_df3_curve n hn t _).2 ⟨u, linspace_mem (by norm_num) hu, by simp⟩

/-! ### DF4 -/

theorem df4b_mem (t : ℝ) : 1 ≤ df4b t := by unfold df4b; linarith [abs_nonneg (Real.cos (0.5 * Real.pi * t))]

theorem df4g_ge (t : ℝ) (x : List ℝ) : 1 ≤ df4g t x := by
  unfold df4g
  have : 0 ≤ (x.tail.zipIdx.map fun e => (e.1 - dfSin t * (x.headD 0 / max |dfSin t| (dfSin t + df4b t)) ^ (2 : ℕ) / ((e.2 : ℝ) + 2)) ^ (2 : ℕ)).sum :=
    List.sum_nonneg fun v hv => by obtain ⟨w, _, rfl⟩ := List.mem_map.1 hv; positivity
  simpa using this

/-- The solution of DF4 with first variable `v` and the smallest `g`. -/
noncomputable def df4Sol (n : ℕ) (t v : ℝ) : List ℝ :=
  v :: (List.range (n - 1)).map fun j : ℕ => dfSin t * (v / max |dfSin t| (dfSin t + df4b t)) ^ (2 : ℕ) / ((j : ℝ) + 2)

theorem df4Sol_g (n : ℕ) (t v : ℝ) : df4g t (df4Sol n t v) = 1 := by
  unfold df4g df4Sol
  simp only [List.tail_cons, List.headD_cons]
  have : ∀ e ∈ ((List.range (n - 1)).map fun j : ℕ => dfSin t * (v / max |dfSin t| (dfSin t + df4b t)) ^ (2 : ℕ) / ((j : ℝ) + 2)).zipIdx,
      (e.1 - dfSin t * (v / max |dfSin t| (dfSin t + df4b t)) ^ (2 : ℕ) / ((e.2 : ℝ) + 2)) ^ (2 : ℕ) = 0 := by
    intro e he
    rw [List.mem_zipIdx_iff_getElem?] at he
    rw [List.getElem?_map, Option.map_eq_some_iff] at he
    obtain ⟨j, hj, hje⟩ := he
    have hjl := (List.getElem?_eq_some_iff.1 hj)
    obtain ⟨hl, hj'⟩ := hjl
    rw [List.getElem_range] at hj'
    rw [← hje, hj']; simp
  rw [List.map_congr_left this]
  simp

theorem df4Sol_box {n : ℕ} (hn : 1 ≤ n) {t v : ℝ} (h1 : dfSin t ≤ v) (h2 : v ≤ dfSin t + df4b t) (hv : v ≤ 2) :
    dfBox 1 n (-2) 2 (-2) 2 (df4Sol n t v) := by
  have ha := dfSin_mem t
  have hb := df4b_mem t
  refine box_cons hn ⟨by linarith, hv⟩ (by simp) fun w hw => ?_
  obtain ⟨j, _, rfl⟩ := List.mem_map.1 hw
  set c := max |dfSin t| (dfSin t + df4b t) with hc
  have hc0 : 0 < c := by
    rcases eq_or_ne (dfSin t) 0 with h | h
    · exact lt_of_lt_of_le (by linarith) (le_max_right _ _)
    · exact lt_of_lt_of_le (abs_pos.2 h) (le_max_left _ _)
  have hvc : |v| ≤ c := abs_le.2 ⟨by
    have := neg_abs_le (dfSin t)
    have : |dfSin t| ≤ c := le_max_left _ _
    linarith, h2.trans (le_max_right _ _)⟩
  have hq : (v / c) ^ (2:ℕ) ≤ 1 := by
    rw [div_pow, div_le_one (by positivity)]
    exact sq_le_sq' (by linarith [(abs_le.1 hvc).1]) (abs_le.1 hvc).2
  have hq0 : 0 ≤ (v / c) ^ (2:ℕ) := by positivity
  have hj : (0:ℝ) ≤ (j : ℝ) := Nat.cast_nonneg j
  constructor
  · rw [le_div_iff₀ (by linarith)]; nlinarith
  · rw [div_le_iff₀ (by linarith)]; nlinarith

/-- C117, DF4: as long as the curve fits into the bounds, the Pareto-optimal points are exactly its points. -/
theorem C117_df4_curve (n : ℕ) (hn : 1 ≤ n) (t : ℝ) (hfit : dfSin t + df4b t ≤ 2) (f : Fin 2 → ℝ) :
    ParetoPoint (dfBox 1 n (-2) 2 (-2) 2) (df4 t) f ↔
      ∃ v, (dfSin t ≤ v ∧ v ≤ dfSin t + df4b t) ∧ f = ![|v - dfSin t| ^ (1.5 + dfSin t), |v - dfSin t - df4b t| ^ (1.5 + dfSin t)] := by
  have ha := dfSin_mem t
  have hb := df4b_mem t
  have hH : 0 < 1.5 + dfSin t := by linarith
  refine front_antichain _ _ _ (curve_antichain (fun v => dfSin t ≤ v ∧ v ≤ dfSin t + df4b t) _ fun u v hu hv huv => ?_) ?_ (fun x hx => ?_) f
  · simp only [Matrix.cons_val_zero, Matrix.cons_val_one]
    rw [abs_of_nonneg (by linarith [hu.1] : 0 ≤ u - dfSin t), abs_of_nonneg (by linarith [hv.1] : 0 ≤ v - dfSin t),
      abs_of_nonpos (by linarith [hu.2] : u - dfSin t - df4b t ≤ 0), abs_of_nonpos (by linarith [hv.2] : v - dfSin t - df4b t ≤ 0)]
    exact ⟨Real.rpow_lt_rpow (by linarith [hu.1]) (by linarith) hH, Real.rpow_lt_rpow (by linarith [hv.2]) (by linarith) hH⟩
  · rintro c ⟨v, hv, rfl⟩
    refine ⟨_, df4Sol_box hn hv.1 hv.2 (by linarith [hv.2]), ?_⟩
    unfold df4
    rw [df4Sol_g]
    simp [df4Sol]
  · have hg := df4g_ge t x
    set x0 := x.headD 0 with hx0
    refine ⟨_, ⟨max (dfSin t) (min x0 (dfSin t + df4b t)), ⟨le_max_left _ _, max_le (by linarith) (min_le_right _ _)⟩, rfl⟩, fun i => ?_⟩
    have key : ∀ y z : ℝ, |y| ≤ |z| → |y| ^ (1.5 + dfSin t) ≤ df4g t x * |z| ^ (1.5 + dfSin t) := by
      intro y z h
      have h1 := Real.rpow_le_rpow (abs_nonneg y) h hH.le
      have h2 := Real.rpow_nonneg (abs_nonneg z) (1.5 + dfSin t)
      nlinarith
    fin_cases i
    · refine key _ _ ?_
      rcases le_total x0 (dfSin t) with h | h
      · rw [max_eq_left ((min_le_left _ _).trans h)]; simp
      · rcases le_total x0 (dfSin t + df4b t) with h2 | h2
        · rw [min_eq_left h2, max_eq_right h]
        · rw [min_eq_right h2, max_eq_right (by linarith), abs_of_nonneg (by linarith), abs_of_nonneg (by linarith)]; linarith
    · refine key _ _ ?_
      rcases le_total x0 (dfSin t) with h | h
      · rw [max_eq_left ((min_le_left _ _).trans h), abs_of_nonpos (by linarith), abs_of_nonpos (by linarith)]; linarith
      · rcases le_total x0 (dfSin t + df4b t) with h2 | h2
        · rw [min_eq_left h2, max_eq_right h]
        · rw [min_eq_right h2, max_eq_right (by linarith)]; simp

theorem linspace_last {a b : ℝ} {n : ℕ} (hn : 2 ≤ n) : b ∈ linspace a b n := by
  refine List.mem_map.2 ⟨n - 1, List.mem_range.2 (by omega), ?_⟩
  have hn' : (2:ℝ) ≤ n := by exact_mod_cast hn
  rw [Nat.cast_sub (by omega), Nat.cast_one]
  have : (n : ℝ) - 1 ≠ 0 := by linarith
  field_simp
  ring

/-- C117, DF4: with two or more points, all returned points are Pareto-optimal exactly if the curve fits into the bounds. -/
theorem C117_df4_iff (n : ℕ) (hn : 1 ≤ n) (t : ℝ) (k : ℕ) (hk : 2 ≤ k) :
    (∀ f ∈ df4Front t k, ParetoPoint (dfBox 1 n (-2) 2 (-2) 2) (df4 t) f) ↔ dfSin t + df4b t ≤ 2 := by
  constructor
  · intro h
    obtain ⟨⟨x, hx, hxf⟩, _⟩ := h _ (List.mem_map.2 ⟨_, linspace_last (a := dfSin t) (b := dfSin t + df4b t) hk, rfl⟩)
    have h1 := congrFun hxf 1
    have hH : 1.5 + dfSin t ≠ 0 := by linarith [(dfSin_mem t).1]
    simp only [df4, Matrix.cons_val_one, add_sub_cancel_left, sub_self, abs_zero, Real.zero_rpow hH] at h1
    rcases mul_eq_zero.1 h1 with h2 | h2
    · linarith [df4g_ge t x]
    · rw [Real.rpow_eq_zero (abs_nonneg _) hH, abs_eq_zero] at h2
      linarith [(box_head hn hx).2]
  · intro hfit f hf
    obtain ⟨u, hu, rfl⟩ := List.mem_map.1 hf
    exact (C117_df4_curve n hn t hfit _).2 ⟨u, linspace_mem (by linarith [df4b_mem t]) hu, rfl⟩

/-- C117 is violated by DF4 at all times between 0 and 1: the last returned point is not attained by any solution. -/
theorem C117_df4_refuted (n : ℕ) (hn : 1 ≤ n) (t : ℝ) (h0 : 0 < t) (h1 : t < 1) (k : ℕ) (hk : 2 ≤ k) :
    ∃ f ∈ df4Front t k, ∀ x, dfBox 1 n (-2) 2 (-2) 2 x → df4 t x ≠ f := by
  have hpi := Real.pi_pos
  have hs : 0 < dfSin t := Real.sin_pos_of_pos_of_lt_pi (by positivity) (by nlinarith)
  have hc : 0 < Real.cos (0.5 * Real.pi * t) := Real.cos_pos_of_mem_Ioo ⟨by nlinarith [mul_pos hpi h0], by nlinarith⟩
  have hbig : 2 < dfSin t + df4b t := by
    unfold df4b
    rw [abs_of_pos hc]
    have := Real.sin_sq_add_cos_sq (0.5 * Real.pi * t)
    change dfSin t ^ 2 + _ = 1 at this
    nlinarith [mul_pos hs hc]
  refine ⟨_, List.mem_map.2 ⟨_, linspace_last (a := dfSin t) (b := dfSin t + df4b t) hk, rfl⟩, fun x hx hxf => ?_⟩
  have h1 := congrFun hxf 1
  have hH : 1.5 + dfSin t ≠ 0 := by linarith [(dfSin_mem t).1]
  simp only [df4, Matrix.cons_val_one, add_sub_cancel_left, sub_self, abs_zero, Real.zero_rpow hH] at h1
  rcases mul_eq_zero.1 h1 with h2 | h2
  · linarith [df4g_ge t x]
  · rw [Real.rpow_eq_zero (abs_nonneg _) hH, abs_eq_zero] at h2
    linarith [(box_head hn hx).2]

/-- There are times at which DF4's curve fits: for instance 0. -/
example : dfSin 0 + df4b 0 ≤ 2 := by simp [dfSin, df4b]; norm_num

/-! ### DF5, DF6, DF8: waves that keep the curve monotone -/

/-- A wave of small slope does not turn the diagonal around. -/
theorem wave_mono {k w u v : ℝ} (hk : |k * w| < 1) (h : u < v) :
    u + k * Real.sin (w * u) < v + k * Real.sin (w * v) ∧ 1 - v + k * Real.sin (w * v) < 1 - u + k * Real.sin (w * u) := by
  have h1 : |k * (Real.sin (w * v) - Real.sin (w * u))| < v - u := by
    rw [abs_mul]
    calc |k| * |Real.sin (w * v) - Real.sin (w * u)| ≤ |k| * |w * v - w * u| :=
          mul_le_mul_of_nonneg_left (Real.abs_sin_sub_sin_le _ _) (abs_nonneg _)
      _ = |k * w| * (v - u) := by rw [← mul_sub, abs_mul, abs_mul, abs_of_pos (by linarith : 0 < v - u)]; ring
      _ < 1 * (v - u) := mul_lt_mul_of_pos_right hk (by linarith)
      _ = v - u := one_mul _
  have := abs_lt.1 h1
  constructor <;> nlinarith

/-- On the unit interval the two coordinates are not negative if the wave is zero at both ends. -/
theorem wave_nonneg {k w u : ℝ} (hk : |k * w| < 1) (h1 : Real.sin w = 0) (hu : Unit01 u) :
    0 ≤ u + k * Real.sin (w * u) ∧ 0 ≤ 1 - u + k * Real.sin (w * u) := by
  constructor
  · rcases eq_or_lt_of_le hu.1 with h | h
    · rw [← h]; simp
    · have := (wave_mono hk h).1
      simp at this; linarith
  · rcases eq_or_lt_of_le hu.2 with h | h
    · rw [h]; simp [h1]
    · have := (wave_mono hk h).2
      simp [h1] at this; linarith

theorem df5_slope (t : ℝ) : |(0.02:ℝ) * (((⌊10 * dfSin t⌋ : ℤ) : ℝ) * Real.pi)| < 1 := by
  have h := dfSin_mem t
  have h1 : (⌊10 * dfSin t⌋ : ℝ) ≤ 10 := (Int.floor_le _).trans (by linarith)
  have h2 : (-10 : ℝ) ≤ ⌊10 * dfSin t⌋ := by
    have : (-10 : ℤ) ≤ ⌊10 * dfSin t⌋ := Int.le_floor.2 (by push_cast; linarith)
    exact_mod_cast this
  have hpi := Real.pi_lt_d2
  have hpi0 := Real.pi_pos
  rw [abs_lt]
  constructor <;> nlinarith

/-- C117, DF5: at every time the Pareto-optimal points are exactly the points of the curve. -/
theorem C117_df5_curve (n : ℕ) (hn : 1 ≤ n) (t : ℝ) (f : Fin 2 → ℝ) :
    ParetoPoint (dfBox 1 n 0 1 (-1) 1) (df5 t) f ↔ ∃ u, Unit01 u ∧ f = df5Curve t u := by
  refine front_antichain _ _ _ (curve_antichain Unit01 _ fun u v hu hv huv => ?_)
    ?_ (fun x hx => ⟨_, ⟨x.headD 0, box_head hn hx, rfl⟩, fun i => ?_⟩) f
  · simpa [df5Curve] using wave_mono (df5_slope t) huv
  · rintro c ⟨u, hu, rfl⟩
    refine ⟨_, box_rep hn hu (dfSin_mem t), ?_⟩
    simp [df5, df5Curve, dfDist_rep]
  · have h0 := wave_nonneg (df5_slope t) (Real.sin_int_mul_pi _) (box_head hn hx)
    have hg := dfDist_ge (dfSin t) x.tail
    fin_cases i
    · simpa [df5, df5Curve] using le_mul_of_one_le_left h0.1 hg
    · simpa [df5, df5Curve] using le_mul_of_one_le_left h0.2 hg

/-- C117, DF5: every returned point is Pareto-optimal. -/
theorem C117_df5 (n : ℕ) (hn : 1 ≤ n) (t : ℝ) (k : ℕ) : ∀ f ∈ df5Front t k, ParetoPoint (dfBox 1 n 0 1 (-1) 1) (df5 t) f := by
  intro f hf
  obtain ⟨u, hu, rfl⟩ := List.mem_map.1 hf
  exact (C117_df5_curve n hn t _).2 ⟨u, linspace_mem (by norm_num) hu, rfl⟩

theorem df6_slope : |(0.1:ℝ) * (3 * Real.pi)| < 1 := by
  have hpi := Real.pi_lt_d2
  have hpi0 := Real.pi_pos
  rw [abs_lt]
  constructor <;> nlinarith

theorem sin_three_pi : Real.sin (3 * Real.pi) = 0 := by exact_mod_cast Real.sin_nat_mul_pi 3

theorem df6g_ge (t : ℝ) (x : List ℝ) : 1 ≤ df6g t x := by
  unfold df6g
  have : 0 ≤ (x.tail.map fun v => |dfSin t| * (v - dfSin t) ^ (2 : ℕ) - 10 * Real.cos (2 * Real.pi * (v - dfSin t)) + 10).sum :=
    List.sum_nonneg fun v hv => by
      obtain ⟨w, _, rfl⟩ := List.mem_map.1 hv
      have := Real.cos_le_one (2 * Real.pi * (w - dfSin t))
      have : 0 ≤ |dfSin t| * (w - dfSin t) ^ (2 : ℕ) := by positivity
      linarith
  linarith

/-- C117, DF6: at every time the Pareto-optimal points are exactly the points of the curve. -/
theorem C117_df6_curve (n : ℕ) (hn : 1 ≤ n) (t : ℝ) (f : Fin 2 → ℝ) :
    ParetoPoint (dfBox 1 n 0 1 (-1) 1) (df6 t) f ↔ ∃ u, Unit01 u ∧ f = df6Curve t u := by
  have ha : 0 < 0.2 + 2.8 * |dfSin t| := by linarith [(dfAbs_mem t).1]
  refine front_antichain _ _ _ (curve_antichain Unit01 _ fun u v hu hv huv => ?_)
    ?_ (fun x hx => ⟨_, ⟨x.headD 0, box_head hn hx, rfl⟩, fun i => ?_⟩) f
  · have h := wave_mono df6_slope huv
    have h0 := wave_nonneg df6_slope sin_three_pi hu
    have h1 := wave_nonneg df6_slope sin_three_pi hv
    exact ⟨by simpa [df6Curve] using Real.rpow_lt_rpow h0.1 h.1 ha, by simpa [df6Curve] using Real.rpow_lt_rpow h1.2 h.2 ha⟩
  · rintro c ⟨u, hu, rfl⟩
    refine ⟨_, box_rep hn hu (dfSin_mem t), ?_⟩
    simp [df6, df6Curve, df6g]
  · have h0 := wave_nonneg df6_slope sin_three_pi (box_head hn hx)
    have hg := df6g_ge t x
    have e0 := Real.rpow_nonneg h0.1 (0.2 + 2.8 * |dfSin t|)
    have e1 := Real.rpow_nonneg h0.2 (0.2 + 2.8 * |dfSin t|)
    fin_cases i
    · simpa [df6, df6Curve] using le_mul_of_one_le_left e0 hg
    · simpa [df6, df6Curve] using le_mul_of_one_le_left e1 hg

/-- C117, DF6: every returned point is Pareto-optimal. -/
theorem C117_df6 (n : ℕ) (hn : 1 ≤ n) (t : ℝ) (k : ℕ) : ∀ f ∈ df6Front t k, ParetoPoint (dfBox 1 n 0 1 (-1) 1) (df6 t) f := by
  intro f hf
  obtain ⟨u, hu, rfl⟩ := List.mem_map.1 hf
  exact (C117_df6_curve n hn t _).2 ⟨u, linspace_mem (by norm_num) hu, rfl⟩

/-- C117, DF7: at every time after -1 the Pareto-optimal points are exactly the points of the curve. -/
theorem C117_df7_curve (n : ℕ) (hn : 1 ≤ n) (t : ℝ) (ht : -1 < t) (f : Fin 2 → ℝ) :
    ParetoPoint (dfBox 1 n 1 4 0 1) (df7 t) f ↔ ∃ u, (1 ≤ u ∧ u ≤ 4) ∧ f = ![(1 + t) / u, u / (1 + t)] := by
  have h1 : 0 < 1 + t := by linarith
  refine front_antichain _ _ (fun f => ∃ u, (1 ≤ u ∧ u ≤ 4) ∧ f = ![(1 + t) / u, u / (1 + t)]) ?_ ?_
    (fun x hx => ⟨_, ⟨x.headD 0, box_head hn hx, rfl⟩, fun i => ?_⟩) f
  · rintro a b ⟨u, hu, rfl⟩ ⟨v, hv, rfl⟩ hd
    have hu0 : 0 < u := by linarith [hu.1]
    have hv0 : 0 < v := by linarith [hv.1]
    have d0 : (1 + t) / u ≤ (1 + t) / v := by simpa using hd.1 0
    have d1 : u / (1 + t) ≤ v / (1 + t) := by simpa using hd.1 1
    rw [div_le_div_iff_of_pos_right h1] at d1
    rw [div_le_div_iff_of_pos_left h1 hu0 hv0] at d0
    have : u = v := le_antisymm d1 d0
    obtain ⟨i, hi⟩ := hd.2
    rw [this] at hi
    exact lt_irrefl _ hi
  · rintro c ⟨u, hu, rfl⟩
    have he := Real.exp_pos (5 * Real.cos (0.5 * Real.pi * t) * (u - 2.5))
    refine ⟨_, box_rep hn hu (w := 1 / (1 + Real.exp (5 * Real.cos (0.5 * Real.pi * t) * (u - 2.5)))) ⟨by positivity, ?_⟩, ?_⟩
    · rw [div_le_one (by linarith)]; linarith
    · simp only [df7, List.headD_cons, List.tail_cons, dfDist_rep, one_mul]
  · have hx0 := box_head hn hx
    have hx1 : 0 < x.headD 0 := by linarith [hx0.1]
    have hg := dfDist_ge (1 / (1 + Real.exp (5 * Real.cos (0.5 * Real.pi * t) * (x.headD 0 - 2.5)))) x.tail
    fin_cases i
    · simp only [df7, Fin.zero_eta, Matrix.cons_val_zero]
      rw [div_le_div_iff_of_pos_right hx1]
      exact le_mul_of_one_le_left h1.le hg
    · simp only [df7, Fin.mk_one, Matrix.cons_val_one, Matrix.cons_val_fin_one]
      rw [div_le_div_iff_of_pos_right h1]
      exact le_mul_of_one_le_left hx1.le hg

/-- C117, DF7: every returned point is Pareto-optimal, for every sorting of the points. -/
theorem C117_df7 (n : ℕ) (hn : 1 ≤ n) (t : ℝ) (ht : -1 < t) (k : ℕ) (order : List ℕ) :
    ∀ f ∈ df7Front t k order, ParetoPoint (dfBox 1 n 1 4 0 1) (df7 t) f := by
  intro f hf
  obtain ⟨i, _, hi⟩ := List.mem_filterMap.1 hf
  obtain ⟨u, hu, rfl⟩ := List.mem_map.1 (List.mem_of_getElem? hi)
  exact (C117_df7_curve n hn t ht _).2 ⟨u, linspace_mem (by norm_num) hu, rfl⟩

/-- C117, DF8: at every time the Pareto-optimal points are exactly the points of the curve. -/
theorem C117_df8_curve (n : ℕ) (hn : 1 ≤ n) (t : ℝ) (f : Fin 2 → ℝ) :
    ParetoPoint (dfBox 1 n 0 1 (-1) 1) (df8 t) f ↔ ∃ u, Unit01 u ∧ f = df8Curve t u := by
  have ha : 0 < 2.25 + 2 * Real.cos (2 * Real.pi * t) := by linarith [Real.neg_one_le_cos (2 * Real.pi * t)]
  refine front_antichain _ _ _ (curve_antichain Unit01 _ fun u v hu hv huv => ?_)
    ?_ (fun x hx => ⟨_, ⟨x.headD 0, box_head hn hx, rfl⟩, fun i => ?_⟩) f
  · have h := wave_mono df6_slope huv
    have h1 := wave_nonneg df6_slope sin_three_pi hv
    exact ⟨by simpa [df8Curve] using h.1, by simpa [df8Curve] using Real.rpow_lt_rpow h1.2 h.2 ha⟩
  · rintro c ⟨u, hu, rfl⟩
    have hG := dfSin_mem t
    have hA := dfAbs_mem t
    have hs := abs_le.2 ⟨Real.neg_one_le_sin (4 * Real.pi * u), Real.sin_le_one (4 * Real.pi * u)⟩
    have hw : |dfSin t * Real.sin (4 * Real.pi * u) / (1 + |dfSin t|)| ≤ 1 := by
      rw [abs_div, abs_mul, abs_of_pos (by linarith : 0 < 1 + |dfSin t|), div_le_one (by linarith)]
      nlinarith [abs_nonneg (Real.sin (4 * Real.pi * u))]
    refine ⟨_, box_rep hn hu (w := dfSin t * Real.sin (4 * Real.pi * u) / (1 + |dfSin t|)) (abs_le.1 hw), ?_⟩
    simp [df8, df8Curve, dfDist_rep]
  · have h0 := wave_nonneg df6_slope sin_three_pi (box_head hn hx)
    have hg := dfDist_ge (dfSin t * Real.sin (4 * Real.pi * x.headD 0 ^ (1 : ℕ)) / (1 + |dfSin t|)) x.tail
    have e1 := Real.rpow_nonneg h0.2 (2.25 + 2 * Real.cos (2 * Real.pi * t))
    fin_cases i
    · simpa [df8, df8Curve] using le_mul_of_one_le_left h0.1 hg
    · simpa [df8, df8Curve] using le_mul_of_one_le_left e1 hg

/-- C117, DF8: every returned point is Pareto-optimal. -/
theorem C117_df8 (n : ℕ) (hn : 1 ≤ n) (t : ℝ) (k : ℕ) : ∀ f ∈ df8Front t k, ParetoPoint (dfBox 1 n 0 1 (-1) 1) (df8 t) f := by
  intro f hf
  obtain ⟨u, hu, rfl⟩ := List.mem_map.1 hf
  exact (C117_df8_curve n hn t _).2 ⟨u, linspace_mem (by norm_num) hu, rfl⟩

/-! ### DF9 -/

/-- The tail of DF9's optimal solutions: each variable is the target given by the one before it. -/
noncomputable def df9Tail (t x0 : ℝ) : ℕ → ℝ → List ℝ
  | 0, _ => []
  | k + 1, prev => Real.cos (4 * t + x0 + prev) :: df9Tail t x0 k (Real.cos (4 * t + x0 + prev))

theorem df9Tail_g (t x0 : ℝ) (k : ℕ) (prev : ℝ) : df9g t x0 prev (df9Tail t x0 k prev) = 0 := by
  induction k generalizing prev with
  | zero => simp [df9Tail, df9g]
  | succ k ih => simp [df9Tail, df9g, ih]

theorem df9Tail_length (t x0 : ℝ) (k : ℕ) (prev : ℝ) : (df9Tail t x0 k prev).length = k := by
  induction k generalizing prev with
  | zero => rfl
  | succ k ih => simp [df9Tail, ih]

theorem df9Tail_mem (t x0 : ℝ) (k : ℕ) (prev : ℝ) : ∀ w ∈ df9Tail t x0 k prev, -1 ≤ w ∧ w ≤ 1 := by
  induction k generalizing prev with
  | zero => simp [df9Tail]
  | succ k ih =>
    intro w hw
    rcases List.mem_cons.1 hw with rfl | hw
    · exact ⟨Real.neg_one_le_cos _, Real.cos_le_one _⟩
    · exact ih _ w hw

theorem df9g_nonneg (t x0 prev : ℝ) (l : List ℝ) : 0 ≤ df9g t x0 prev l := by
  induction l generalizing prev with
  | nil => simp [df9g]
  | cons v l ih => unfold df9g; have := ih v; positivity

theorem df9N_eq (t : ℝ) : ∃ N : ℕ, 1 ≤ N ∧ df9N t = N := by
  have h : 0 ≤ ⌊10 * |Real.sin (0.5 * Real.pi * t)|⌋ := Int.floor_nonneg.2 (by positivity)
  obtain ⟨k, hk⟩ := Int.eq_ofNat_of_zero_le h
  refine ⟨1 + k, by omega, ?_⟩
  unfold df9N
  rw [hk]; push_cast; rfl

theorem df9Hump_nonneg (t x : ℝ) : 0 ≤ df9Hump t x := le_max_left _ _

/-- A hump lies above one of its two ends. -/
theorem df9_hump_end (t x : ℝ) (hx : Unit01 x) : ∃ s, Unit01 s ∧ Real.sin (2 * df9N t * Real.pi * s) ≤ 0 ∧ s ≤ x + df9Hump t x ∧ 1 - s ≤ 1 - x + df9Hump t x := by
  have hh := df9Hump_nonneg t x
  rcases le_or_gt (Real.sin (2 * df9N t * Real.pi * x)) 0 with h | h
  · exact ⟨x, hx, h, by linarith, by linarith⟩
  obtain ⟨N, hN, hNe⟩ := df9N_eq t
  have hN1 : (1:ℝ) ≤ N := by exact_mod_cast hN
  have hpi := Real.pi_pos
  rw [hNe] at h ⊢
  have hH : df9Hump t x = (0.1 + 0.5 / (N:ℝ)) * Real.sin (2 * N * Real.pi * x) := by
    unfold df9Hump
    rw [hNe, max_eq_right]
    have : 0 ≤ 0.5 / (N:ℝ) := by positivity
    exact mul_nonneg (by linarith) h.le
  set k := ⌊2 * (N:ℝ) * x⌋ with hk
  set y := 2 * (N:ℝ) * x - k with hy
  have hy0 : 0 ≤ y := by have := Int.floor_le (2 * (N:ℝ) * x); rw [hy, hk]; linarith
  have hy1 : y < 1 := by have := Int.lt_floor_add_one (2 * (N:ℝ) * x); rw [hy, hk]; linarith
  have hxk : 2 * (N:ℝ) * Real.pi * x = y * Real.pi + k * Real.pi := by rw [hy]; ring
  have hsy : 0 ≤ Real.sin (y * Real.pi) := Real.sin_nonneg_of_nonneg_of_le_pi (by positivity) (by nlinarith)
  rw [hxk, Real.sin_add_int_mul_pi] at h
  have hkev : Even k := by
    by_contra hodd
    rw [Int.not_even_iff_odd] at hodd
    rw [hodd.neg_one_zpow] at h
    linarith
  rw [hkev.neg_one_zpow, one_mul] at h
  have hsin : Real.sin (2 * N * Real.pi * x) = Real.sin (y * Real.pi) := by rw [hxk, Real.sin_add_int_mul_pi, hkev.neg_one_zpow, one_mul]
  have hk0 : 0 ≤ k := Int.floor_nonneg.2 (by have := hx.1; positivity)
  have hypos : 0 < y := by
    rcases eq_or_lt_of_le hy0 with e | e
    · rw [← e] at h; simp at h
    · exact e
  have hk2 : k < 2 * N := by
    have : (k : ℝ) < 2 * N := by
      have : 2 * (N:ℝ) * x ≤ 2 * N := by nlinarith [hx.2]
      linarith
    exact_mod_cast this
  have hk0' : (0:ℝ) ≤ k := by exact_mod_cast hk0
  have hk2' : (k:ℝ) + 1 ≤ 2 * N := by exact_mod_cast hk2
  have hzero : ∀ j : ℤ, Real.sin (2 * N * Real.pi * ((j:ℝ) / (2 * N))) = 0 := by
    intro j
    have : 2 * (N:ℝ) * Real.pi * ((j:ℝ) / (2 * N)) = j * Real.pi := by field_simp
    rw [this, Real.sin_int_mul_pi]
  have hxe : x = (k + y) / (2 * N) := by rw [hy]; field_simp; ring
  have hA : 1 / (2 * (N:ℝ)) ≤ 0.1 + 0.5 / (N:ℝ) := by
    have : 1 / (2 * (N:ℝ)) = 0.5 / (N:ℝ) := by field_simp; norm_num
    linarith
  have hA0 : 0 ≤ 0.1 + 0.5 / (N:ℝ) := le_trans (by positivity) hA
  rcases le_or_gt y (1 / 2) with hhalf | hhalf
  · have hj : 2 * y ≤ Real.sin (y * Real.pi) := by
      have := Real.mul_le_sin (x := y * Real.pi) (by positivity) (by nlinarith)
      have e : 2 / Real.pi * (y * Real.pi) = 2 * y := by field_simp
      linarith
    refine ⟨k / (2 * N), ⟨by positivity, by rw [div_le_one (by positivity)]; linarith⟩, (hzero k).le, ?_, ?_⟩
    · have : (k:ℝ) / (2 * N) ≤ x := by rw [hxe]; exact div_le_div_of_nonneg_right (by linarith) (by positivity)
      linarith
    · rw [hH, hsin]
      have h1 : 1 / (2 * (N:ℝ)) * (2 * y) ≤ (0.1 + 0.5 / (N:ℝ)) * Real.sin (y * Real.pi) := mul_le_mul hA hj (by positivity) hA0
      have h2 : x - k / (2 * N) = 1 / (2 * (N:ℝ)) * y := by rw [hxe]; ring
      have h3 : 0 ≤ 1 / (2 * (N:ℝ)) * y := by positivity
      linarith
  · have hj : 2 * (1 - y) ≤ Real.sin (y * Real.pi) := by
      have := Real.mul_le_sin (x := (1 - y) * Real.pi) (mul_nonneg (by linarith) hpi.le) (by nlinarith)
      have e : 2 / Real.pi * ((1 - y) * Real.pi) = 2 * (1 - y) := by field_simp
      have e2 : Real.sin ((1 - y) * Real.pi) = Real.sin (y * Real.pi) := by rw [← Real.sin_pi_sub]; congr 1; ring
      linarith
    refine ⟨((k + 1 : ℤ) : ℝ) / (2 * N), ⟨by push_cast; positivity, by push_cast; rw [div_le_one (by positivity)]; linarith⟩, (hzero _).le, ?_, ?_⟩
    · rw [hH, hsin]
      have h1 : 1 / (2 * (N:ℝ)) * (2 * (1 - y)) ≤ (0.1 + 0.5 / (N:ℝ)) * Real.sin (y * Real.pi) := mul_le_mul hA hj (mul_nonneg (by norm_num) (by linarith)) hA0
      have h2 : ((k + 1 : ℤ) : ℝ) / (2 * N) - x = 1 / (2 * (N:ℝ)) * (1 - y) := by rw [hxe]; push_cast; ring
      have h3 : 0 ≤ 1 / (2 * (N:ℝ)) * (1 - y) := mul_nonneg (by positivity) (by linarith)
      linarith
    · have : x ≤ ((k + 1 : ℤ) : ℝ) / (2 * N) := by rw [hxe]; push_cast; exact div_le_div_of_nonneg_right (by linarith) (by positivity)
      linarith

/-- C117, DF9: at every time the Pareto-optimal points are exactly the points of the diagonal without humps. -/
theorem C117_df9_curve (n : ℕ) (hn : 1 ≤ n) (t : ℝ) (f : Fin 2 → ℝ) :
    ParetoPoint (dfBox 1 n 0 1 (-1) 1) (df9 t) f ↔ ∃ s, (Unit01 s ∧ Real.sin (2 * df9N t * Real.pi * s) ≤ 0) ∧ f = ![s, 1 - s] := by
  refine front_antichain _ _ _ (curve_antichain (fun s => Unit01 s ∧ Real.sin (2 * df9N t * Real.pi * s) ≤ 0) _
    fun u v hu hv huv => ⟨by simpa using huv, by simpa using huv⟩) ?_ (fun x hx => ?_) f
  · rintro c ⟨s, ⟨hs, hsin⟩, rfl⟩
    have h0 : df9Hump t s = 0 := by
      unfold df9Hump
      obtain ⟨N, hN, hNe⟩ := df9N_eq t
      rw [hNe] at hsin ⊢
      have : 0 ≤ 0.5 / (N:ℝ) := by positivity
      exact max_eq_left (mul_nonpos_of_nonneg_of_nonpos (by linarith) hsin)
    refine ⟨s :: df9Tail t s (n - 1) s, box_cons hn hs (df9Tail_length _ _ _ _) (df9Tail_mem _ _ _ _), ?_⟩
    simp [df9, df9Tail_g, h0]
  · obtain ⟨s, hs, hsin, h1, h2⟩ := df9_hump_end t _ (box_head hn hx)
    have hg := df9g_nonneg t (x.headD 0) (x.headD 0) x.tail
    have hh := df9Hump_nonneg t (x.headD 0)
    have hx0 := box_head hn hx
    refine ⟨_, ⟨s, ⟨hs, hsin⟩, rfl⟩, fun i => ?_⟩
    fin_cases i
    · refine h1.trans ?_
      exact le_mul_of_one_le_left (by linarith [hx0.1]) (by linarith)
    · refine h2.trans ?_
      exact le_mul_of_one_le_left (by linarith [hx0.2]) (by linarith)

/-- C117, DF9: of the returned points exactly those on the diagonal `f1 + f2 = 1` are Pareto-optimal. -/
theorem C117_df9_partial (n : ℕ) (hn : 1 ≤ n) (t : ℝ) (k : ℕ) :
    ∀ f ∈ df9Front t k, ParetoPoint (dfBox 1 n 0 1 (-1) 1) (df9 t) f ↔ f 0 + f 1 = 1 := by
  intro f hf
  obtain ⟨u, hu, rfl⟩ := List.mem_map.1 (List.mem_of_mem_filter hf)
  have hu' := linspace_mem (by norm_num) hu
  rw [C117_df9_curve n hn t]
  constructor
  · rintro ⟨s, hs, he⟩
    rw [he]; simp
  · intro h
    have h0 : df9Hump t u = 0 := by simp [df9Curve] at h; linarith
    refine ⟨u, ⟨hu', ?_⟩, by simp [df9Curve, h0]⟩
    by_contra hc
    push Not at hc
    obtain ⟨N, hN, hNe⟩ := df9N_eq t
    have : 0 < df9Hump t u := by
      unfold df9Hump
      rw [hNe] at hc ⊢
      have : 0 ≤ 0.5 / (N:ℝ) := by positivity
      exact lt_max_of_lt_right (mul_pos (by linarith) hc)
    linarith

/-- C117, DF9: every sampled point that is Pareto-optimal is returned. -/
theorem C117_df9_kept (n : ℕ) (hn : 1 ≤ n) (t : ℝ) (k : ℕ) (u : ℝ) (hu : u ∈ linspace 0 1 k)
    (h : ParetoPoint (dfBox 1 n 0 1 (-1) 1) (df9 t) (df9Curve t u)) : df9Curve t u ∈ df9Front t k := by
  refine List.mem_filter.2 ⟨List.mem_map_of_mem hu, ?_⟩
  simp only [decide_eq_true_eq]
  intro q hq hd
  obtain ⟨v, hv, rfl⟩ := List.mem_map.1 hq
  have hv' := linspace_mem (by norm_num) hv
  refine h.2 (v :: df9Tail t v (n - 1) v) (box_cons hn hv' (df9Tail_length _ _ _ _) (df9Tail_mem _ _ _ _)) ?_
  have : df9 t (v :: df9Tail t v (n - 1) v) = df9Curve t v := by simp [df9, df9Curve, df9Tail_g]
  rw [this]; exact hd

theorem df9N_fifth : df9N 0.2 = 4 := by
  have h1 := Real.pi_gt_d4
  have h2 := Real.pi_lt_d4
  have hx : (0.5 * Real.pi * 0.2 : ℝ) = Real.pi / 10 := by ring
  have hs1 : Real.sin (Real.pi / 10) < Real.pi / 10 := Real.sin_lt (by linarith)
  have hs2 : Real.pi / 10 - (Real.pi / 10) ^ 3 / 6 < Real.sin (Real.pi / 10) := Real.sin_gt_sub_cube (by linarith)
  have hcube : (Real.pi / 10) ^ 3 ≤ 0.0311 := by
    have : (Real.pi / 10) ^ 3 ≤ 0.31416 ^ 3 := pow_le_pow_left₀ (by linarith) (by linarith) 3
    norm_num at this ⊢; linarith
  have hf : ⌊10 * |Real.sin (0.5 * Real.pi * 0.2)|⌋ = 3 := by
    rw [hx, abs_of_pos (by linarith), Int.floor_eq_iff]
    constructor <;> push_cast <;> linarith
  unfold df9N
  rw [hf]; norm_num

/-- C117 is violated by DF9 with the default number of points at time 0.2: a returned point is dominated by a solution. -/
theorem C117_df9_refuted (n : ℕ) (hn : 1 ≤ n) : ∃ f ∈ df9Front 0.2 100, ¬ ParetoPoint (dfBox 1 n 0 1 (-1) 1) (df9 0.2) f := by
  have hpi := Real.pi_pos
  have hpi2 := Real.pi_lt_d2
  have hsin : Real.sin (2 * 4 * Real.pi * (37 / 99)) = Real.sin (Real.pi / 99) := by
    have : 2 * 4 * Real.pi * (37 / 99) = (Real.pi - Real.pi / 99) + 2 * Real.pi := by ring
    rw [this, Real.sin_add_two_pi, Real.sin_pi_sub]
  have hs0 : 0 < Real.sin (Real.pi / 99) := Real.sin_pos_of_pos_of_lt_pi (by positivity) (by linarith)
  have hs1 : Real.sin (Real.pi / 99) < Real.pi / 99 := Real.sin_lt (by positivity)
  have hH : df9Hump 0.2 (37 / 99) = 0.225 * Real.sin (Real.pi / 99) := by
    unfold df9Hump
    rw [df9N_fifth, hsin, max_eq_right (by positivity)]
    norm_num
  have hH0 : 0 < df9Hump 0.2 (37 / 99) := by rw [hH]; positivity
  have hH1 : df9Hump 0.2 (37 / 99) < 1 / 99 := by rw [hH]; linarith
  have hmem : (37 / 99 : ℝ) ∈ linspace 0 1 100 := List.mem_map.2 ⟨37, List.mem_range.2 (by norm_num), by norm_num⟩
  have hret : df9Curve 0.2 (37 / 99) ∈ df9Front 0.2 100 := by
    refine List.mem_filter.2 ⟨List.mem_map_of_mem hmem, ?_⟩
    simp only [decide_eq_true_eq]
    intro q hq hd
    obtain ⟨v, hv, rfl⟩ := List.mem_map.1 hq
    obtain ⟨i, hi, rfl⟩ := List.mem_map.1 hv
    have hv0 := df9Hump_nonneg 0.2 (0 + (i:ℝ) * ((1 - 0) / ((100:ℕ) - 1)))
    have hval : (0 + (i:ℝ) * ((1 - 0) / (((100:ℕ):ℝ) - 1))) = i / 99 := by norm_num; ring
    have d0 := hd.1 0
    have d1 := hd.1 1
    simp only [df9Curve, Matrix.cons_val_zero, Matrix.cons_val_one] at d0 d1
    rw [hval] at hv0 d0 d1
    have l1 : (i:ℝ) < 38 := by linarith
    have l2 : (36:ℝ) < i := by linarith
    have : i = 37 := by
      have a : i < 38 := by exact_mod_cast l1
      have b : 36 < i := by exact_mod_cast l2
      omega
    rw [hval, this] at hd
    obtain ⟨j, hj⟩ := hd.2
    norm_num at hj
  refine ⟨_, hret, ?_⟩
  rw [C117_df9_partial n hn 0.2 100 _ hret]
  simp only [df9Curve, Matrix.cons_val_zero, Matrix.cons_val_one]
  intro h
  linarith

end Props
