import Verif.Props.DTLZ

/-!
# C83: the Pareto fronts of the constrained DTLZ problems

The feasible decision space is the unit cube restricted to the points whose constraint values are at most zero.
-/

set_option linter.unusedSimpArgs false
set_option linter.unusedVariables false

namespace Props
open Model Spec Lemmas

/-- Adding a constraint on the objectives that all Pareto-optimal points meet does not change them, if every point is weakly
dominated by one of them. -/
theorem restrict_same {m : ℕ} (C : List ℝ → Prop) (F : List ℝ → Fin m → ℝ) (P : (Fin m → ℝ) → Prop)
    (hfeas : ∀ f, ParetoPoint C F f → P f) (hstab : ∀ x, C x → ∃ f, ParetoPoint C F f ∧ ∀ i, f i ≤ F x i) (f : Fin m → ℝ) :
    ParetoPoint (fun x => C x ∧ P (F x)) F f ↔ ParetoPoint C F f := by
  constructor
  · rintro ⟨⟨x, hx, rfl⟩, hnd⟩
    obtain ⟨f, hf, hle⟩ := hstab x hx.1
    obtain ⟨y, hy, rfl⟩ := hf.1
    have heq : F y = F x := by
      by_contra hne
      refine hnd y ⟨hy, hfeas _ hf⟩ ⟨hle, ?_⟩
      by_contra hno
      push Not at hno
      exact hne (funext fun i => le_antisymm (hle i) (hno i))
    rw [← heq]; exact hf
  · intro hf
    obtain ⟨x, hx, rfl⟩ := hf.1
    exact ⟨⟨x, ⟨hx, hfeas _ hf⟩, rfl⟩, fun y hy => hf.2 y hy.1⟩

/-- Every solution of a problem with a factor `scale ≥ σ` is weakly dominated by a Pareto-optimal one: the one with the factor `σ`. -/
theorem sphere_stable {m n p : ℕ} (hm : 1 ≤ m) (hmn : m - 1 ≤ n) (F : List ℝ → Fin m → ℝ) (c s : ℝ → ℝ) (H : Polar c s p)
    (scale : List ℝ → ℝ) (σ : ℝ) (hσ : 0 < σ)
    (hF : ∀ x i, F x i = scale (x.drop (m - 1)) * dtlzShape c s (x.take (m - 1)) i)
    (hlow : ∀ XM, Cube (n - (m - 1)) 0 1 XM → σ ≤ scale XM)
    (hopt : ∃ XM, Cube (n - (m - 1)) 0 1 XM ∧ scale XM = σ) (x : List ℝ) (hx : Cube n 0 1 x) :
    ∃ l : ℝ, 1 ≤ l ∧ ∃ f, ParetoPoint (Cube n 0 1) F f ∧ ∀ i, F x i = l * f i := by
  have ht := cube_take hx hmn
  have h0 : ∀ i : Fin m, 0 ≤ dtlzShape c s (x.take (m - 1)) i := fun i =>
    dtlzShape_nonneg c s _ (fun v hv => ⟨(H.circle v (ht.2 v hv)).1, (H.circle v (ht.2 v hv)).2.1⟩) _ (by rw [ht.1]; omega)
  have h1 : ∑ i : Fin m, dtlzShape c s (x.take (m - 1)) i ^ p = 1 := by
    have := dtlzShape_sum c s p (x.take (m - 1)) fun v hv => (H.circle v (ht.2 v hv)).2.2
    rw [ht.1] at this
    rw [sum_range_fin hm fun i => dtlzShape c s (x.take (m - 1)) i ^ p]
    exact this
  refine ⟨scale (x.drop (m - 1)) / σ, (one_le_div hσ).2 (hlow _ (cube_drop hx)), fun i => σ * dtlzShape c s (x.take (m - 1)) i,
    (front_of_sphere hm hmn F c s H scale σ hσ hF hlow hopt _).2 ⟨fun i => mul_nonneg hσ.le (h0 i), ?_⟩, fun i => ?_⟩
  · simp only [mul_pow]
    rw [← Finset.mul_sum, h1, mul_one]
  · rw [hF]; field_simp

theorem dtlz1_stable {m n : ℕ} (hm : 1 ≤ m) (hmn : m - 1 ≤ n) (x : List ℝ) (hx : Cube n 0 1 x) :
    ∃ l : ℝ, 1 ≤ l ∧ ∃ f, ParetoPoint (Cube n 0 1) (dtlz1 m) f ∧ ∀ i, dtlz1 m x i = l * f i :=
  sphere_stable hm hmn (dtlz1 m) _ _ polar_linear (fun XM => 1 / 2 * (1 + dtlzG1 XM)) (1 / 2) (by norm_num)
    (fun x i => rfl) (fun XM _ => by linarith [dtlzG1_nonneg XM]) ⟨_, half_cube _, by rw [dtlzG1_half]; norm_num⟩ x hx

theorem dtlz2_stable {m n : ℕ} (hm : 1 ≤ m) (hmn : m - 1 ≤ n) (x : List ℝ) (hx : Cube n 0 1 x) :
    ∃ l : ℝ, 1 ≤ l ∧ ∃ f, ParetoPoint (Cube n 0 1) (dtlz2 m) f ∧ ∀ i, dtlz2 m x i = l * f i :=
  sphere_stable hm hmn (dtlz2 m) _ _ (polar_trig 1 (by norm_num)) (fun XM => 1 + dtlzG2 XM) 1 (by norm_num)
    (fun x i => rfl) (fun XM _ => by linarith [dtlzG2_nonneg XM]) ⟨_, half_cube _, by rw [dtlzG2_half]; norm_num⟩ x hx

theorem dtlz3_stable {m n : ℕ} (hm : 1 ≤ m) (hmn : m - 1 ≤ n) (x : List ℝ) (hx : Cube n 0 1 x) :
    ∃ l : ℝ, 1 ≤ l ∧ ∃ f, ParetoPoint (Cube n 0 1) (dtlz3 m) f ∧ ∀ i, dtlz3 m x i = l * f i :=
  sphere_stable hm hmn (dtlz3 m) _ _ (polar_trig 1 (by norm_num)) (fun XM => 1 + dtlzG1 XM) 1 (by norm_num)
    (fun x i => rfl) (fun XM _ => by linarith [dtlzG1_nonneg XM]) ⟨_, half_cube _, by rw [dtlzG1_half]; norm_num⟩ x hx

theorem dtlz4_stable {m n alpha : ℕ} (ha : 1 ≤ alpha) (hm : 1 ≤ m) (hmn : m - 1 ≤ n) (x : List ℝ) (hx : Cube n 0 1 x) :
    ∃ l : ℝ, 1 ≤ l ∧ ∃ f, ParetoPoint (Cube n 0 1) (dtlz4 m alpha) f ∧ ∀ i, dtlz4 m alpha x i = l * f i :=
  sphere_stable hm hmn (dtlz4 m alpha) _ _ (polar_trig alpha (by omega)) (fun XM => 1 + dtlzG2 XM) 1 (by norm_num)
    (fun x i => rfl) (fun XM _ => by linarith [dtlzG2_nonneg XM]) ⟨_, half_cube _, by rw [dtlzG2_half]; norm_num⟩ x hx

theorem le_scaled {a l f : ℝ} (h0 : 0 ≤ f) (hl : 1 ≤ l) (h : a = l * f) : f ≤ a := by rw [h]; nlinarith

/-- C83, C1DTLZ1: the Pareto-optimal points are those of DTLZ1, the simplex; in particular the returned points. -/
theorem C83_c1dtlz1 (m n : ℕ) (hmn : m ≤ n) (f : Fin (m + 1) → ℝ) :
    ParetoPoint (fun x => Cube n 0 1 x ∧ conC1Linear (dtlz1 (m + 1) x) ≤ 0) (dtlz1 (m + 1)) f ↔
      (∀ i, 0 ≤ f i) ∧ ∑ i, f i = 1 / 2 := by
  have hs := C82_dtlz1_simplex (m + 1) n (by omega) (by omega)
  refine (restrict_same (Cube n 0 1) (dtlz1 (m + 1)) (fun f => conC1Linear f ≤ 0) (fun f hf => ?_) (fun x hx => ?_) f).trans (hs f)
  · obtain ⟨h0, h1⟩ := (hs f).1 hf
    rw [Fin.sum_univ_castSucc] at h1
    show conC1Linear f ≤ 0
    unfold conC1Linear
    rw [← Finset.sum_div]
    have h2 := h0 (Fin.last m)
    norm_num
    linarith
  · obtain ⟨l, hl, f, hf, h⟩ := dtlz1_stable (m := m + 1) (by omega) (by omega) x hx
    exact ⟨f, hf, fun i => le_scaled (((hs f).1 hf).1 i) hl (h i)⟩

/-- C83, C1DTLZ3: for a radius of at least one (the default radii are) the Pareto-optimal points are those of DTLZ3, the sphere. -/
theorem C83_c1dtlz3 (m n : ℕ) (hm : 1 ≤ m) (hmn : m - 1 ≤ n) (r : ℝ) (hr : 1 ≤ r) (f : Fin m → ℝ) :
    ParetoPoint (fun x => Cube n 0 1 x ∧ conC1Spherical r (dtlz3 m x) ≤ 0) (dtlz3 m) f ↔ (∀ i, 0 ≤ f i) ∧ ∑ i, f i ^ 2 = 1 := by
  have hs := C82_dtlz3_sphere m n hm hmn
  refine (restrict_same (Cube n 0 1) (dtlz3 m) (fun f => conC1Spherical r f ≤ 0) (fun f hf => ?_) (fun x hx => ?_) f).trans (hs f)
  · obtain ⟨h0, h1⟩ := (hs f).1 hf
    show conC1Spherical r f ≤ 0
    unfold conC1Spherical
    rw [h1]
    nlinarith
  · obtain ⟨l, hl, f, hf, h⟩ := dtlz3_stable hm hmn x hx
    exact ⟨f, hf, fun i => le_scaled (((hs f).1 hf).1 i) hl (h i)⟩

theorem C83_c1dtlz3_default (m : ℕ) : 1 ≤ c1dtlz3r m := by
  unfold c1dtlz3r; split_ifs <;> norm_num

/-! ## C2DTLZ2 -/

/-- The feasible set of C2DTLZ2: within `r` of a corner or of the centre of the sphere. -/
def NearCorner {m : ℕ} (r : ℝ) (f : Fin m → ℝ) : Prop :=
  (∃ i, ∑ j, (f j - if j = i then 1 else 0) ^ 2 ≤ r ^ 2) ∨ ∑ j, (f j - 1 / √m) ^ 2 ≤ r ^ 2

theorem foldl_min_le_iff {α : Type} (g : α → ℝ) (l : List α) (v t : ℝ) :
    l.foldl (fun v i => min (g i) v) v ≤ t ↔ (∃ i ∈ l, g i ≤ t) ∨ v ≤ t := by
  induction l generalizing v with
  | nil => simp
  | cons a l ih =>
    rw [List.foldl_cons, ih, min_le_iff]
    simp only [List.mem_cons, exists_eq_or_imp]
    rw [← or_assoc, or_comm (a := ∃ i ∈ l, g i ≤ t)]

theorem sum_corner {m : ℕ} (f : Fin m → ℝ) (i : Fin m) :
    ∑ j, (f j - if j = i then 1 else 0) ^ 2 = (f i - 1) ^ 2 + ((∑ j, f j ^ 2) - f i ^ 2) := by
  have h1 : ∑ j, (f j - if j = i then 1 else 0) ^ 2 = ∑ j, (f j ^ 2 + if j = i then (1 - 2 * f i) else 0) := by
    refine Finset.sum_congr rfl fun j _ => ?_
    split_ifs with h
    · subst h; ring
    · ring
  rw [h1, Finset.sum_add_distrib, Finset.sum_ite_eq' Finset.univ i]
  simp; ring

/-- C83: the constraint of C2DTLZ2 is the distance to the corners and the centre. -/
theorem C83_c2_constraint {m : ℕ} (r : ℝ) (f : Fin m → ℝ) : conC2 r f ≤ 0 ↔ NearCorner r f := by
  unfold conC2 NearCorner
  rw [foldl_min_le_iff]
  refine or_congr ?_ ?_
  · constructor
    · rintro ⟨i, -, h⟩
      exact ⟨i, by rw [sum_corner]; linarith⟩
    · rintro ⟨i, h⟩
      exact ⟨i, List.mem_finRange i, by rw [sum_corner] at h; linarith⟩
  · constructor <;> intro h <;> linarith

/-- Moving a point outside the unit sphere radially onto it does not increase its distance to a point of the sphere. -/
theorem project_closer {m : ℕ} (f c : Fin m → ℝ) (l : ℝ) (hl : 1 ≤ l) (hf : ∑ i, f i ^ 2 = 1) (hc : ∑ i, c i ^ 2 = 1) :
    ∑ i, (f i - c i) ^ 2 ≤ ∑ i, (l * f i - c i) ^ 2 := by
  have e1 : ∑ i, (f i - c i) ^ 2 = 2 - 2 * ∑ i, f i * c i := by
    have : ∀ i, (f i - c i) ^ 2 = f i ^ 2 + c i ^ 2 - 2 * (f i * c i) := fun i => by ring
    simp only [this]
    rw [Finset.sum_sub_distrib, Finset.sum_add_distrib, hf, hc, ← Finset.mul_sum]; ring
  have e2 : ∑ i, (l * f i - c i) ^ 2 = l ^ 2 + 1 - 2 * l * ∑ i, f i * c i := by
    have : ∀ i, (l * f i - c i) ^ 2 = l ^ 2 * f i ^ 2 + c i ^ 2 - 2 * l * (f i * c i) := fun i => by ring
    simp only [this]
    rw [Finset.sum_sub_distrib, Finset.sum_add_distrib, ← Finset.mul_sum, hf, hc, ← Finset.mul_sum]; ring
  have hcs : ∑ i, f i * c i ≤ 1 := by
    have : 0 ≤ ∑ i, (f i - c i) ^ 2 := Finset.sum_nonneg fun i _ => sq_nonneg _
    linarith
  rw [e1, e2]
  nlinarith [mul_nonneg (sub_nonneg.2 hl) (sub_nonneg.2 hcs)]

theorem near_project {m : ℕ} (hm : 1 ≤ m) (r : ℝ) (f : Fin m → ℝ) (l : ℝ) (hl : 1 ≤ l) (hf : ∑ i, f i ^ 2 = 1)
    (h : NearCorner r fun i => l * f i) : NearCorner r f := by
  rcases h with ⟨i, h⟩ | h
  · left
    refine ⟨i, le_trans (project_closer f (fun j => if j = i then 1 else 0) l hl hf ?_) h⟩
    simp [ite_pow]
  · right
    refine le_trans (project_closer f (fun _ => 1 / √m) l hl hf ?_) h
    have hm' : (0:ℝ) < m := by exact_mod_cast hm
    simp [hm'.le]
    field_simp

/-- C83, C2DTLZ2: the Pareto-optimal points are exactly the points of the unit sphere with `f ≥ 0` that satisfy the constraint. -/
theorem C83_c2dtlz2 (m n : ℕ) (hm : 1 ≤ m) (hmn : m - 1 ≤ n) (r : ℝ) (f : Fin m → ℝ) :
    ParetoPoint (fun x => Cube n 0 1 x ∧ conC2 r (dtlz2 m x) ≤ 0) (dtlz2 m) f ↔
      ((∀ i, 0 ≤ f i) ∧ ∑ i, f i ^ 2 = 1) ∧ NearCorner r f := by
  have hs := C82_dtlz2_sphere m n hm hmn
  constructor
  · rintro ⟨⟨x, ⟨hx, hc⟩, rfl⟩, hnd⟩
    obtain ⟨l, hl, f, hf, h⟩ := dtlz2_stable hm hmn x hx
    obtain ⟨h0, h1⟩ := (hs f).1 hf
    rw [C83_c2_constraint] at hc
    have hn : NearCorner r f := near_project hm r f l hl h1 (by rw [← funext h]; exact hc)
    obtain ⟨y, hy, rfl⟩ := hf.1
    have hle : ∀ i, dtlz2 m y i ≤ dtlz2 m x i := fun i => le_scaled (h0 i) hl (h i)
    have heq : dtlz2 m y = dtlz2 m x := by
      by_contra hne
      refine hnd y ⟨hy, (C83_c2_constraint _ _).2 hn⟩ ⟨hle, ?_⟩
      by_contra hno
      push Not at hno
      exact hne (funext fun i => le_antisymm (hle i) (hno i))
    rw [← heq]
    exact ⟨⟨h0, h1⟩, hn⟩
  · rintro ⟨h, hn⟩
    have hf := (hs f).2 h
    obtain ⟨x, hx, rfl⟩ := hf.1
    exact ⟨⟨x, ⟨hx, (C83_c2_constraint _ _).2 hn⟩, rfl⟩, fun y hy => hf.2 y hy.1⟩

/-- C83, C2DTLZ2: every returned point is Pareto-optimal, and every point of the sphere for a direction that is feasible is returned. -/
theorem C83_c2dtlz2_front (m n : ℕ) (hm : 1 ≤ m) (hmn : m - 1 ≤ n) (r : ℝ) (refDirs : List (Fin m → ℝ))
    (h0 : ∀ d ∈ refDirs, (∀ i, 0 ≤ d i) ∧ ∃ i, d i ≠ 0) (f : Fin m → ℝ) :
    f ∈ c2dtlz2Front r refDirs ↔ f ∈ refDirs.map genericSphere ∧
      ParetoPoint (fun x => Cube n 0 1 x ∧ conC2 r (dtlz2 m x) ≤ 0) (dtlz2 m) f := by
  unfold c2dtlz2Front
  rw [List.mem_filter]
  refine and_congr_right fun hf => ?_
  obtain ⟨d, hd, rfl⟩ := List.mem_map.1 hf
  obtain ⟨g0, g1, -⟩ := C82_generic_sphere d (h0 d hd).1 (h0 d hd).2
  rw [C83_c2dtlz2 m n hm hmn, decide_eq_true_iff, C83_c2_constraint]
  exact ⟨fun h => ⟨⟨g0, g1⟩, h⟩, fun h => h.2⟩

/-! ## C3DTLZ1 -/

/-- C83, refuted for C3DTLZ1: with two or more objectives every returned point is infeasible. -/
theorem C83_c3dtlz1_refuted (m : ℕ) (hm : 2 ≤ m) (r : Fin m → ℝ) (h0 : ∀ i, 0 ≤ r i) (h1 : ∑ i, r i = 1) :
    ∃ i, 0 < conC3Linear (dtlz1Front r) i := by
  by_contra hno
  push Not at hno
  have hsum : ∑ i, dtlz1Front r i = 1 / 2 := by simp only [dtlz1Front]; rw [← Finset.mul_sum, h1, mul_one]
  have hi : ∀ i, (1:ℝ) / 2 ≤ dtlz1Front r i := by
    intro i
    have := hno i
    unfold conC3Linear at this
    rw [hsum] at this
    norm_num at this
    linarith
  have := Finset.sum_le_sum fun i (_ : i ∈ Finset.univ) => hi i
  rw [hsum] at this
  simp at this
  have hm' : (2:ℝ) ≤ m := by exact_mod_cast hm
  linarith

/-! ## C3DTLZ4 -/

theorem listMax_ofFn {m : ℕ} (a : Fin (m + 1) → ℝ) : (∃ i, listMax (List.ofFn a) = a i) ∧ ∀ i, a i ≤ listMax (List.ofFn a) := by
  have h : ∃ i, ∀ j, a j ≤ a i := by
    obtain ⟨i, -, hi⟩ := Finset.exists_max_image Finset.univ a ⟨0, Finset.mem_univ _⟩
    exact ⟨i, fun j => hi j (Finset.mem_univ j)⟩
  obtain ⟨i, hi⟩ := h
  have : listMax (List.ofFn a) = a i := listMax_eq _ _ (List.mem_ofFn.2 ⟨i, rfl⟩) fun v hv => by
    obtain ⟨j, rfl⟩ := List.mem_ofFn.1 hv
    exact hi j
  exact ⟨⟨i, this⟩, fun j => by rw [this]; exact hi j⟩

/-- The objective vectors on the boundary of the feasible region of C3DTLZ4. -/
def OnBoundary {m : ℕ} (f : Fin m → ℝ) : Prop :=
  (∀ i, 0 ≤ f i) ∧ (∀ i, 1 ≤ (∑ j, f j ^ 2) - 3 / 4 * f i ^ 2) ∧ ∃ i, (∑ j, f j ^ 2) - 3 / 4 * f i ^ 2 = 1

theorem dtlz4_attained {m n alpha : ℕ} (ha : 1 ≤ alpha) (hm : 1 ≤ m) (hmn : m - 1 + 4 ≤ n) (f : Fin m → ℝ) (h0 : ∀ i, 0 ≤ f i)
    (h1 : 1 ≤ ∑ i, f i ^ 2) (h4 : ∑ i, f i ^ 2 ≤ 4) : ∃ x, Cube n 0 1 x ∧ dtlz4 m alpha x = f := by
  set q := √(∑ i, f i ^ 2) with hq
  have hq2 : q ^ 2 = ∑ i, f i ^ 2 := Real.sq_sqrt (by linarith)
  have hq1 : 1 ≤ q := Real.one_le_sqrt.2 h1
  have hq4 : q ≤ 2 := by
    have : 0 ≤ q := Real.sqrt_nonneg _
    nlinarith
  have hp := (C82_dtlz4_sphere m n alpha ha hm (by omega) (fun i => f i / q)).2 ⟨fun i => div_nonneg (h0 i) (by linarith), by
    simp only [div_pow]
    rw [← Finset.sum_div, ← hq2]
    exact div_self (by positivity)⟩
  obtain ⟨x, hx, hxf⟩ := hp.1
  have ht := cube_take (j := m - 1) hx (by omega)
  -- four distance variables at `1/2 - √(q-1)/2`
  set s := √(q - 1) with hs
  have hs2 : s ^ 2 = q - 1 := Real.sq_sqrt (by linarith)
  have hs0 : 0 ≤ s := Real.sqrt_nonneg _
  have hs1 : s ≤ 1 := by nlinarith
  have hy : Cube (n - (m - 1)) 0 1 (List.replicate 4 (1 / 2 - s / 2) ++ List.replicate (n - (m - 1) - 4) (1 / 2)) := by
    have := cube_append (cube_replicate (n := 4) (show (0:ℝ) ≤ 1 / 2 - s / 2 ∧ 1 / 2 - s / 2 ≤ 1 by constructor <;> linarith)) (half_cube (n - (m - 1) - 4))
    rwa [show 4 + (n - (m - 1) - 4) = n - (m - 1) by omega] at this
  have hg : dtlzG2 (List.replicate 4 (1 / 2 - s / 2) ++ List.replicate (n - (m - 1) - 4) (1 / 2)) = q - 1 := by
    have h2 := dtlzG2_half (n - (m - 1) - 4)
    unfold dtlzG2 at h2 ⊢
    rw [List.map_append, List.sum_append, h2]
    simp
    nlinarith
  -- the scale of `x` is one
  have hsx : dtlzObj m alpha (x.take (m - 1)) 0 = fun i => f i / q := by
    have h := C82_dtlz4_sphere m n alpha ha hm (by omega) (dtlz4 m alpha x)
    have hsq := ((h.1 (by rw [hxf]; exact hp)).2)
    have hsh : ∑ i : Fin m, dtlzShape (fun v => Real.cos (v ^ alpha * Real.pi / 2)) (fun v => Real.sin (v ^ alpha * Real.pi / 2)) (x.take (m - 1)) i ^ 2 = 1 := by
      have H := polar_trig alpha (by omega)
      have := dtlzShape_sum _ _ 2 (x.take (m - 1)) fun v hv => (H.circle v (ht.2 v hv)).2.2
      rw [ht.1] at this
      rw [sum_range_fin hm fun i => dtlzShape (fun v => Real.cos (v ^ alpha * Real.pi / 2)) (fun v => Real.sin (v ^ alpha * Real.pi / 2)) (x.take (m - 1)) i ^ 2]
      exact this
    simp only [dtlz4, dtlzObj, mul_pow] at hsq
    rw [← Finset.mul_sum, hsh, mul_one] at hsq
    have hg0 := dtlzG2_nonneg (x.drop (m - 1))
    have hz : dtlzG2 (x.drop (m - 1)) = 0 := by nlinarith
    rw [← hxf]
    simp only [dtlz4]
    rw [hz]
  refine ⟨x.take (m - 1) ++ (List.replicate 4 (1 / 2 - s / 2) ++ List.replicate (n - (m - 1) - 4) (1 / 2)), ?_, ?_⟩
  rotate_left
  · simp only [dtlz4]
    rw [List.drop_left' ht.1, List.take_left' ht.1, hg]
    funext i
    have := congrFun hsx i
    simp only [dtlzObj, add_zero, one_mul] at this ⊢
    rw [this]
    field_simp
    ring
  · have := cube_append ht hy
    rwa [show m - 1 + (n - (m - 1)) = n by omega] at this

/-- C83, C3DTLZ4 with at least four distance variables (the default is five): the Pareto-optimal points are exactly the points with
`f ≥ 0` on the boundary of the feasible region. -/
theorem C83_c3dtlz4 (m n alpha : ℕ) (ha : 1 ≤ alpha) (hm : 1 ≤ m) (hmn : m - 1 + 4 ≤ n) (f : Fin m → ℝ) :
    ParetoPoint (fun x => Cube n 0 1 x ∧ ∀ i, conC3Spherical (dtlz4 m alpha x) i ≤ 0) (dtlz4 m alpha) f ↔ OnBoundary f := by
  have hcon : ∀ f : Fin m → ℝ, (∀ i, conC3Spherical f i ≤ 0) ↔ ∀ i, 1 ≤ (∑ j, f j ^ 2) - 3 / 4 * f i ^ 2 := fun f =>
    forall_congr' fun i => by unfold conC3Spherical; constructor <;> intro h <;> linarith
  have hnn : ∀ x, Cube n 0 1 x → ∀ i, 0 ≤ dtlz4 m alpha x i := by
    intro x hx i
    obtain ⟨l, hl, f, hf, h⟩ := dtlz4_stable (alpha := alpha) ha hm (by omega) x hx
    rw [h]
    exact mul_nonneg (by linarith) (((C82_dtlz4_sphere m n alpha ha hm (by omega) f).1 hf).1 i)
  have hatt : ∀ f : Fin m → ℝ, OnBoundary f → ∃ x, Cube n 0 1 x ∧ dtlz4 m alpha x = f := by
    rintro f ⟨h0, h1, i, hi⟩
    have hle : f i ^ 2 ≤ ∑ j, f j ^ 2 := Finset.single_le_sum (f := fun j => f j ^ 2) (fun j _ => sq_nonneg _) (Finset.mem_univ i)
    exact dtlz4_attained ha hm hmn f h0 (by nlinarith [sq_nonneg (f i)]) (by linarith)
  constructor
  · rintro ⟨⟨x, ⟨hx, hc⟩, rfl⟩, hnd⟩
    rw [hcon] at hc
    set f := dtlz4 m alpha x with hf
    have h0 := hnn x hx
    obtain ⟨i, -, hi⟩ := Finset.exists_min_image Finset.univ (fun i => (∑ j, f j ^ 2) - 3 / 4 * f i ^ 2) ⟨⟨0, by omega⟩, Finset.mem_univ _⟩
    set q := (∑ j, f j ^ 2) - 3 / 4 * f i ^ 2 with hq
    have hq1 : 1 ≤ q := hc i
    refine ⟨h0, hc, i, ?_⟩
    by_contra hne
    have hlt : 1 < q := lt_of_le_of_ne hq1 (Ne.symm hne)
    have hs1 : 1 < √q := by rw [Real.lt_sqrt (by norm_num)]; linarith
    have hsq : √q ^ 2 = q := Real.sq_sqrt (by linarith)
    have hsc : ∀ j, (∑ k, (f k / √q) ^ 2) - 3 / 4 * (f j / √q) ^ 2 = ((∑ k, f k ^ 2) - 3 / 4 * f j ^ 2) / q := by
      intro j
      simp only [div_pow]
      rw [← Finset.sum_div, hsq]; ring
    obtain ⟨y, hy, hyf⟩ := hatt (fun j => f j / √q) ⟨fun j => div_nonneg (h0 j) (by linarith), fun j => by
      rw [hsc, le_div_iff₀ (by linarith), one_mul]; exact hi j (Finset.mem_univ j), i, by
      rw [hsc]; exact div_self (by linarith)⟩
    refine hnd y ⟨hy, ?_⟩ ?_
    · rw [hcon, hyf]
      intro j
      rw [hsc, le_div_iff₀ (by linarith), one_mul]; exact hi j (Finset.mem_univ j)
    · rw [hyf]
      refine ⟨fun j => div_le_self (h0 j) hs1.le, ?_⟩
      have : ∃ j, f j ≠ 0 := by
        by_contra hz
        push Not at hz
        simp [hq, hz] at hq1
        linarith
      obtain ⟨j, hj⟩ := this
      exact ⟨j, div_lt_self (lt_of_le_of_ne (h0 j) (Ne.symm hj)) hs1⟩
  · intro hf
    obtain ⟨x, hx, rfl⟩ := hatt f hf
    refine ⟨⟨x, ⟨hx, (hcon _).2 hf.2.1⟩, rfl⟩, fun y hy hd => ?_⟩
    obtain ⟨i, hi⟩ := hf.2.2
    have hc := (hcon _).1 hy.2 i
    have h0 := hnn y hy.1
    have hlt : (∑ j, dtlz4 m alpha y j ^ 2) - 3 / 4 * dtlz4 m alpha y i ^ 2 < (∑ j, dtlz4 m alpha x j ^ 2) - 3 / 4 * dtlz4 m alpha x i ^ 2 := by
      have e : ∀ g : Fin m → ℝ, (∑ j, g j ^ 2) - 3 / 4 * g i ^ 2 = ∑ j, (if j = i then 1 / 4 else 1) * g j ^ 2 := by
        intro g
        have : ∀ j, (if j = i then (1:ℝ) / 4 else 1) * g j ^ 2 = g j ^ 2 - if j = i then 3 / 4 * g i ^ 2 else 0 := fun j => by
          split_ifs with h
          · subst h; ring
          · ring
        simp only [this]
        rw [Finset.sum_sub_distrib, Finset.sum_ite_eq' Finset.univ i]; simp
      rw [e, e]
      obtain ⟨k, hk⟩ := hd.2
      have hw : ∀ j, (0:ℝ) < if j = i then 1 / 4 else 1 := fun j => by split_ifs <;> norm_num
      exact Finset.sum_lt_sum (fun j _ => mul_le_mul_of_nonneg_left (pow_le_pow_left₀ (h0 j) (hd.1 j) 2) (hw j).le)
        ⟨k, Finset.mem_univ k, mul_lt_mul_of_pos_left (pow_lt_pow_left₀ hk (h0 k) (by norm_num)) (hw k)⟩
    linarith

/-- C83, C3DTLZ4: every returned point is Pareto-optimal. -/
theorem C83_c3dtlz4_front (m n alpha : ℕ) (ha : 1 ≤ alpha) (hmn : m + 4 ≤ n) (r : Fin (m + 1) → ℝ) (h0 : ∀ i, 0 ≤ r i)
    (h1 : ∃ i, r i ≠ 0) :
    ParetoPoint (fun x => Cube n 0 1 x ∧ ∀ i, conC3Spherical (dtlz4 (m + 1) alpha x) i ≤ 0) (dtlz4 (m + 1) alpha) (c3dtlz4Front r) := by
  rw [C83_c3dtlz4 (m + 1) n alpha ha (by omega) (by omega)]
  obtain ⟨g0, g1, -⟩ := C82_generic_sphere r h0 h1
  obtain ⟨⟨i, hi⟩, hmax⟩ := listMax_ofFn fun i => genericSphere r i ^ 2
  have hle : genericSphere r i ^ 2 ≤ 1 := by
    rw [← g1]
    exact Finset.single_le_sum (f := fun j => genericSphere r j ^ 2) (fun j _ => sq_nonneg _) (Finset.mem_univ i)
  have hpos : 0 < 1 - 3 / 4 * genericSphere r i ^ 2 := by linarith
  have ha2 : √(1 - 3 / 4 * genericSphere r i ^ 2) ^ 2 = 1 - 3 / 4 * genericSphere r i ^ 2 := Real.sq_sqrt hpos.le
  have hf : ∀ j, c3dtlz4Front r j = genericSphere r j / √(1 - 3 / 4 * genericSphere r i ^ 2) := by
    intro j
    simp only [c3dtlz4Front]
    rw [g1, hi]
  have hsum : ∀ j, (∑ k, c3dtlz4Front r k ^ 2) - 3 / 4 * c3dtlz4Front r j ^ 2 =
      (1 - 3 / 4 * genericSphere r j ^ 2) / (1 - 3 / 4 * genericSphere r i ^ 2) := by
    intro j
    simp only [hf, div_pow]
    rw [← Finset.sum_div, g1, ha2]; ring
  refine ⟨fun j => by rw [hf]; exact div_nonneg (g0 j) (Real.sqrt_nonneg _), fun j => ?_, i, ?_⟩
  · rw [hsum, le_div_iff₀ hpos, one_mul]
    have := hmax j
    rw [hi] at this
    linarith
  · rw [hsum]; exact div_self hpos.ne'

/-- The hypotheses hold for the default C3DTLZ4 (seven variables, three objectives, `alpha = 100`) and a reference direction. -/
example : ParetoPoint (fun x => Cube 7 0 1 x ∧ ∀ i, conC3Spherical (dtlz4 3 100 x) i ≤ 0) (dtlz4 3 100) (c3dtlz4Front ![1 / 2, 1 / 4, 1 / 4]) :=
  C83_c3dtlz4_front 2 7 100 (by norm_num) (by norm_num) _ (fun i => by fin_cases i <;> norm_num) ⟨0, by norm_num⟩

/-- A feasible point of the front of C2DTLZ2: a corner. -/
example : NearCorner (m := 3) 0.4 ![1, 0, 0] := Or.inl ⟨0, by simp [Fin.sum_univ_three]; norm_num⟩

end Props
