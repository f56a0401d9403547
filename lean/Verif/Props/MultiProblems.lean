import Verif.Model.MultiProblems
import Verif.Props.ZDT
import Verif.Props.SingleProblems

/-!
# C84: the Pareto fronts of BNH, SRN, the omni-test and SYM-PART
-/

set_option linter.unusedSimpArgs false
set_option linter.unusedVariables false

namespace Props
open Model Spec Lemmas

/-- The feasible decision vectors of a problem with two variables. -/
def Plane (P : ℝ → ℝ → Prop) (x : List ℝ) : Prop := ∃ a b, x = [a, b] ∧ P a b

/-- The objectives of a problem with two variables as a function of the decision vector. -/
def onPlane (F : ℝ → ℝ → Fin 2 → ℝ) (x : List ℝ) : Fin 2 → ℝ := F (x.getD 0 0) (x.getD 1 0)

/-- Pareto-optimality for two variables, without lists. -/
theorem plane_pareto (P : ℝ → ℝ → Prop) (F : ℝ → ℝ → Fin 2 → ℝ) (f : Fin 2 → ℝ) :
    ParetoPoint (Plane P) (onPlane F) f ↔ (∃ a b, P a b ∧ F a b = f) ∧ ∀ a b, P a b → ¬ Dominates (F a b) f := by
  unfold ParetoPoint Plane onPlane
  constructor
  · rintro ⟨⟨x, ⟨a, b, rfl, hP⟩, hf⟩, h⟩
    exact ⟨⟨a, b, hP, hf⟩, fun a b hab => h [a, b] ⟨a, b, rfl, hab⟩⟩
  · rintro ⟨⟨a, b, hP, hf⟩, h⟩
    refine ⟨⟨[a, b], ⟨a, b, rfl, hP⟩, hf⟩, ?_⟩
    rintro x ⟨a, b, rfl, hab⟩
    exact h a b hab

/-- A set of points that are mutually non-dominated with everything and weakly dominate everything is the front. -/
theorem front_exact {m : ℕ} (D : List ℝ → Prop) (F : List ℝ → Fin m → ℝ) (C : (Fin m → ℝ) → Prop)
    (hC : ∀ f, C f → ParetoPoint D F f) (hstab : ∀ x, D x → ∃ f, C f ∧ ∀ i, f i ≤ F x i) (f : Fin m → ℝ) :
    ParetoPoint D F f ↔ C f := by
  refine ⟨?_, hC f⟩
  rintro ⟨⟨x, hx, rfl⟩, hnd⟩
  obtain ⟨g, hg, hle⟩ := hstab x hx
  obtain ⟨y, hy, rfl⟩ := (hC g hg).1
  have heq : F y = F x := by
    by_contra hne
    refine hnd y hy ⟨hle, ?_⟩
    by_contra hno
    push Not at hno
    exact hne (funext fun i => le_antisymm (hle i) (hno i))
  rw [← heq]; exact hg

/-! ## BNH -/

/-- Feasible within the bounds. -/
def BnhFeas (x y : ℝ) : Prop := bnhBox x y ∧ ∀ i, bnhG x y i ≤ 0

/-- The curve of Pareto-optimal solutions: the diagonal up to `(3, 3)`, then the upper bound of `x2`. -/
noncomputable def bnhCurve (t : ℝ) : Fin 2 → ℝ := bnhF t (min t 3)

theorem bnh_feas {t : ℝ} (h0 : 0 ≤ t) (h5 : t ≤ 5) : BnhFeas t (min t 3) := by
  have hm : min t 3 = t ∧ t ≤ 3 ∨ min t 3 = 3 ∧ 3 ≤ t := by
    rcases le_total t 3 with h | h
    · exact Or.inl ⟨min_eq_left h, h⟩
    · exact Or.inr ⟨min_eq_right h, h⟩
  refine ⟨⟨⟨h0, h5⟩, le_min h0 (by norm_num), min_le_right _ _⟩, fun i => ?_⟩
  rcases hm with ⟨e, h⟩ | ⟨e, h⟩ <;> rw [e] <;> fin_cases i <;> simp [bnhG] <;> nlinarith

/-- At the point of the curve with parameter `t` the sum of the objectives with weights `5 - t` and `4 t` is least. -/
theorem bnh_weighted {t x y : ℝ} (h0 : 0 ≤ t) (h5 : t ≤ 5) (hy : y ≤ 3) :
    (5 - t) * bnhF t (min t 3) 0 + 4 * t * bnhF t (min t 3) 1 + 20 * ((x - t) ^ 2 + (y - min t 3) ^ 2) ≤
      (5 - t) * bnhF x y 0 + 4 * t * bnhF x y 1 := by
  rcases le_total t 3 with h | h
  · rw [min_eq_left h]; simp [bnhF]; nlinarith
  · rw [min_eq_right h]; simp [bnhF]; nlinarith [mul_nonneg (sub_nonneg.2 h) (sub_nonneg.2 hy)]

/-- C84, BNH: the Pareto-optimal points are exactly the points of the curve. -/
theorem C84_bnh_curve (f : Fin 2 → ℝ) :
    ParetoPoint (Plane BnhFeas) (onPlane bnhF) f ↔ ∃ t, (0 ≤ t ∧ t ≤ 5) ∧ f = bnhCurve t := by
  refine front_exact _ _ (fun f => ∃ t, (0 ≤ t ∧ t ≤ 5) ∧ f = bnhCurve t) ?_ ?_ f
  · rintro f ⟨t, ⟨h0, h5⟩, rfl⟩
    rw [plane_pareto]
    refine ⟨⟨t, min t 3, bnh_feas h0 h5, rfl⟩, fun x y hxy hd => ?_⟩
    have hw := bnh_weighted (x := x) h0 h5 hxy.1.2.2
    have hle := hd.1
    have h1 := mul_le_mul_of_nonneg_left (hle 0) (sub_nonneg.2 h5)
    have h2 := mul_le_mul_of_nonneg_left (hle 1) (show 0 ≤ 4 * t by linarith)
    unfold bnhCurve at h1 h2 hd
    have hx : x = t := by nlinarith [sq_nonneg (x - t), sq_nonneg (y - min t 3)]
    have hy : y = min t 3 := by nlinarith [sq_nonneg (x - t), sq_nonneg (y - min t 3)]
    rw [hx, hy] at hd
    exact absurd hd.2 (by simp)
  · rintro z ⟨x, y, rfl, hxy⟩
    have hF : ∀ i, onPlane bnhF [x, y] i = bnhF x y i := fun i => rfl
    simp only [hF]
    obtain ⟨⟨hx0, hx5⟩, hy0, hy3⟩ := hxy.1
    -- the point of the curve with the same first objective
    have hcont : Continuous fun t : ℝ => 4 * t ^ 2 + 4 * (min t 3) ^ 2 := by fun_prop
    obtain ⟨t, ⟨h0, h5⟩, ht⟩ : ∃ t ∈ Set.Icc (0:ℝ) 5, 4 * t ^ 2 + 4 * (min t 3) ^ 2 = 4 * x ^ 2 + 4 * y ^ 2 := by
      refine intermediate_value_Icc (by norm_num) hcont.continuousOn ⟨?_, ?_⟩
      · norm_num; nlinarith [sq_nonneg x, sq_nonneg y]
      · norm_num; nlinarith
    refine ⟨bnhCurve t, ⟨t, ⟨h0, h5⟩, rfl⟩, fun i => ?_⟩
    have hw := bnh_weighted (x := x) h0 h5 hy3
    have hf1 : bnhF t (min t 3) 0 = bnhF x y 0 := by simpa [bnhF] using ht
    fin_cases i
    · exact hf1.le
    · show bnhF t (min t 3) 1 ≤ bnhF x y 1
      rcases h0.eq_or_lt with rfl | hpos
      · have hz : x = 0 ∧ y = 0 := by
          norm_num at ht
          constructor <;> nlinarith [sq_nonneg x, sq_nonneg y]
        rw [hz.1, hz.2]; norm_num
      · rw [hf1] at hw
        have : 4 * t * bnhF t (min t 3) 1 ≤ 4 * t * bnhF x y 1 := by nlinarith [sq_nonneg (x - t), sq_nonneg (y - min t 3)]
        exact le_of_mul_le_mul_left this (by linarith)

theorem zip_self {α : Type} (l : List α) : l.zip l = l.map fun a => (a, a) := by
  induction l with
  | nil => rfl
  | cons a l ih => simp [ih]

/-- C84, BNH: every returned point is Pareto-optimal. -/
theorem C84_bnh (n : ℕ) : ∀ f ∈ bnhFront n, ParetoPoint (Plane BnhFeas) (onPlane bnhF) f := by
  intro f hf
  unfold bnhFront at hf
  rw [zip_self, List.map_map] at hf
  obtain ⟨t, ht, rfl⟩ := List.mem_map.1 hf
  rw [C84_bnh_curve]
  refine ⟨t, linspace_mem (by norm_num) ht, ?_⟩
  simp only [Function.comp, bnhCurve]
  split_ifs with h
  · rw [min_eq_right h]
  · rw [min_eq_left (by linarith)]

/-! ## SRN -/

/-- Feasible within the bounds. -/
def SrnFeas (x y : ℝ) : Prop := srnBox x y ∧ ∀ i, srnG x y i ≤ 0

/-- C84, SRN: every returned point that is feasible is Pareto-optimal. The full statement, without the feasibility, fails:
see `C84_srn_refuted`. -/
theorem C84_srn_partial (n : ℕ) : ∀ e ∈ srnSet n, SrnFeas e.1 e.2 → ParetoPoint (Plane SrnFeas) (onPlane srnF) (srnF e.1 e.2) := by
  intro e he hfe
  obtain ⟨t, ht, rfl⟩ := List.mem_map.1 he
  rw [plane_pareto]
  refine ⟨⟨_, _, hfe, rfl⟩, fun x y hxy hd => ?_⟩
  have h0 := hd.1 0
  have h1 := hd.1 1
  obtain ⟨i, hi⟩ := hd.2
  have hs : srnF x y 0 + srnF x y 1 < srnF (-2.5) t 0 + srnF (-2.5) t 1 := by
    fin_cases i
    · have : srnF x y 0 < srnF (-2.5) t 0 := hi
      linarith
    · have : srnF x y 1 < srnF (-2.5) t 1 := hi
      linarith
  simp [srnF] at hs
  nlinarith [sq_nonneg (x + 2.5)]

/-- The feasible part of the returned set: all points with `x2 ≤ √218.75` (`14.79019…`). -/
theorem C84_srn_feasible (n : ℕ) : ∀ e ∈ srnSet n, SrnFeas e.1 e.2 ↔ e.2 ^ 2 ≤ 218.75 := by
  intro e he
  obtain ⟨t, ht, rfl⟩ := List.mem_map.1 he
  obtain ⟨h1, h2⟩ := linspace_mem (by norm_num) ht
  unfold SrnFeas srnBox srnG
  constructor
  · rintro ⟨-, h⟩
    have := h 0
    norm_num at this
    norm_num
    linarith
  · intro h
    norm_num at h1 h2 h
    refine ⟨⟨by norm_num, by simp only; linarith, by simp only; linarith⟩, fun i => ?_⟩
    fin_cases i
    · norm_num; linarith
    · norm_num; linarith

/-- On the line of the returned solutions (`x1 = -2.5`) exactly those with `2.5 ≤ x2 ≤ √218.75` are feasible, and the returned ones begin there. -/
theorem C84_srn_line (n : ℕ) (hn : 1 ≤ n) : (∀ y, SrnFeas (-2.5) y ↔ 2.5 ≤ y ∧ y ^ 2 ≤ 218.75) ∧ (srnSet n).head? = some (-2.5, 2.5) := by
  constructor
  · intro y
    unfold SrnFeas srnBox srnG
    constructor
    · rintro ⟨-, h⟩
      have h0 := h 0
      have h1 := h 1
      norm_num at h0 h1 ⊢
      constructor <;> linarith
    · rintro ⟨h1, h2⟩
      norm_num at h1 h2
      refine ⟨⟨by norm_num, by linarith, by nlinarith⟩, fun i => ?_⟩
      fin_cases i
      · norm_num; linarith
      · norm_num; linarith
  · obtain ⟨q, rfl⟩ : ∃ q, n = q + 1 := ⟨n - 1, by omega⟩
    simp [srnSet, linspace, List.range_succ_eq_map]

/-- C84, refuted for SRN: with two or more points the last returned solution violates the first constraint. -/
theorem C84_srn_refuted (n : ℕ) (hn : 2 ≤ n) : ∃ e ∈ srnSet n, 0 < srnG e.1 e.2 0 := by
  refine ⟨(-2.5, 14.7902), List.mem_map.2 ⟨14.7902, ?_, rfl⟩, by norm_num [srnG]⟩
  refine List.mem_map.2 ⟨n - 1, List.mem_range.2 (by omega), ?_⟩
  have hn' : (2:ℝ) ≤ n := by exact_mod_cast hn
  rw [Nat.cast_sub (by omega), Nat.cast_one]
  have : (n : ℝ) - 1 ≠ 0 := by linarith
  field_simp
  norm_num

/-- C84, refuted for SRN: the returned front misses a part of the Pareto front: a feasible solution that no returned point weakly
dominates, whatever the number of points. -/
theorem C84_srn_incomplete_refuted : ∃ x y, SrnFeas x y ∧ ∀ n, ∀ f ∈ srnFront n, ¬ ∀ i, f i ≤ srnF x y i := by
  refine ⟨1.1, 3.7, ⟨⟨by norm_num, by norm_num⟩, fun i => by fin_cases i <;> norm_num [srnG]⟩, fun n f hf h => ?_⟩
  obtain ⟨e, he, rfl⟩ := List.mem_map.1 hf
  obtain ⟨t, ht, rfl⟩ := List.mem_map.1 he
  obtain ⟨h1, h2⟩ := linspace_mem (by norm_num) ht
  have := h 0
  norm_num [srnF] at this h1
  nlinarith

/-! ## Omni-test -/

theorem omni_disc (x : List ℝ) : omni x 0 ^ 2 + omni x 1 ^ 2 ≤ (x.length : ℝ) ^ 2 := by
  induction x with
  | nil => simp [omni]
  | cons a l ih =>
    have h0 : omni (a :: l) 0 = Real.sin (Real.pi * a) + omni l 0 := by simp [omni]
    have h1 : omni (a :: l) 1 = Real.cos (Real.pi * a) + omni l 1 := by simp [omni]
    have hc := Real.sin_sq_add_cos_sq (Real.pi * a)
    set s := Real.sin (Real.pi * a)
    set c := Real.cos (Real.pi * a)
    set u := omni l 0
    set v := omni l 1
    have hL : (0:ℝ) ≤ l.length := Nat.cast_nonneg _
    have hcs : s * u + c * v ≤ l.length := by
      have : (s * u + c * v) ^ 2 ≤ (l.length : ℝ) ^ 2 := by
        have e : (s * u + c * v) ^ 2 + (s * v - c * u) ^ 2 = (s ^ 2 + c ^ 2) * (u ^ 2 + v ^ 2) := by ring
        rw [hc, one_mul] at e
        nlinarith [sq_nonneg (s * v - c * u)]
      exact (abs_le_of_sq_le_sq' this hL).2
    rw [h0, h1, List.length_cons, Nat.cast_add, Nat.cast_one]
    nlinarith

/-- All variables with the same angle. -/
theorem omni_same (x : List ℝ) (s c : ℝ) (h : ∀ v ∈ x, Real.sin (Real.pi * v) = s ∧ Real.cos (Real.pi * v) = c) :
    omni x = ![x.length * s, x.length * c] := by
  have h0 : (x.map fun v => Real.sin (Real.pi * v)) = List.replicate x.length s :=
    List.eq_replicate_iff.2 ⟨by simp, fun b hb => by obtain ⟨v, hv, rfl⟩ := List.mem_map.1 hb; exact (h v hv).1⟩
  have h1 : (x.map fun v => Real.cos (Real.pi * v)) = List.replicate x.length c :=
    List.eq_replicate_iff.2 ⟨by simp, fun b hb => by obtain ⟨v, hv, rfl⟩ := List.mem_map.1 hb; exact (h v hv).2⟩
  unfold omni
  rw [h0, h1]
  simp

/-- The quarter circle of Pareto-optimal points of the omni-test with `n` variables. -/
def OmniArc (n : ℕ) (f : Fin 2 → ℝ) : Prop := f 0 ≤ 0 ∧ f 1 ≤ 0 ∧ f 0 ^ 2 + f 1 ^ 2 = (n : ℝ) ^ 2

theorem omni_arc_pareto (n : ℕ) (x : List ℝ) (hx : Cube n 0 6 x) (h : OmniArc n (omni x)) : ParetoPoint (Cube n 0 6) omni (omni x) := by
  refine ⟨⟨x, hx, rfl⟩, fun y hy hd => ?_⟩
  have hdisc := omni_disc y
  rw [hy.1] at hdisc
  obtain ⟨h0, h1, h2⟩ := h
  have d0 := hd.1 0
  have d1 := hd.1 1
  obtain ⟨i, hi⟩ := hd.2
  fin_cases i
  · have : omni y 0 < omni x 0 := hi
    nlinarith
  · have : omni y 1 < omni x 1 := hi
    nlinarith

/-- C84, omni-test: the Pareto-optimal points are exactly the quarter circle. -/
theorem C84_omni_arc (n : ℕ) (f : Fin 2 → ℝ) : ParetoPoint (Cube n 0 6) omni f ↔ OmniArc n f := by
  have hatt : ∀ f, OmniArc n f → ∃ x, Cube n 0 6 x ∧ omni x = f := by
    rintro f ⟨h0, h1, h2⟩
    rcases Nat.eq_zero_or_pos n with rfl | hn
    · refine ⟨[], ⟨rfl, by simp⟩, ?_⟩
      norm_num at h2
      have e0 : f 0 = 0 := by nlinarith [sq_nonneg (f 0), sq_nonneg (f 1)]
      have e1 : f 1 = 0 := by nlinarith [sq_nonneg (f 0), sq_nonneg (f 1)]
      funext i
      fin_cases i <;> simp [omni, e0, e1]
    · have hn' : (0:ℝ) < n := by exact_mod_cast hn
      have hpi := Real.pi_pos
      set w := -(f 0) / n with hw
      have hw0 : 0 ≤ w := div_nonneg (by linarith) hn'.le
      have hw1 : w ≤ 1 := by
        rw [hw, div_le_one hn']
        nlinarith
      set v := 1 + Real.arcsin w / Real.pi with hv
      have ha0 := Real.arcsin_nonneg.2 hw0
      have ha1 := Real.arcsin_le_pi_div_two w
      have hpv : Real.pi * v = Real.arcsin w + Real.pi := by rw [hv]; field_simp; ring
      have hsin : Real.sin (Real.pi * v) = f 0 / n := by
        rw [hpv, Real.sin_add_pi, Real.sin_arcsin (by linarith) hw1, hw]; ring
      have hcos : Real.cos (Real.pi * v) = f 1 / n := by
        rw [hpv, Real.cos_add_pi, Real.cos_arcsin]
        have e : 1 - w ^ 2 = (-(f 1) / n) ^ 2 := by
          rw [hw]; field_simp; nlinarith
        rw [e, Real.sqrt_sq (div_nonneg (by linarith) hn'.le)]; ring
      refine ⟨List.replicate n v, ⟨by simp, fun u hu => ?_⟩, ?_⟩
      · rw [List.eq_of_mem_replicate hu]
        have : Real.arcsin w / Real.pi ≤ 1 := by rw [div_le_one hpi]; linarith
        have : 0 ≤ Real.arcsin w / Real.pi := by positivity
        constructor <;> linarith
      · rw [omni_same _ (f 0 / n) (f 1 / n) fun u hu => by rw [List.eq_of_mem_replicate hu]; exact ⟨hsin, hcos⟩]
        funext i
        fin_cases i <;> simp <;> field_simp
  refine front_exact _ _ (OmniArc n) ?_ ?_ f
  · intro f hf
    obtain ⟨x, hx, rfl⟩ := hatt f hf
    exact omni_arc_pareto n x hx hf
  · intro x hx
    have hd := omni_disc x
    rw [hx.1] at hd
    have hn : (0:ℝ) ≤ n := Nat.cast_nonneg n
    rcases le_total (omni x 0) 0 with h | h
    · have hle : omni x 0 ^ 2 ≤ (n:ℝ) ^ 2 := by nlinarith [sq_nonneg (omni x 1)]
      have hs : √((n:ℝ) ^ 2 - omni x 0 ^ 2) ^ 2 = (n:ℝ) ^ 2 - omni x 0 ^ 2 := Real.sq_sqrt (by linarith)
      have hs0 := Real.sqrt_nonneg ((n:ℝ) ^ 2 - omni x 0 ^ 2)
      refine ⟨![omni x 0, -√((n:ℝ) ^ 2 - omni x 0 ^ 2)], ⟨by simpa using h, by simp, by simp only [Matrix.cons_val_zero, Matrix.cons_val_one, neg_sq, hs]; ring⟩, fun i => ?_⟩
      fin_cases i
      · simp
      · show -√((n:ℝ) ^ 2 - omni x 0 ^ 2) ≤ omni x 1
        nlinarith
    · refine ⟨![0, -n], ⟨by simp, by simp, by simp⟩, fun i => ?_⟩
      fin_cases i
      · simpa using h
      · show -(n:ℝ) ≤ omni x 1
        nlinarith [sq_nonneg (omni x 0)]

theorem omniCombos_mem {n : ℕ} {c : List ℕ} : c ∈ omniCombos n ↔ c.length = n ∧ ∀ m ∈ c, m ≤ 2 := by
  induction n generalizing c with
  | zero => simp [omniCombos, List.length_eq_zero_iff]; rintro rfl; simp
  | succ n ih =>
    simp only [omniCombos, List.mem_flatMap, List.mem_map]
    constructor
    · rintro ⟨d, hd, m, hm, rfl⟩
      obtain ⟨h1, h2⟩ := ih.1 hd
      refine ⟨by simp [h1], fun k hk => ?_⟩
      rcases List.mem_cons.1 hk with rfl | hk
      · simp at hm; omega
      · exact h2 k hk
    · rintro ⟨h1, h2⟩
      cases c with
      | nil => simp at h1
      | cons m d =>
        refine ⟨d, ih.2 ⟨by simpa using h1, fun k hk => h2 k (List.mem_cons_of_mem _ hk)⟩, m, ?_, rfl⟩
        have := h2 m List.mem_cons_self
        simp; omega

/-- C84, omni-test: every returned solution lies within the bounds and is Pareto-optimal; `3^n` subsets of equal size are returned. -/
theorem C84_omni (n points : ℕ) :
    (∀ x ∈ omniSet n points, Cube n 0 6 x ∧ ParetoPoint (Cube n 0 6) omni (omni x)) ∧
    (omniSet n points).length = 3 ^ n * (points / 3 ^ n) := by
  constructor
  · intro x hx
    obtain ⟨c, hc, hx⟩ := List.mem_flatMap.1 hx
    obtain ⟨k, hk, rfl⟩ := List.mem_map.1 hx
    obtain ⟨hl, hm⟩ := omniCombos_mem.1 hc
    set h := points / 3 ^ n
    have hk' : k < h := List.mem_range.1 hk
    have hpi := Real.pi_pos
    have hlin : ∀ m : ℕ, (linspace (2 * m + 1) (2 * m + 3 / 2) h).getD k 0 = 2 * m + (1 + k * (1 / 2 / ((h:ℝ) - 1))) := by
      intro m
      rw [List.getD_eq_getElem _ _ (by simp [linspace]; exact hk')]
      simp [linspace]
      ring
    have hd0 : 0 ≤ (k:ℝ) * (1 / 2 / ((h:ℝ) - 1)) ∧ (k:ℝ) * (1 / 2 / ((h:ℝ) - 1)) ≤ 1 / 2 := by
      rcases Nat.eq_zero_or_pos k with rfl | hk0
      · norm_num
      · have h1 : (1:ℝ) ≤ k := by exact_mod_cast hk0
        have h2 : (k:ℝ) + 1 ≤ h := by exact_mod_cast hk'
        have h3 : (0:ℝ) < (h:ℝ) - 1 := by linarith
        refine ⟨by positivity, ?_⟩
        rw [← mul_div_assoc, div_le_iff₀ h3]
        nlinarith
    set d := (k:ℝ) * (1 / 2 / ((h:ℝ) - 1))
    have hcube : Cube n 0 6 (c.map fun m : ℕ => (linspace (2 * m + 1) (2 * m + 3 / 2) h).getD k 0) := by
      refine ⟨by simp [hl], fun v hv => ?_⟩
      obtain ⟨m, hmc, rfl⟩ := List.mem_map.1 hv
      have hm2 : (m:ℝ) ≤ 2 := by exact_mod_cast hm m hmc
      have hm0 : (0:ℝ) ≤ m := Nat.cast_nonneg m
      rw [hlin]
      constructor <;> linarith
    refine ⟨hcube, omni_arc_pareto n _ hcube ?_⟩
    rw [omni_same _ (-Real.sin (Real.pi * d)) (-Real.cos (Real.pi * d)) fun v hv => by
      obtain ⟨m, hmc, rfl⟩ := List.mem_map.1 hv
      rw [hlin, show Real.pi * (2 * m + (1 + d)) = (Real.pi * d + Real.pi) + m * (2 * Real.pi) by ring,
        Real.sin_add_nat_mul_two_pi, Real.cos_add_nat_mul_two_pi, Real.sin_add_pi, Real.cos_add_pi]
      exact ⟨rfl, rfl⟩]
    have hs : 0 ≤ Real.sin (Real.pi * d) := Real.sin_nonneg_of_nonneg_of_le_pi (mul_nonneg hpi.le hd0.1) (by nlinarith [hd0.2])
    have hc' : 0 ≤ Real.cos (Real.pi * d) := Real.cos_nonneg_of_mem_Icc ⟨by nlinarith [hd0.1], by nlinarith [hd0.2]⟩
    have hn : (0:ℝ) ≤ n := Nat.cast_nonneg n
    refine ⟨?_, ?_, ?_⟩
    · simp [hl]; positivity
    · simp [hl]; positivity
    · simp [hl]
      have := Real.sin_sq_add_cos_sq (Real.pi * d)
      rw [mul_pow, mul_pow, ← mul_add, this, mul_one]
  · have hc : ∀ n, (omniCombos n).length = 3 ^ n := by
      intro n
      induction n with
      | zero => rfl
      | succ n ih => simp [omniCombos, ih, pow_succ]
    simp [omniSet, hc]

/-! ## SYM-PART -/

/-- The value of the objectives depends on the position within the tile only. -/
theorem symF_eq (a b c w x y : ℝ) : ∃ p1 p2, symF a b c w x y = ![(p1 + a) ^ 2 + p2 ^ 2, (p1 - a) ^ 2 + p2 ^ 2] :=
  ⟨_, _, rfl⟩

theorem sym_pareto_line (a s p1 p2 : ℝ) (h1 : -a ≤ s) (h2 : s ≤ a) :
    ¬ Dominates (![(p1 + a) ^ 2 + p2 ^ 2, (p1 - a) ^ 2 + p2 ^ 2] : Fin 2 → ℝ) ![(s + a) ^ 2, (s - a) ^ 2] := by
  rintro ⟨hle, i, hi⟩
  have l0 := hle 0
  have l1 := hle 1
  simp at l0 l1
  have m0 := mul_le_mul_of_nonneg_left l0 (sub_nonneg.2 h2)
  have m1 := mul_le_mul_of_nonneg_left l1 (show 0 ≤ a + s by linarith)
  rcases (show 0 ≤ a by linarith).eq_or_lt with ha | ha
  · have hs : s = 0 := by linarith
    subst hs
    fin_cases i <;> simp [← ha] at hi <;> nlinarith [sq_nonneg p1, sq_nonneg p2]
  · have e : 2 * a * ((p1 - s) ^ 2 + p2 ^ 2) ≤ 0 := by nlinarith
    have hz : (p1 - s) ^ 2 + p2 ^ 2 ≤ 0 := by nlinarith
    have hp : p1 = s := by nlinarith [sq_nonneg (p1 - s), sq_nonneg p2]
    have hq : p2 = 0 := by nlinarith [sq_nonneg (p1 - s), sq_nonneg p2]
    subst hp; subst hq
    fin_cases i <;> simp at hi

theorem symTile_pos {off width v : ℝ} (hw : 0 < width) (h1 : off < v) (h0 : 0 < v) (h2 : v ≤ off + width) : symTile off width v = 1 := by
  have hc : ⌈(|v| - off) / width⌉ = 1 := by
    rw [Int.ceil_eq_iff, abs_of_pos h0]
    push_cast
    refine ⟨?_, ?_⟩
    · norm_num; exact div_pos (by linarith) hw
    · rw [div_le_one hw]; linarith
  simp [symTile, hc, Real.sign_of_pos h0, Real.sign_one]

theorem symTile_neg {off width v : ℝ} (hw : 0 < width) (h1 : v < -off) (h0 : v < 0) (h2 : -(off + width) ≤ v) : symTile off width v = -1 := by
  have hc : ⌈(|v| - off) / width⌉ = 1 := by
    rw [Int.ceil_eq_iff, abs_of_neg h0]
    push_cast
    refine ⟨?_, ?_⟩
    · norm_num; exact div_pos (by linarith) hw
    · rw [div_le_one hw]; linarith
  simp [symTile, hc, Real.sign_of_neg h0, Real.sign_of_neg (show (-1:ℝ) < 0 by norm_num)]

theorem symTile_zero {off width v : ℝ} (hw : 0 < width) (h1 : |v| ≤ off) (h2 : off < width) : symTile off width v = 0 := by
  have hc : ⌈(|v| - off) / width⌉ = 0 := by
    rw [Int.ceil_eq_iff]
    push_cast
    refine ⟨?_, ?_⟩
    · rw [lt_div_iff₀ hw]; linarith [abs_nonneg v]
    · exact div_nonpos_of_nonpos_of_nonneg (by linarith) hw.le
  simp [symTile, hc]

theorem sym_back_turn (w : ℝ) (e : ℝ × ℝ) : symBack w (symTurn w e).1 (symTurn w e).2 = e := by
  unfold symBack symTurn
  split_ifs with h
  · rfl
  · have := Real.sin_sq_add_cos_sq w
    ext
    · simp only; linear_combination e.1 * this
    · simp only; linear_combination e.2 * this

/-- Rotated points stay within the sum of the coordinates. -/
theorem sym_turn_abs (w : ℝ) (e : ℝ × ℝ) : |(symTurn w e).1| ≤ |e.1| + |e.2| ∧ |(symTurn w e).2| ≤ |e.1| + |e.2| := by
  unfold symTurn
  split_ifs with h
  · exact ⟨by linarith [abs_nonneg e.2], by linarith [abs_nonneg e.1]⟩
  · have hs := Real.abs_sin_le_one w
    have hc := Real.abs_cos_le_one w
    have h1 := abs_nonneg e.1
    have h2 := abs_nonneg e.2
    constructor
    · refine (abs_add_le _ _).trans ?_
      rw [abs_mul, abs_mul, abs_neg]
      nlinarith
    · refine (abs_add_le _ _).trans ?_
      rw [abs_mul, abs_mul]
      nlinarith

/-- C84, SYM-PART: if the horizontal distance is more than four times the length (the default is ten times), every returned
solution, for every angle, lies within the bounds and is Pareto-optimal. -/
theorem C84_sympart_partial (a b c w : ℝ) (ha : 0 ≤ a) (hb : 0 < b) (hc : 4 * a < c) (n : ℕ) :
    ∀ e ∈ symSet a b c w n, symBox b c e.1 e.2 ∧ ParetoPoint (Plane (symBox b c)) (onPlane (symF a b c w)) (symF a b c w e.1 e.2) := by
  intro e he
  obtain ⟨row, hrow, he⟩ := List.mem_flatMap.1 he
  obtain ⟨col, hcol, he⟩ := List.mem_flatMap.1 he
  obtain ⟨x1, hx1, rfl⟩ := List.mem_map.1 he
  obtain ⟨hlo, hhi⟩ := linspace_mem (by linarith) hx1
  have hc0 : 0 < c := by linarith
  have hrow' : row = -1 ∨ row = 0 ∨ row = 1 := by simpa using hrow
  have hcol' : col = 1 ∨ col = 0 ∨ col = -1 := by simpa using hcol
  have ht1 : symTile (a + c / 2) (2 * a + c) x1 = row := by
    rcases hrow' with rfl | rfl | rfl
    · exact symTile_neg (by linarith) (by linarith) (by linarith) (by linarith)
    · exact symTile_zero (by linarith) (by rw [abs_le]; constructor <;> linarith) (by linarith)
    · exact symTile_pos (by linarith) (by linarith) (by linarith) (by linarith)
  have ht2 : symTile (b / 2) b (col * b) = col := by
    rcases hcol' with rfl | rfl | rfl
    · exact symTile_pos hb (by linarith) (by linarith) (by linarith)
    · exact symTile_zero hb (by simp; linarith) (by linarith)
    · exact symTile_neg hb (by linarith) (by linarith) (by linarith)
  have hF : symF a b c w (symTurn w (x1, col * b)).1 (symTurn w (x1, col * b)).2 = ![(x1 - row * c + a) ^ 2, (x1 - row * c - a) ^ 2] := by
    unfold symF
    rw [sym_back_turn]
    simp only [ht1, ht2]
    norm_num
  have hbox : symBox b c (symTurn w (x1, col * b)).1 (symTurn w (x1, col * b)).2 := by
    obtain ⟨b1, b2⟩ := sym_turn_abs w (x1, col * b)
    have hx : |x1| ≤ c + a := by
      rw [abs_le]
      rcases hrow' with rfl | rfl | rfl <;> constructor <;> linarith
    have hy : |col * b| ≤ b := by
      rw [abs_le]
      rcases hcol' with rfl | rfl | rfl <;> constructor <;> linarith
    have hm1 := le_max_left b c
    have hm2 := le_max_right b c
    simp only at b1 b2
    rw [abs_le] at b1 b2
    unfold symBox
    refine ⟨⟨?_, ?_⟩, ?_, ?_⟩ <;> linarith
  refine ⟨hbox, ?_⟩
  rw [plane_pareto]
  refine ⟨⟨_, _, hbox, rfl⟩, fun x y _ => ?_⟩
  rw [hF]
  obtain ⟨p1, p2, hp⟩ := symF_eq a b c w x y
  rw [hp]
  exact sym_pareto_line a _ p1 p2 (by linarith) (by linarith)

/-- C84, refuted for SYM-PART: with length 3 and the default distances a returned solution is dominated by another returned one. -/
theorem C84_sympart_refuted : ∃ e ∈ symSet 3 10 10 0 500, ∃ e' ∈ symSet 3 10 10 0 500,
    Dominates (symF 3 10 10 0 e'.1 e'.2) (symF 3 10 10 0 e.1 e.2) := by
  have h55 : (500 / 9 : ℕ) = 55 := by norm_num
  refine ⟨(7, 0), ?_, (3, 0), ?_, ?_⟩
  · refine List.mem_flatMap.2 ⟨1, by simp, List.mem_flatMap.2 ⟨0, by simp, List.mem_map.2 ⟨7, ?_, by simp [symTurn]⟩⟩⟩
    exact List.mem_map.2 ⟨0, by rw [h55]; simp, by norm_num⟩
  · refine List.mem_flatMap.2 ⟨0, by simp, List.mem_flatMap.2 ⟨0, by simp, List.mem_map.2 ⟨3, ?_, by simp [symTurn]⟩⟩⟩
    exact List.mem_map.2 ⟨54, by rw [h55]; simp, by rw [h55]; norm_num⟩
  · have t7 : symTile (3 + 10 / 2) (2 * 3 + 10) 7 = 0 := symTile_zero (by norm_num) (by norm_num) (by norm_num)
    have t3 : symTile (3 + 10 / 2) (2 * 3 + 10) 3 = 0 := symTile_zero (by norm_num) (by norm_num) (by norm_num)
    have t0 : symTile (10 / 2) 10 0 = 0 := symTile_zero (by norm_num) (by norm_num) (by norm_num)
    refine ⟨fun i => ?_, 0, ?_⟩
    · fin_cases i <;> simp only [symF, symBack, if_true, t7, t3, t0] <;> norm_num
    · simp only [symF, symBack, if_true, t7, t3, t0]; norm_num

/-- The hypotheses of the partial theorem hold for the default problem; its set with 500 points has `9 * 55` solutions. -/
example : (symSet 1 10 10 (Real.pi / 4) 500).length = 495 ∧
    ∀ e ∈ symSet 1 10 10 (Real.pi / 4) 500, ParetoPoint (Plane (symBox 10 10)) (onPlane (symF 1 10 10 (Real.pi / 4))) (symF 1 10 10 (Real.pi / 4) e.1 e.2) :=
  ⟨by simp [symSet, linspace], fun e he => (C84_sympart_partial 1 10 10 _ (by norm_num) (by norm_num) (by norm_num) 500 e he).2⟩

end Props
