import Verif.Model.DCDTLZ
import Verif.Props.CDTLZ
import Verif.Props.MultiProblems

/-!
# C131: the degenerate constrained DTLZ problems
-/

set_option linter.unusedVariables false
set_option linter.unusedSectionVars false
set_option linter.unusedSimpArgs false

namespace Props
open Model Spec

/-- A solution of the box that violates no constraint. -/
def Feasible (n : ℕ) (G : List ℝ → List ℝ) (x : List ℝ) : Prop := Cube n 0 1 x ∧ ∀ c ∈ G x, c ≤ 0

/-- A problem whose objectives are `σ (1 + g)` times a shape of the position variables, with constraints on the position variables and `g` that allow `g = 0` wherever they
allow any `g`: the Pareto-optimal points are those of the position variables that are allowed together with `g = 0`. -/
theorem dist_front {m n p : ℕ} (hm : 1 ≤ m) (hmn : m - 1 ≤ n) (F : List ℝ → Fin m → ℝ) (c s : ℝ → ℝ) (H : Polar c s p) (σ : ℝ) (hσ : 0 < σ)
    (hF : ∀ x i, F x i = σ * (1 + dtlzG1 (x.drop (m - 1))) * dtlzShape c s (x.take (m - 1)) i)
    (D : List ℝ → Prop) (C : List ℝ → ℝ → Prop) (hD : ∀ x, D x ↔ Cube n 0 1 x ∧ C (x.take (m - 1)) (dtlzG1 (x.drop (m - 1)))) (hC : ∀ X g, C X g → C X 0) (f : Fin m → ℝ) :
    ParetoPoint D F f ↔ ∃ X, Cube (m - 1) 0 1 X ∧ C X 0 ∧ ∀ i : Fin m, f i = σ * dtlzShape c s X i := by
  have hsh : ∀ X : List ℝ, Cube (m - 1) 0 1 X → (∀ i : Fin m, 0 ≤ dtlzShape c s X i) ∧ ∑ i : Fin m, dtlzShape c s X i ^ p = 1 := by
    intro X hX
    refine ⟨fun i => dtlzShape_nonneg c s _ (fun v hv => ⟨(H.circle v (hX.2 v hv)).1, (H.circle v (hX.2 v hv)).2.1⟩) _ (by rw [hX.1]; omega), ?_⟩
    have := dtlzShape_sum c s p X fun v hv => (H.circle v (hX.2 v hv)).2.2
    rw [hX.1] at this
    rw [sum_range_fin hm fun i => dtlzShape c s X i ^ p]
    exact this
  refine front_exact D F (fun f => ∃ X, Cube (m - 1) 0 1 X ∧ C X 0 ∧ ∀ i : Fin m, f i = σ * dtlzShape c s X i) ?_ ?_ f
  · rintro f ⟨X, hX, hCX, hf⟩
    have hx : Cube n 0 1 (X ++ List.replicate (n - (m - 1)) (1 / 2)) := by
      have := cube_append hX (half_cube (n - (m - 1)))
      rwa [Nat.add_sub_cancel' hmn] at this
    have ht : (X ++ List.replicate (n - (m - 1)) (1 / 2 : ℝ)).take (m - 1) = X := by rw [← hX.1]; simp
    have hd : (X ++ List.replicate (n - (m - 1)) (1 / 2 : ℝ)).drop (m - 1) = List.replicate (n - (m - 1)) (1 / 2) := by
      conv_lhs => rw [show (m - 1) = X.length from hX.1.symm]
      rw [List.drop_left, hX.1]
    refine ⟨⟨_, (hD _).2 ⟨hx, by rw [ht, hd, dtlzG1_half]; exact hCX⟩, ?_⟩, ?_⟩
    · funext i
      rw [hF, ht, hd, dtlzG1_half, hf i]; ring
    · intro y hy hdom
      have hfs : (∀ i, 0 ≤ f i) ∧ ∑ i, f i ^ p = σ ^ p := by
        refine ⟨fun i => by rw [hf i]; exact mul_nonneg hσ.le ((hsh X hX).1 i), ?_⟩
        simp only [hf, mul_pow]
        rw [← Finset.mul_sum, (hsh X hX).2, mul_one]
      have := (front_of_sphere hm hmn F c s H (fun XM => σ * (1 + dtlzG1 XM)) σ hσ hF (fun XM _ => by nlinarith [dtlzG1_nonneg XM])
        ⟨_, half_cube _, by rw [dtlzG1_half]; ring⟩ f).2 hfs
      exact this.2 y ((hD y).1 hy).1 hdom
  · intro x hx
    obtain ⟨hc, hCx⟩ := (hD x).1 hx
    have ht := cube_take hc hmn
    refine ⟨fun i => σ * dtlzShape c s (x.take (m - 1)) i, ⟨_, ht, hC _ _ hCx, fun i => rfl⟩, fun i => ?_⟩
    rw [hF]
    have h1 := (hsh _ ht).1 i
    have h2 := dtlzG1_nonneg (x.drop (m - 1))
    have h3 : 0 ≤ σ * dtlzG1 (x.drop (m - 1)) * dtlzShape c s (x.take (m - 1)) i := mul_nonneg (mul_nonneg hσ.le h2) h1
    simp only
    nlinarith

theorem dtlz3_shape (m : ℕ) (x : List ℝ) (i : Fin m) : dtlz3 m x i = 1 * (1 + dtlzG1 (x.drop (m - 1))) *
    dtlzShape (fun v => Real.cos (v ^ 1 * Real.pi / 2)) (fun v => Real.sin (v ^ 1 * Real.pi / 2)) (x.take (m - 1)) i := by
  unfold dtlz3 dtlzObj
  rw [one_mul]

/-- C131, DC2DTLZ1 and DC2DTLZ3: the constraints do not change the front, so that the inherited `_calc_pareto_front` is right. -/
theorem C131_dc2 (m n : ℕ) (hm : 1 ≤ m) (hmn : m - 1 ≤ n) (f : Fin m → ℝ) :
    (ParetoPoint (Feasible n (dc2G m)) (dtlz1 m) f ↔ (∀ i, 0 ≤ f i) ∧ ∑ i, f i = 1 / 2) ∧
    (ParetoPoint (Feasible n (dc2G m)) (dtlz3 m) f ↔ (∀ i, 0 ≤ f i) ∧ ∑ i, f i ^ 2 = 1) := by
  have hC : ∀ g : ℝ, ((0.9 : ℝ) - Real.cos (g / 100 * Real.pi * 3) ≤ 0 ∧ 0.9 - Real.exp (-g / 100) ≤ 0) →
      ((0.9 : ℝ) - Real.cos ((0 : ℝ) / 100 * Real.pi * 3) ≤ 0 ∧ 0.9 - Real.exp (-(0 : ℝ) / 100) ≤ 0) := by
    intro g _; norm_num
  have hD : ∀ x, Feasible n (dc2G m) x ↔ Cube n 0 1 x ∧ (fun (_ : List ℝ) (g : ℝ) => (0.9 : ℝ) - Real.cos (g / 100 * Real.pi * 3) ≤ 0 ∧ 0.9 - Real.exp (-g / 100) ≤ 0)
      (x.take (m - 1)) (dtlzG1 (x.drop (m - 1))) := by
    intro x; unfold Feasible dc2G conDC2; simp
  constructor
  · rw [← C82_dtlz1_simplex m n hm hmn, dist_front hm hmn (dtlz1 m) _ _ polar_linear (1 / 2) (by norm_num) (fun x i => rfl) _ _ hD (fun X g h => hC g h),
      dist_front hm hmn (dtlz1 m) _ _ polar_linear (1 / 2) (by norm_num) (fun x i => rfl) (Cube n 0 1) (fun _ _ => True) (fun x => by simp) (fun _ _ h => h)]
    norm_num
  · rw [← C82_dtlz3_sphere m n hm hmn, dist_front hm hmn (dtlz3 m) _ _ (polar_trig 1 (by norm_num)) 1 (by norm_num) (dtlz3_shape m) _ _ hD (fun X g h => hC g h),
      dist_front hm hmn (dtlz3 m) _ _ (polar_trig 1 (by norm_num)) 1 (by norm_num) (dtlz3_shape m) (Cube n 0 1) (fun _ _ => True) (fun x => by simp) (fun _ _ h => h)]
    norm_num

theorem shape_head {m : ℕ} (c s : ℝ → ℝ) (X : List ℝ) (hX : Cube (m + 1) 0 1 X) : dtlzShape c s X (m + 1) = s (X.getD 0 0) := by
  obtain ⟨hl, -⟩ := hX
  cases X with
  | nil => simp at hl
  | cons a l =>
    have : l.length = m := by simpa using hl
    rw [← this, dtlzShape_last]; rfl

theorem getD_unit {m : ℕ} {X : List ℝ} (hX : Cube (m + 1) 0 1 X) : 0 ≤ X.getD 0 0 ∧ X.getD 0 0 ≤ 1 := by
  obtain ⟨hl, hb⟩ := hX
  cases X with
  | nil => simp at hl
  | cons a l => exact hb a (by simp)

/-- Points of the shape with a condition on the first position variable, which the last objective determines. -/
theorem first_var {m p : ℕ} (c s : ℝ → ℝ) (H : Polar c s p) (inv : ℝ → ℝ) (hinv : ∀ v, 0 ≤ v → v ≤ 1 → inv (s v) = v) (σ : ℝ) (hσ : 0 < σ) (P : ℝ → Prop) (f : Fin (m + 2) → ℝ) :
    (∃ X, Cube (m + 1) 0 1 X ∧ P (X.getD 0 0) ∧ ∀ i : Fin (m + 2), f i = σ * dtlzShape c s X i) ↔
      ((∀ i, 0 ≤ f i) ∧ ∑ i, f i ^ p = σ ^ p) ∧ P (inv (f (Fin.last (m + 1)) / σ)) := by
  have hlast : ∀ X : List ℝ, Cube (m + 1) 0 1 X → inv (σ * dtlzShape c s X (Fin.last (m + 1) : ℕ) / σ) = X.getD 0 0 := by
    intro X hX
    rw [mul_div_cancel_left₀ _ hσ.ne', Fin.val_last, shape_head c s X hX]
    exact hinv _ (getD_unit hX).1 (getD_unit hX).2
  constructor
  · rintro ⟨X, hX, hP, hf⟩
    refine ⟨⟨fun i => ?_, ?_⟩, ?_⟩
    · rw [hf i]
      exact mul_nonneg hσ.le (dtlzShape_nonneg c s _ (fun v hv => ⟨(H.circle v (hX.2 v hv)).1, (H.circle v (hX.2 v hv)).2.1⟩) _ (by rw [hX.1]; omega))
    · simp only [hf, mul_pow]
      rw [← Finset.mul_sum, sum_range_fin (by omega) fun i => dtlzShape c s X i ^ p]
      have := dtlzShape_sum c s p X fun v hv => (H.circle v (hX.2 v hv)).2.2
      rw [hX.1] at this
      rw [show m + 2 - 1 + 1 = m + 1 + 1 by omega, this, mul_one]
    · rw [hf, hlast X hX]; exact hP
  · rintro ⟨⟨h0, h1⟩, hP⟩
    obtain ⟨X, hX, hr⟩ := dtlzShape_onto c s H (m + 1) (fun i => if h : i < m + 2 then f ⟨i, h⟩ / σ else 0) (fun i hi => by
      rw [dif_pos (by omega)]; exact div_nonneg (h0 _) hσ.le) (by
      rw [← Fin.sum_univ_eq_sum_range (fun i => (if h : i < m + 2 then f ⟨i, h⟩ / σ else 0) ^ p)]
      have : ∀ i : Fin (m + 1 + 1), (if h : (i : ℕ) < m + 2 then f ⟨i, h⟩ / σ else 0) ^ p = f i ^ p / σ ^ p := by
        intro i; rw [dif_pos i.2, div_pow]
      simp only [this]
      rw [← Finset.sum_div, h1, div_self (by positivity)])
    have hf : ∀ i : Fin (m + 2), f i = σ * dtlzShape c s X i := by
      intro i
      have := i.2
      rw [hr i (by omega), dif_pos i.2]
      field_simp
    refine ⟨X, hX, ?_, hf⟩
    rw [hf, hlast X hX] at hP
    exact hP

theorem sin_inv (v : ℝ) (h0 : 0 ≤ v) (h1 : v ≤ 1) : 2 / Real.pi * Real.arcsin (Real.sin (v ^ 1 * Real.pi / 2)) = v := by
  have hpi := Real.pi_pos
  rw [pow_one, Real.arcsin_sin (by nlinarith) (by nlinarith)]
  field_simp

theorem dc1_feasible {m n : ℕ} (hmn : m + 1 ≤ n) (x : List ℝ) : Feasible n dc1G x ↔ Cube n 0 1 x ∧ (fun (X : List ℝ) (_ : ℝ) => 0.95 ≤ Real.cos (5 * Real.pi * X.getD 0 0))
    (x.take (m + 2 - 1)) (dtlzG1 (x.drop (m + 2 - 1))) := by
  unfold Feasible dc1G conDC1
  refine and_congr_right fun hx => ?_
  have : (x.take (m + 2 - 1)).getD 0 0 = x.getD 0 0 := by
    cases x with
    | nil => simp
    | cons a l => rfl
  simp only [List.mem_singleton, forall_eq, this]
  constructor <;> intro h <;> linarith

/-- C131, DC1DTLZ1 and DC1DTLZ3 (two or more objectives): the Pareto-optimal points are those of the unconstrained problem whose last objective belongs to a first variable
that the constraint allows. -/
theorem C131_dc1 (m n : ℕ) (hmn : m + 1 ≤ n) (f : Fin (m + 2) → ℝ) :
    (ParetoPoint (Feasible n dc1G) (dtlz1 (m + 2)) f ↔
      ((∀ i, 0 ≤ f i) ∧ ∑ i, f i = 1 / 2) ∧ 0.95 ≤ Real.cos (5 * Real.pi * (1 - f (Fin.last (m + 1)) / (1 / 2)))) ∧
    (ParetoPoint (Feasible n dc1G) (dtlz3 (m + 2)) f ↔
      ((∀ i, 0 ≤ f i) ∧ ∑ i, f i ^ 2 = 1) ∧ 0.95 ≤ Real.cos (5 * Real.pi * (2 / Real.pi * Real.arcsin (f (Fin.last (m + 1)) / 1)))) := by
  constructor
  · rw [dist_front (m := m + 2) (n := n) (by omega) (by omega) (dtlz1 (m + 2)) _ _ polar_linear (1 / 2) (by norm_num) (fun x i => rfl) _ (fun (X : List ℝ) (_ : ℝ) => 0.95 ≤ Real.cos (5 * Real.pi * X.getD 0 0)) (dc1_feasible hmn) (fun _ _ h => h)]
    have := first_var (m := m) (fun v => v) (fun v => 1 - v) polar_linear (fun w => 1 - w) (fun v _ _ => by ring) (1 / 2) (by norm_num)
      (fun v => 0.95 ≤ Real.cos (5 * Real.pi * v)) f
    simpa using this
  · rw [dist_front (m := m + 2) (n := n) (by omega) (by omega) (dtlz3 (m + 2)) _ _ (polar_trig 1 (by norm_num)) 1 (by norm_num) (dtlz3_shape (m + 2)) _ (fun (X : List ℝ) (_ : ℝ) => 0.95 ≤ Real.cos (5 * Real.pi * X.getD 0 0)) (dc1_feasible hmn) (fun _ _ h => h)]
    have := first_var (m := m) _ _ (polar_trig 1 (by norm_num)) (fun w => 2 / Real.pi * Real.arcsin w) (fun v h0 h1 => sin_inv v h0 h1) 1 (by norm_num)
      (fun v => 0.95 ≤ Real.cos (5 * Real.pi * v)) f
    simpa using this

/-- C131, DC3DTLZ1 and DC3DTLZ3: the Pareto-optimal points are those of position variables that all satisfy their constraint. -/
theorem C131_dc3 (m n : ℕ) (hm : 1 ≤ m) (hmn : m - 1 ≤ n) (f : Fin m → ℝ) :
    (ParetoPoint (Feasible n (dc3G m)) (dtlz1 m) f ↔
      ∃ X, Cube (m - 1) 0 1 X ∧ (∀ v ∈ X, 0.5 ≤ Real.cos (5 * Real.pi * v)) ∧ f = dtlz1Obj m X 0) ∧
    (ParetoPoint (Feasible n (dc3G m)) (dtlz3 m) f ↔
      ∃ X, Cube (m - 1) 0 1 X ∧ (∀ v ∈ X, 0.5 ≤ Real.cos (5 * Real.pi * v)) ∧ f = dtlzObj m 1 X 0) := by
  have hD : ∀ x, Feasible n (dc3G m) x ↔ Cube n 0 1 x ∧ (fun (X : List ℝ) (g : ℝ) => (∀ v ∈ X, 0.5 ≤ Real.cos (5 * Real.pi * v)) ∧ 0.5 ≤ Real.cos (5 * Real.pi * g))
      (x.take (m - 1)) (dtlzG1 (x.drop (m - 1))) := by
    intro x
    unfold Feasible dc3G conDC3
    refine and_congr_right fun _ => ?_
    simp only [List.forall_mem_cons, List.forall_mem_map, sub_nonpos]
    exact and_comm
  have hC : ∀ (X : List ℝ) (g : ℝ), (fun (X : List ℝ) (g : ℝ) => (∀ v ∈ X, (0.5 : ℝ) ≤ Real.cos (5 * Real.pi * v)) ∧ (0.5 : ℝ) ≤ Real.cos (5 * Real.pi * g)) X g →
      (fun (X : List ℝ) (g : ℝ) => (∀ v ∈ X, (0.5 : ℝ) ≤ Real.cos (5 * Real.pi * v)) ∧ (0.5 : ℝ) ≤ Real.cos (5 * Real.pi * g)) X 0 := by
    rintro X g ⟨h, -⟩
    exact ⟨h, by norm_num⟩
  constructor
  · rw [dist_front hm hmn (dtlz1 m) _ _ polar_linear (1 / 2) (by norm_num) (fun x i => rfl) _ _ hD hC]
    refine exists_congr fun X => and_congr_right fun _ => ?_
    constructor
    · rintro ⟨⟨h, -⟩, hf⟩; exact ⟨h, funext fun i => by rw [hf i]; unfold dtlz1Obj; ring⟩
    · rintro ⟨h, rfl⟩; exact ⟨⟨h, by norm_num⟩, fun i => by unfold dtlz1Obj; ring⟩
  · rw [dist_front hm hmn (dtlz3 m) _ _ (polar_trig 1 (by norm_num)) 1 (by norm_num) (dtlz3_shape m) _ _ hD hC]
    refine exists_congr fun X => and_congr_right fun _ => ?_
    constructor
    · rintro ⟨⟨h, -⟩, hf⟩; exact ⟨h, funext fun i => by rw [hf i]; unfold dtlzObj; ring⟩
    · rintro ⟨h, rfl⟩; exact ⟨⟨h, by norm_num⟩, fun i => by unfold dtlzObj; ring⟩

theorem cos_five_fifth : Real.cos (5 * Real.pi * 0.2) = -1 := by
  rw [show (5 : ℝ) * Real.pi * 0.2 = Real.pi by ring, Real.cos_pi]

/-- C131, refuted: "the inherited front of DC1DTLZ1 and DC3DTLZ1 is the one of the constrained problem". A reference direction with last entry `0.8` leads to a point that
no feasible solution attains, so that it is not Pareto-optimal. -/
theorem C131_front_refuted (m n : ℕ) (hmn : m + 1 ≤ n) (r : Fin (m + 2) → ℝ) (hr : r (Fin.last (m + 1)) = 0.8) :
    ¬ ParetoPoint (Feasible n dc1G) (dtlz1 (m + 2)) (dtlz1Front r) ∧ ¬ ParetoPoint (Feasible n (dc3G (m + 2))) (dtlz1 (m + 2)) (dtlz1Front r) := by
  constructor
  · rw [(C131_dc1 m n hmn _).1]
    rintro ⟨-, h⟩
    unfold dtlz1Front at h
    rw [hr, show (1 : ℝ) - 1 / 2 * 0.8 / (1 / 2) = 0.2 by norm_num, cos_five_fifth] at h
    norm_num at h
  · rw [(C131_dc3 (m + 2) n (by omega) (by omega) _).1]
    rintro ⟨X, hX, hv, hf⟩
    have h := congrFun hf (Fin.last (m + 1))
    unfold dtlz1Front dtlz1Obj at h
    rw [hr, Fin.val_last, shape_head _ _ X hX] at h
    have h02 : X.getD 0 0 = 0.2 := by linarith
    have hmem : X.getD 0 0 ∈ X := by
      cases X with
      | nil => exact absurd hX.1 (by simp)
      | cons a l => simp
    have := hv _ hmem
    rw [h02, cos_five_fifth] at this
    norm_num at this

example : ParetoPoint (Feasible 2 dc1G) (dtlz1 2) ![0, 0.5] := by
  rw [(C131_dc1 0 2 (by norm_num) _).1]
  refine ⟨⟨fun i => by fin_cases i <;> norm_num, by simp; norm_num⟩, ?_⟩
  simp [Fin.last]
  norm_num

example : ∃ r : Fin 2 → ℝ, (∀ i, 0 ≤ r i) ∧ ∑ i, r i = 1 ∧ r (Fin.last 1) = 0.8 :=
  ⟨![0.2, 0.8], fun i => by fin_cases i <;> norm_num, by simp; norm_num, rfl⟩

end Props
