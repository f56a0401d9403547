import Verif.Model.MW
import Verif.Props.CDTLZ
import Verif.Props.MultiProblems
import Mathlib.Analysis.Real.Pi.Bounds
import Mathlib.Topology.Order.IntermediateValue

/-!
# C130: the MW problems
-/

set_option linter.unusedVariables false
set_option linter.unusedSectionVars false
set_option linter.unusedSimpArgs false

namespace Props
open Model Spec

/-! ### The distance functions -/

theorem zipIdx_sum_nonneg (h : ℝ × ℕ → ℝ) (hh : ∀ e, 0 ≤ h e) (l : List ℝ) (k : ℕ) : 0 ≤ ((l.zipIdx k).map h).sum := by
  apply List.sum_nonneg
  intro y hy
  obtain ⟨e, -, rfl⟩ := List.mem_map.1 hy
  exact hh e

theorem mwG1_ge (n m : ℕ) (XM : List ℝ) : 1 ≤ mwG1 n m XM := by
  unfold mwG1
  have := zipIdx_sum_nonneg (fun e : ℝ × ℕ => 1 - Real.exp (-10 * (e.1 ^ (n - m) - 1 / 2 - e.2 / (2 * n)) * (e.1 ^ (n - m) - 1 / 2 - e.2 / (2 * n)))) (fun e => by
    have : Real.exp (-10 * (e.1 ^ (n - m) - 1 / 2 - e.2 / (2 * n)) * (e.1 ^ (n - m) - 1 / 2 - e.2 / (2 * n))) ≤ 1 := by
      rw [Real.exp_le_one_iff]
      nlinarith [sq_nonneg (e.1 ^ (n - m) - 1 / 2 - (e.2 : ℝ) / (2 * n))]
    linarith) XM (m - 1)
  linarith

theorem mwG2_ge (n m : ℕ) (XM : List ℝ) : 1 ≤ mwG2 n m XM := by
  unfold mwG2
  have := zipIdx_sum_nonneg (fun e : ℝ × ℕ =>
    let z := 1 - Real.exp (-10 * (e.1 - e.2 / n) * (e.1 - e.2 / n))
    0.1 / n * z * z + 1.5 - 1.5 * Real.cos (2 * Real.pi * z)) (fun e => by
    simp only
    set z := 1 - Real.exp (-10 * (e.1 - e.2 / n) * (e.1 - e.2 / n))
    have h1 := Real.cos_le_one (2 * Real.pi * z)
    have h2 : (0 : ℝ) ≤ 0.1 / n := by positivity
    have h3 : 0 ≤ 0.1 / (n : ℝ) * (z * z) := mul_nonneg h2 (mul_self_nonneg z)
    nlinarith) XM (m - 1)
  linarith

theorem mwG3_ge (x : List ℝ) : 1 ≤ mwG3 x := by
  induction x with
  | nil => simp [mwG3]
  | cons a l ih =>
    cases l with
    | nil => simp [mwG3]
    | cons b l => rw [mwG3]; nlinarith [sq_nonneg (b + (a - 1 / 2) * (a - 1 / 2) - 1)]

/-- Distance variables for which `g1` is one: `x_i` is the root of `1/2 + i / (2 n)`. -/
theorem mwG1_opt (n m : ℕ) (hm : 1 ≤ m) (hmn : m < n) : ∃ XM, Cube (n - (m - 1)) 0 1 XM ∧ mwG1 n m XM = 1 := by
  have hn : (0 : ℝ) < n := by exact_mod_cast (by omega : 0 < n)
  let w : ℕ → ℝ := fun i => ((1 / 2 + i / (2 * n) : ℝ)) ^ (1 / ((n - m : ℕ) : ℝ))
  have hk : (n - m : ℕ) ≠ 0 := by omega
  have hw : ∀ i : ℕ, w i ^ (n - m) = 1 / 2 + i / (2 * n) := by
    intro i
    simp only [w]
    rw [← Real.rpow_natCast, ← Real.rpow_mul (by positivity), one_div_mul_cancel (by exact_mod_cast hk), Real.rpow_one]
  have hw01 : ∀ i : ℕ, i < n → 0 ≤ w i ∧ w i ≤ 1 := by
    intro i hi
    have hi' : (i : ℝ) < n := by exact_mod_cast hi
    refine ⟨by positivity, Real.rpow_le_one (by positivity) ?_ (by positivity)⟩
    rw [div_add_div _ _ (by norm_num) (by positivity), div_le_one (by positivity)]
    nlinarith
  refine ⟨(List.range (n - (m - 1))).map fun j => w (m - 1 + j), ⟨by simp, ?_⟩, ?_⟩
  · intro v hv
    obtain ⟨j, hj, rfl⟩ := List.mem_map.1 hv
    exact hw01 _ (by have := List.mem_range.1 hj; omega)
  · unfold mwG1
    have : ((((List.range (n - (m - 1))).map fun j => w (m - 1 + j)).zipIdx (m - 1)).map fun e : ℝ × ℕ =>
        1 - Real.exp (-10 * (e.1 ^ (n - m) - 1 / 2 - e.2 / (2 * n)) * (e.1 ^ (n - m) - 1 / 2 - e.2 / (2 * n)))) = List.replicate (n - (m - 1)) 0 := by
      rw [List.eq_replicate_iff]
      refine ⟨by simp, fun b hb => ?_⟩
      obtain ⟨e, he, rfl⟩ := List.mem_map.1 hb
      obtain ⟨h1, h2, h3⟩ := List.mem_zipIdx he
      have he1 : e.1 = w e.2 := by
        rw [h3, List.getElem_map, List.getElem_range]
        congr 1; omega
      rw [he1, hw]
      simp
    rw [this]
    simp

theorem mwG2_opt (n m : ℕ) (hm : 1 ≤ m) (hmn : m ≤ n) (u : ℝ) (hu : 1 ≤ u) : ∃ XM, Cube (n - (m - 1)) 0 u XM ∧ mwG2 n m XM = 1 := by
  have hn : (0 : ℝ) < n := by exact_mod_cast (by omega : 0 < n)
  refine ⟨(List.range (n - (m - 1))).map fun j => ((m - 1 + j : ℕ) : ℝ) / n, ⟨by simp, ?_⟩, ?_⟩
  · intro v hv
    obtain ⟨j, hj, rfl⟩ := List.mem_map.1 hv
    have : ((m - 1 + j : ℕ) : ℝ) ≤ n := by exact_mod_cast (by have := List.mem_range.1 hj; omega)
    refine ⟨by positivity, ?_⟩
    have : ((m - 1 + j : ℕ) : ℝ) / n ≤ 1 := by rw [div_le_one hn]; exact this
    linarith
  · unfold mwG2
    have : ((((List.range (n - (m - 1))).map fun j => ((m - 1 + j : ℕ) : ℝ) / n).zipIdx (m - 1)).map fun e : ℝ × ℕ =>
        let z := 1 - Real.exp (-10 * (e.1 - e.2 / n) * (e.1 - e.2 / n))
        0.1 / n * z * z + 1.5 - 1.5 * Real.cos (2 * Real.pi * z)) = List.replicate (n - (m - 1)) 0 := by
      rw [List.eq_replicate_iff]
      refine ⟨by simp, fun b hb => ?_⟩
      obtain ⟨e, he, rfl⟩ := List.mem_map.1 hb
      obtain ⟨h1, h2, h3⟩ := List.mem_zipIdx he
      have he1 : e.1 = (e.2 : ℝ) / n := by
        rw [h3, List.getElem_map, List.getElem_range]
        congr 2; omega
      simp [he1]
    rw [this]
    simp

/-- C130: the distance functions of the MW problems are at least one, and one is attained within the bounds (`g1` needs more variables than objectives). -/
theorem C130_distance (n m : ℕ) (hm : 1 ≤ m) :
    (∀ XM, 1 ≤ mwG1 n m XM) ∧ (∀ XM, 1 ≤ mwG2 n m XM) ∧ (∀ x, 1 ≤ mwG3 x) ∧
    (m < n → ∃ XM, Cube (n - (m - 1)) 0 1 XM ∧ mwG1 n m XM = 1) ∧ (m ≤ n → ∃ XM, Cube (n - (m - 1)) 0 1 XM ∧ mwG2 n m XM = 1) :=
  ⟨mwG1_ge n m, mwG2_ge n m, mwG3_ge, mwG1_opt n m hm, fun h => mwG2_opt n m hm h 1 le_rfl⟩

/-! ### MW1 and MW2 -/

/-- Two objectives `x` and `g - a x` with `g ≥ 1`, and a constraint on the sum that depends on the difference: the front is the feasible part of the line `f2 = 1 - a f1`. -/
theorem diag_front (D : List ℝ → Prop) (F : List ℝ → Fin 2 → ℝ) (a : ℝ) (ha0 : 0 < a) (ha1 : a ≤ 1) (φ : ℝ → ℝ) (hφ : ∀ d, 0 ≤ φ d)
    (hlow : ∀ x, D x → 0 ≤ F x 0 ∧ F x 0 ≤ 1 ∧ 1 - a * F x 0 ≤ F x 1) (hatt : ∀ t, 0 ≤ t → t ≤ 1 → ∃ x, D x ∧ F x = ![t, 1 - a * t]) (f : Fin 2 → ℝ) :
    ParetoPoint (fun x => D x ∧ F x 0 + F x 1 - 1 - φ (F x 1 - F x 0) ≤ 0) F f ↔
      0 ≤ f 0 ∧ f 0 ≤ 1 ∧ f 1 = 1 - a * f 0 ∧ f 0 + f 1 - 1 - φ (f 1 - f 0) ≤ 0 := by
  refine front_exact _ _ (fun f => 0 ≤ f 0 ∧ f 0 ≤ 1 ∧ f 1 = 1 - a * f 0 ∧ f 0 + f 1 - 1 - φ (f 1 - f 0) ≤ 0) ?_ ?_ f
  · rintro f ⟨h0, h1, h2, h3⟩
    obtain ⟨x, hx, hf⟩ := hatt (f 0) h0 h1
    have hff : F x = f := by rw [hf]; funext i; fin_cases i <;> simp [h2]
    refine ⟨⟨x, ⟨hx, by rw [hff]; exact h3⟩, hff⟩, ?_⟩
    rintro y ⟨hy, -⟩ ⟨hle, i, hlt⟩
    obtain ⟨-, -, hy1⟩ := hlow y hy
    have e0 := hle 0
    have e1 := hle 1
    fin_cases i
    · simp only [Fin.zero_eta] at hlt
      nlinarith
    · simp only [Fin.mk_one] at hlt
      nlinarith
  · rintro x ⟨hx, hc⟩
    obtain ⟨h0, h1, h2⟩ := hlow x hx
    set u := F x 0
    set v := F x 1
    have h1a : 0 < 1 + a := by linarith
    set t := (1 - (v - u)) / (1 + a) with ht
    have htd : t * (1 + a) = 1 - (v - u) := by rw [ht]; field_simp
    have htu : t ≤ u := by
      by_contra hcon; push Not at hcon
      nlinarith
    rcases le_or_gt 0 t with ht0 | ht0
    · refine ⟨![t, 1 - a * t], ⟨ht0, htu.trans h1, rfl, ?_⟩, ?_⟩
      · simp only [Matrix.cons_val_zero, Matrix.cons_val_one]
        have : 1 - a * t - t = v - u := by linarith
        rw [this]
        nlinarith
      · intro i
        fin_cases i
        · exact htu
        · show 1 - a * t ≤ v
          linarith
    · refine ⟨![0, 1], ⟨le_rfl, by norm_num, by simp, ?_⟩, ?_⟩
      · simp only [Matrix.cons_val_zero, Matrix.cons_val_one]
        have := hφ (1 - 0)
        linarith
      · intro i
        fin_cases i
        · exact h0
        · show 1 ≤ v
          nlinarith

theorem even_pow_nonneg (s : ℝ) : 0 ≤ s ^ 8 := by positivity

theorem mw1_val (n : ℕ) (x : List ℝ) : mw1 n x = ![x.getD 0 0, mwG1 n 2 (x.drop 1) - 0.85 * x.getD 0 0] := by
  have h := mwG1_ge n 2 (x.drop 1)
  unfold mw1
  simp only
  congr 2
  field_simp

theorem mw2_val (n : ℕ) (x : List ℝ) : mw2 n x = ![x.getD 0 0, mwG2 n 2 (x.drop 1) - x.getD 0 0] := by
  have h := mwG2_ge n 2 (x.drop 1)
  unfold mw2
  simp only
  congr 2
  field_simp

theorem cube_getD {n : ℕ} (hn : 1 ≤ n) {u : ℝ} {x : List ℝ} (hx : Cube n 0 u x) : 0 ≤ x.getD 0 0 ∧ x.getD 0 0 ≤ u := by
  obtain ⟨hl, hb⟩ := hx
  cases x with
  | nil => simp at hl; omega
  | cons a l => exact hb a (by simp)

theorem cube_cons' {n : ℕ} {u t : ℝ} {XM : List ℝ} (hn : 1 ≤ n) (h0 : 0 ≤ t) (h1 : t ≤ u) (h : Cube (n - 1) 0 u XM) : Cube n 0 u (t :: XM) := by
  refine ⟨by rw [List.length_cons, h.1]; omega, fun v hv => ?_⟩
  rcases List.mem_cons.1 hv with rfl | hv
  · exact ⟨h0, h1⟩
  · exact h.2 v hv

/-- C130, MW1 (at least three variables): the Pareto-optimal points are exactly the feasible points of the line `f2 = 1 - 0.85 f1`, `0 ≤ f1 ≤ 1`. -/
theorem C130_mw1 (n : ℕ) (hn : 3 ≤ n) (f : Fin 2 → ℝ) :
    ParetoPoint (fun x => Cube n 0 1 x ∧ mw1Con (mw1 n x) ≤ 0) (mw1 n) f ↔ 0 ≤ f 0 ∧ f 0 ≤ 1 ∧ f 1 = 1 - 0.85 * f 0 ∧ mw1Con f ≤ 0 := by
  have hc : ∀ f : Fin 2 → ℝ, mw1Con f = f 0 + f 1 - 1 - (fun d => mwLA1 0.5 2 8 (√2 * d)) (f 1 - f 0) := fun f => by
    unfold mw1Con; simp only [mul_sub]
  simp only [hc]
  refine diag_front (Cube n 0 1) (mw1 n) 0.85 (by norm_num) (by norm_num) (fun d => mwLA1 0.5 2 8 (√2 * d)) (fun d => ?_) (fun x hx => ?_) (fun t h0 h1 => ?_) f
  · exact mul_nonneg (by norm_num) (even_pow_nonneg _)
  · rw [mw1_val]
    obtain ⟨g0, g1⟩ := cube_getD (by omega) hx
    refine ⟨g0, g1, ?_⟩
    simp only [Matrix.cons_val_zero, Matrix.cons_val_one]
    linarith [mwG1_ge n 2 (x.drop 1)]
  · obtain ⟨XM, hXM, hg⟩ := mwG1_opt n 2 (by norm_num) (by omega)
    refine ⟨t :: XM, cube_cons' (by omega) h0 h1 hXM, ?_⟩
    rw [mw1_val]
    simp [hg]

/-- C130, MW2 (at least two variables): the Pareto-optimal points are exactly the points of the line `f2 = 1 - f1`, `0 ≤ f1 ≤ 1`. -/
theorem C130_mw2 (n : ℕ) (hn : 2 ≤ n) (f : Fin 2 → ℝ) :
    ParetoPoint (fun x => Cube n 0 1 x ∧ mw2Con (mw2 n x) ≤ 0) (mw2 n) f ↔ 0 ≤ f 0 ∧ f 0 ≤ 1 ∧ f 1 = 1 - f 0 := by
  have hc : ∀ f : Fin 2 → ℝ, mw2Con f = f 0 + f 1 - 1 - (fun d => mwLA1 0.5 3 8 (√2 * d)) (f 1 - f 0) := fun f => by
    unfold mw2Con; simp only [mul_sub]
  simp only [hc]
  have hφ : ∀ d, 0 ≤ (fun d => mwLA1 0.5 3 8 (√2 * d)) d := fun d => mul_nonneg (by norm_num) (even_pow_nonneg _)
  refine (diag_front (Cube n 0 1) (mw2 n) 1 (by norm_num) (by norm_num) (fun d => mwLA1 0.5 3 8 (√2 * d)) hφ (fun x hx => ?_) (fun t h0 h1 => ?_) f).trans ?_
  · rw [mw2_val]
    obtain ⟨g0, g1⟩ := cube_getD (by omega) hx
    refine ⟨g0, g1, ?_⟩
    simp only [Matrix.cons_val_zero, Matrix.cons_val_one]
    linarith [mwG2_ge n 2 (x.drop 1)]
  · obtain ⟨XM, hXM, hg⟩ := mwG2_opt n 2 (by norm_num) (by omega) 1 le_rfl
    refine ⟨t :: XM, cube_cons' (by omega) h0 h1 hXM, ?_⟩
    rw [mw2_val]
    simp [hg]
  · rw [one_mul]
    refine ⟨fun h => ⟨h.1, h.2.1, h.2.2.1⟩, fun h => ⟨h.1, h.2.1, h.2.2, ?_⟩⟩
    have := hφ (f 1 - f 0)
    linarith [h.2.2]

/-- Rows of the caller whose first entries are in the unit interval. -/
def RowsOk (refDirs : Option (List (Fin 2 → ℝ))) : Prop := ∀ R, refDirs = some R → ∀ r ∈ R, 0 ≤ r 0 ∧ r 0 ≤ 1

theorem mwRows_mem (curve : ℝ → ℝ) (refDirs : Option (List (Fin 2 → ℝ))) (h : RowsOk refDirs) (F : Fin 2 → ℝ) (hF : F ∈ (mwRows curve refDirs).1) :
    0 ≤ F 0 ∧ F 0 ≤ 1 ∧ F 1 = curve (F 0) := by
  cases refDirs with
  | none =>
    obtain ⟨t, ht, rfl⟩ := List.mem_map.1 hF
    obtain ⟨h1, h2⟩ := linspace_mem (by norm_num) ht
    exact ⟨h1, h2, rfl⟩
  | some R =>
    obtain ⟨r, hr, rfl⟩ := List.mem_map.1 hF
    obtain ⟨h1, h2⟩ := h R rfl r hr
    exact ⟨h1, h2, rfl⟩

/-- C130: the returned fronts of MW1 and MW2 consist of Pareto-optimal points; of MW1, exactly the feasible ones of the chosen points of the line are returned. -/
theorem C130_line_fronts (n : ℕ) (hn : 3 ≤ n) (refDirs : Option (List (Fin 2 → ℝ))) (h : RowsOk refDirs) (F : Fin 2 → ℝ) :
    (F ∈ (mw1Front refDirs).1 ↔ F ∈ (mwRows (fun t => 1 - 0.85 * t) refDirs).1 ∧ ParetoPoint (fun x => Cube n 0 1 x ∧ mw1Con (mw1 n x) ≤ 0) (mw1 n) F) ∧
    (F ∈ (mw2Front refDirs).1 → ParetoPoint (fun x => Cube n 0 1 x ∧ mw2Con (mw2 n x) ≤ 0) (mw2 n) F) := by
  constructor
  · unfold mw1Front
    simp only
    rw [List.mem_filter, C130_mw1 n hn]
    refine and_congr_right fun hF => ?_
    obtain ⟨h0, h1, h2⟩ := mwRows_mem _ _ h F hF
    have hcon : mw1Con F = -(1 - F 0 - F 1 + 0.5 * Real.sin (2 * Real.pi * (√2 * F 1 - √2 * F 0)) ^ 8) := by unfold mw1Con mwLA1; ring
    rw [hcon]
    simp only [decide_eq_true_eq]
    constructor
    · intro hc; exact ⟨h0, h1, h2, by linarith⟩
    · rintro ⟨-, -, -, hc⟩; linarith
  · intro hF
    rw [C130_mw2 n (by omega)]
    exact mwRows_mem _ _ h F hF

/-- C130, refuted: asking for the front with reference directions changes them: the second column of the caller's array is overwritten. -/
theorem C130_caller_refuted (R : List (Fin 2 → ℝ)) :
    (mw1Front (some R)).2 = R.map (fun r => ![r 0, 1 - 0.85 * r 0]) ∧ (mw2Front (some R)).2 = R.map (fun r => ![r 0, 1 - r 0]) ∧
    (mw6Front (some R)).2 = R.map (fun r => ![r 0, 1 - r 0]) ∧ (mw1Front (some [![1, 0]])).2 ≠ [![1, 0]] := by
  refine ⟨rfl, rfl, rfl, fun h => ?_⟩
  have h1 : (mw1Front (some [![1, 0]])).2 = [![1, 1 - 0.85 * 1]] := rfl
  rw [h1] at h
  have := congrFun (List.cons.inj h).1 1
  norm_num at this

end Props
