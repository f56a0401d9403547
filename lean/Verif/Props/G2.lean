import Mathlib.Analysis.Real.Pi.Bounds
import Mathlib.Data.List.GetD
import Mathlib.Tactic.Linarith
import Mathlib.Tactic.Positivity
import Verif.Model.G16
import Verif.Spec.Constrained

/-!
# C132: the objective of G2
-/

set_option linter.unusedVariables false

namespace Props
open Model Spec

theorem g2_sum_pos (l : List ℝ) (hl : ∀ v ∈ l, 0 < v) (k : ℕ) : 0 ≤ ((l.zipIdx k).map fun p => ((p.2 : ℝ) + 1) * p.1 ^ 2).sum := by
  refine List.sum_nonneg fun v hv => ?_
  obtain ⟨p, -, rfl⟩ := List.mem_map.1 hv
  positivity

theorem g2_prod_le (l : List ℝ) : 0 ≤ (l.map fun v => Real.cos v ^ 2).prod ∧ (l.map fun v => Real.cos v ^ 2).prod ≤ 1 := by
  induction l with
  | nil => simp
  | cons v l ih =>
    rw [List.map_cons, List.prod_cons]
    have h := Real.cos_sq_le_one v
    exact ⟨mul_nonneg (sq_nonneg _) ih.1, mul_le_one₀ h ih.1 ih.2⟩

theorem g2_sum4 (l : List ℝ) : 0 ≤ (l.map fun v => Real.cos v ^ 4).sum := by
  refine List.sum_nonneg fun v hv => ?_
  obtain ⟨p, -, rfl⟩ := List.mem_map.1 hv
  positivity

/-- C132: with two variables or more, neither the guard against a division by zero nor the absolute value in the objective of G2 has an effect within the bounds: the sum of the fourth powers
exceeds twice the product, and the objective is minus their difference divided by a positive root. -/
theorem C132_g2_objective (n : ℕ) (hn : 2 ≤ n) (x : List ℝ) (hx : Within (g2Problem n).xl (g2Problem n).xu x) :
    2 * (x.map fun v => Real.cos v ^ 2).prod ≤ (x.map fun v => Real.cos v ^ 4).sum ∧
    0 < (x.zipIdx.map fun p => ((p.2 : ℝ) + 1) * p.1 ^ 2).sum ∧
    (g2Problem n).F x = -((x.map fun v => Real.cos v ^ 4).sum - 2 * (x.map fun v => Real.cos v ^ 2).prod) / Real.sqrt (x.zipIdx.map fun p => ((p.2 : ℝ) + 1) * p.1 ^ 2).sum ∧
    (g2Problem n).F x ≤ 0 := by
  have hlen : x.length = n := by have := hx.1; simpa [g2Problem] using this
  have hpos : ∀ v ∈ x, 0 < v := by
    intro v hv
    obtain ⟨i, hi, rfl⟩ := List.mem_iff_getElem.1 hv
    have h := (hx.2 i hi).1
    have e : (g2Problem n).xl.getD i 0 = 1 / 10 ^ 16 := by
      simp only [g2Problem]
      rw [List.getD_eq_getElem _ _ (by simpa using hlen ▸ hi), List.getElem_replicate]
    rw [e, List.getD_eq_getElem _ _ hi] at h
    exact lt_of_lt_of_le (by positivity) h
  have key : 2 * (x.map fun v => Real.cos v ^ 2).prod ≤ (x.map fun v => Real.cos v ^ 4).sum ∧ 0 < (x.zipIdx.map fun p => ((p.2 : ℝ) + 1) * p.1 ^ 2).sum := by
    match x, hlen, hpos with
    | [], h, _ => simp at h; omega
    | [_], h, _ => simp at h; omega
    | u :: v :: w, _, hp =>
      constructor
      · simp only [List.map_cons, List.prod_cons, List.sum_cons]
        have h1 := g2_prod_le w
        have h2 := g2_sum4 w
        generalize (w.map fun v => Real.cos v ^ 2).prod = P at *
        have h3 : Real.cos u ^ 2 * (Real.cos v ^ 2 * P) ≤ Real.cos u ^ 2 * (Real.cos v ^ 2 * 1) :=
          mul_le_mul_of_nonneg_left (mul_le_mul_of_nonneg_left h1.2 (sq_nonneg _)) (sq_nonneg _)
        nlinarith [sq_nonneg (Real.cos u ^ 2 - Real.cos v ^ 2)]
      · rw [List.zipIdx_cons, List.map_cons, List.sum_cons]
        have h1 := g2_sum_pos (v :: w) (fun a ha => hp a (List.mem_cons_of_mem _ ha)) (0 + 1)
        have h2 := hp u List.mem_cons_self
        have : (0 : ℝ) < (((0 : ℕ) : ℝ) + 1) * u ^ 2 := by positivity
        exact add_pos_of_pos_of_nonneg this h1
  have hF : (g2Problem n).F x = -((x.map fun v => Real.cos v ^ 4).sum - 2 * (x.map fun v => Real.cos v ^ 2).prod) / Real.sqrt (x.zipIdx.map fun p => ((p.2 : ℝ) + 1) * p.1 ^ 2).sum := by
    simp only [g2Problem]
    rw [if_neg key.2.ne', add_zero, abs_of_nonneg (div_nonneg (sub_nonneg.2 key.1) (Real.sqrt_nonneg _)), neg_div]
  refine ⟨key.1, key.2, hF, ?_⟩
  rw [hF]
  exact div_nonpos_of_nonpos_of_nonneg (by linarith [key.1]) (Real.sqrt_nonneg _)

/-- At `(π, π / 2)` the objective is `-1 / sqrt (3 / 2 * π ^ 2)`. -/
example : (g2Problem 2).F [Real.pi, Real.pi / 2] = -1 / Real.sqrt (3 / 2 * Real.pi ^ 2) := by
  have h := Real.pi_gt_three
  have h' := Real.pi_lt_four
  rw [(C132_g2_objective 2 le_rfl [Real.pi, Real.pi / 2] ⟨rfl, fun i hi => ?_⟩).2.2.1]
  · have e : Real.pi ^ 2 + (1 + 1) * (Real.pi / 2) ^ 2 = 3 / 2 * Real.pi ^ 2 := by ring
    simp [e]
    norm_num
  · have hi' : i < 2 := hi
    match i, hi' with
    | 0, _ => simp [g2Problem, List.replicate_succ]; constructor <;> linarith
    | 1, _ => simp [g2Problem, List.replicate_succ]; constructor <;> linarith

end Props
