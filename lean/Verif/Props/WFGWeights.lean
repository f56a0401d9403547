import Verif.Props.WFGSets

/-!
# C133, continued: the weights of the last reduction of WFG1
-/

namespace Props
open Spec Model Finset

set_option linter.unusedVariables false

private theorem ww_zip (f : ℕ → ℝ) (l : ℕ) (y : List ℝ) (h : y.length = l) :
    (List.zipWith (fun a b => a * b) y ((List.range l).map f)).sum = ∑ j ∈ range l, f j * y.getD j 0 := by
  induction y generalizing f l with
  | nil => subst h; simp
  | cons a y ih =>
    subst h
    rw [List.length_cons, List.range_succ_eq_map, List.map_cons, List.map_map, List.zipWith_cons_cons, List.sum_cons, ih (f ∘ Nat.succ) y.length rfl, sum_range_succ']
    simp [Function.comp, mul_comm, add_comm]

/-- C133, WFG1: the distance parameter is the weighted mean of the transformed distance variables, in which variable `j` (counted from one over all variables) has the weight `2j`. -/
theorem C133_wfg1_weights (m k l : ℕ) (hl : 0 < l) (y : List ℝ) (hy : Cube (k + l) 0 1 y) :
    (wfg1T4 m k y).2 * ∑ j ∈ range l, 2 * ((k : ℝ) + j + 1) = ∑ j ∈ range l, 2 * ((k : ℝ) + j + 1) * y.getD (k + j) 0 := by
  have hw : (wfgWeights y.length).drop k = (List.range l).map fun j : ℕ => 2 * ((k : ℝ) + j + 1) := by
    rw [hy.1]
    apply List.ext_getElem
    · simp [wfgWeights]
    · intro i h1 h2
      simp [wfgWeights]
  have hd : (y.drop k).length = l := by rw [List.length_drop, hy.1]; omega
  have hpos : ∀ v ∈ (List.range l).map fun j : ℕ => 2 * ((k : ℝ) + j + 1), 0 < v := by
    intro v hv
    obtain ⟨i, _, rfl⟩ := List.mem_map.1 hv
    positivity
  have hc : Cube l 0 1 (y.drop k) := ⟨hd, fun v hv => hy.2 v (List.mem_of_mem_drop hv)⟩
  have ⟨h1, h2, h3⟩ := zip_bounds (y.drop k) _ (by simp [hd]) hc.2 hpos
  have hS : ((List.range l).map fun j : ℕ => 2 * ((k : ℝ) + j + 1)).sum = ∑ j ∈ range l, 2 * ((k : ℝ) + j + 1) := by
    rw [← List.sum_toFinset _ (List.nodup_range), List.toFinset_range]
  have hp : 0 < ((List.range l).map fun j : ℕ => 2 * ((k : ℝ) + j + 1)).sum := List.sum_pos _ hpos (by simp; omega)
  simp only [wfg1T4]
  rw [hw, wfgWeighted, correct01_unit ⟨div_nonneg h1 hp.le, (div_le_one hp).2 h2⟩, ← hS, div_mul_cancel₀ _ hp.ne', ww_zip _ l _ hd]
  refine sum_congr rfl fun j _ => ?_
  simp [List.getD_eq_getElem?_getD]

/-- Not vacuous: two distance variables after one position variable have the weights 4 and 6. -/
example : (wfg1T4 2 1 [0, 1, 0]).2 = 4 / 10 := by
  have := C133_wfg1_weights 2 1 2 (by norm_num) [0, 1, 0] ⟨rfl, by simp⟩
  norm_num [sum_range_succ] at this
  linarith

end Props
