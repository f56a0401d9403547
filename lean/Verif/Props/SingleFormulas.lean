import Verif.Props.SingleProblems
import Mathlib.Algebra.BigOperators.Fin

/-!
# C80: the objective functions are the ones of the literature
-/

set_option linter.unusedSimpArgs false

namespace Props
open Model Spec

theorem sum_ofFn_map {n : ℕ} (x : Fin n → ℝ) (f : ℝ → ℝ) : ((List.ofFn x).map f).sum = ∑ i, f (x i) := by
  rw [List.map_ofFn, List.sum_ofFn]; rfl

theorem zipIdx_ofFn {n : ℕ} (x : Fin n → ℝ) (f : ℝ × ℕ → ℝ) : (List.ofFn x).zipIdx.map f = List.ofFn fun i => f (x i, i.val) := by
  refine List.ext_getElem (by simp) fun i h1 h2 => ?_
  simp

/-- C80. The formulas of the literature, with the variables numbered from 1, for every number of variables. -/
theorem C80_formulas (n : ℕ) (x : Fin n → ℝ) :
    sphere (List.ofFn x) = ∑ i, (x i - 1 / 2) ^ 2 ∧
    (∀ A, rastrigin A (List.ofFn x) = A * n + ∑ i, (x i ^ 2 - A * Real.cos (2 * Real.pi * x i))) ∧
    (∀ a b c, ackley a b c (List.ofFn x) =
      a - a * Real.exp (-b * √((∑ i, x i ^ 2) / n)) + Real.exp 1 - Real.exp ((∑ i, Real.cos (c * x i)) / n)) ∧
    griewank (List.ofFn x) = 1 + (∑ i, x i ^ 2) / 4000 - ∏ i : Fin n, Real.cos (x i / √((i.val : ℝ) + 1)) ∧
    zakharov (List.ofFn x) = ∑ i, x i ^ 2 + (∑ i : Fin n, ((i.val : ℝ) + 1) * x i / 2) ^ 2 + (∑ i : Fin n, ((i.val : ℝ) + 1) * x i / 2) ^ 4 ∧
    schwefel (List.ofFn x) = 418.9829 * n - ∑ i, x i * Real.sin (√|x i|) := by
  refine ⟨?_, fun A => ?_, fun a b c => ?_, ?_, ?_, ?_⟩
  · rw [sphere, sum_ofFn_map]
  · rw [rastrigin, sum_ofFn_map, List.length_ofFn]
  · rw [ackley, sum_ofFn_map, sum_ofFn_map, List.length_ofFn]
    have e : ∑ i, x i * x i = ∑ i, x i ^ 2 := Finset.sum_congr rfl fun i _ => by ring
    rw [e, one_div_mul_eq_div, one_div_mul_eq_div]
    rw [show -1 * b = -b by ring]
    ring
  · rw [griewank, sum_ofFn_map, zipIdx_ofFn, List.prod_ofFn]
    ring
  · have hA : zakharovA (List.ofFn x) = ∑ i : Fin n, ((i.val : ℝ) + 1) * x i / 2 := by
      rw [zakharovA, zipIdx_ofFn, List.sum_ofFn]
      exact Finset.sum_congr rfl fun i _ => by ring
    rw [zakharov, sum_ofFn_map, hA]
  · rw [schwefel, sum_ofFn_map, List.length_ofFn]

example : zakharov [1, 2] = 5 + (5 / 2) ^ 2 + (5 / 2) ^ 4 := by norm_num [zakharov, zakharovA, List.zipIdx]

/-- C80, Rosenbrock's function. -/
theorem C80_rosenbrock_formula (n : ℕ) (x : Fin (n + 2) → ℝ) :
    rosenbrock (List.ofFn x) = some (∑ i : Fin (n + 1), (100 * (x i.succ - x i.castSucc ^ 2) ^ 2 + (1 - x i.castSucc) ^ 2)) := by
  rw [rosenbrock, if_neg (by simp)]
  congr 1
  rw [List.length_ofFn, show n + 2 - 1 = n + 1 by omega, ← List.sum_ofFn]
  congr 1
  refine List.ext_getElem (by simp) fun i h1 h2 => ?_
  simp only [List.length_map, List.length_range, List.length_ofFn] at h1 h2
  simp only [List.getElem_map, List.getElem_range, List.getElem_ofFn]
  rw [List.getD_eq_getElem _ _ (by simp; omega), List.getD_eq_getElem _ _ (by simp; omega)]
  simp only [List.getElem_ofFn]
  rfl

/-- C80, Himmelblau: all four reported solutions are within the bounds, the value of each is within `2e-11` of the optimum, and they
are far from each other (each coordinate pair differs by more than 1 in some coordinate). -/
theorem C80_himmelblau_near : (∀ x ∈ himmelblauSet, Cube 2 (-6) 6 x ∧ himmelblau x ≤ himmelblauFront + 2e-11) ∧
    himmelblauSet.Pairwise fun x y => 1 < |x.getD 0 0 - y.getD 0 0| ∨ 1 < |x.getD 1 0 - y.getD 1 0| := by
  constructor
  · intro x hx
    simp only [himmelblauSet, List.mem_cons, List.not_mem_nil, or_false] at hx
    rcases hx with rfl | rfl | rfl | rfl <;>
    · refine ⟨⟨rfl, ?_⟩, ?_⟩
      · intro v hv
        simp only [List.mem_cons, List.not_mem_nil, or_false] at hv
        rcases hv with rfl | rfl <;> norm_num
      · norm_num [himmelblau, himmelblauFront]
  · simp only [himmelblauSet, List.pairwise_cons, List.mem_cons, List.not_mem_nil, or_false, List.getD_cons_zero, List.getD_cons_succ, forall_eq_or_imp, forall_eq,
      lt_abs]
    norm_num

end Props
