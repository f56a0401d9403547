import Verif.Model.Combinatorial
import Verif.Props.Problem
import Mathlib.Algebra.BigOperators.Fin
import Mathlib.Data.Fin.VecNotation
import Mathlib.Algebra.Order.BigOperators.Group.Finset
import Mathlib.Data.Rat.Defs
import Mathlib.Algebra.Order.Ring.Rat
import Mathlib.Tactic.Linarith

/-! # C107: the knapsack problem -/

set_option linter.unusedSimpArgs false
set_option linter.unusedVariables false
set_option linter.unusedSectionVars false

namespace Props

open Model Lemmas

variable {α : Type*} [CommRing α]

/-- The values of the chosen items, added up. -/
def chosenSum {n : ℕ} (P : Fin n → α) (S : Finset (Fin n)) : α := ∑ i ∈ S, P i

/-- The row of variables that chooses the items of `S`. -/
def packing {n : ℕ} (S : Finset (Fin n)) : List Bool := List.ofFn fun i => decide (i ∈ S)

theorem knapSum_eq {n : ℕ} (P : Fin n → α) (S : Finset (Fin n)) : knapSum (List.ofFn P) (packing S) = chosenSum P S := by
  unfold knapSum packing chosenSum
  have : List.zipWith (fun p b => p * boolVal b) (List.ofFn P) (List.ofFn fun i => decide (i ∈ S)) =
      List.ofFn fun i => if i ∈ S then P i else 0 := by
    apply List.ext_getElem
    · simp
    · intro i h1 h2
      simp only [List.getElem_zipWith, List.getElem_ofFn, boolVal]
      split_ifs with h <;> simp_all
  rw [this, List.sum_ofFn, Finset.sum_ite_mem]
  simp

theorem packing_surjective {n : ℕ} (x : List Bool) (h : x.length = n) : ∃ S : Finset (Fin n), packing S = x := by
  subst h
  refine ⟨Finset.univ.filter fun i => x.get i = true, ?_⟩
  apply List.ext_getElem
  · simp [packing]
  · intro i h1 h2
    simp [packing]

/-- **C107 (values).** `Problem.evaluate` of the knapsack problem returns, for every list of packings, the negated profits in one
column of objectives and the weights minus the capacity in one column of constraints. -/
theorem C107_values {n : ℕ} (W P : Fin n → α) (C inf : α) (isNan : α → Bool) (Ss : List (Finset (Fin n))) :
    probEvaluateValues (knapCfg n) inf isNan (knapEval (List.ofFn W) (List.ofFn P) C) (.matrix (Ss.map packing)) none =
      some [⟨[Ss.length, 1], Ss.map fun S => -chosenSum P S⟩, ⟨[Ss.length, 1], Ss.map fun S => chosenSum W S - C⟩] := by
  have hlen : (Ss.map (packing (n := n))).all (fun x => x.length == n) = true := by
    simp [packing]
  simp [probEvaluateValues, probEvaluate, probDo, knapEval, knapCfg, defaultReturn, evalVectorized, emptyOut, kSet, formatDict, formatSet,
    formatValue, defaultShape, NArr.reshape, formatMissing, kGet, finishDict, finishValue, UVal.toArr, hlen, packing,
    List.map_map, Function.comp_def]
  exact ⟨fun S _ => knapSum_eq P S, fun S _ => knapSum_eq W S⟩

/-- **C107 (every row is a packing).** The rows of the right length are exactly the packings. -/
theorem C107_rows {n : ℕ} (x : List Bool) : x.length = n ↔ ∃ S : Finset (Fin n), packing S = x :=
  ⟨packing_surjective x, by rintro ⟨S, rfl⟩; simp [packing]⟩

/-- **C107 (several objectives, refuted).** `MultiObjectiveKnapsack` declares one objective but computes two: every evaluation of at
least one packing raises. -/
theorem C107_multi_refuted {n : ℕ} (W P : List α) (C inf : α) (isNan : α → Bool) (xs : List (List Bool)) (hne : xs ≠ []) :
    probEvaluateValues (knapCfg n) inf isNan (knapMultiEval W P C) (.matrix xs) none = none := by
  have hl : 0 < xs.length := List.length_pos_iff.2 hne
  have : (xs.flatMap fun x => [-knapSum P x, (x.map boolVal).sum]).length = 2 * xs.length := by
    clear hne hl
    induction xs with
    | nil => rfl
    | cons x xs ih => rw [List.flatMap_cons, List.length_append, ih]; simp; ring
  have h2 : ¬ (2 * xs.length = xs.length) := by omega
  simp only [probEvaluateValues, probEvaluate]
  split_ifs
  · simp only [probDo, knapMultiEval, knapCfg, defaultReturn, evalVectorized, emptyOut, kSet, formatDict, formatSet, formatValue, defaultShape,
      NArr.reshape, this, List.foldl_cons, List.foldl_nil, Option.getD_none, List.cons_append, List.nil_append, Nat.lt_irrefl, if_false, if_true,
      Nat.zero_lt_one, List.append_nil, List.prod_cons, List.prod_nil, mul_one, h2, reduceCtorEq, Option.map_none, Option.bind_none]
  · rfl

/-- **C107 (several objectives).** The two objectives it computes are the negated profit and the number of items: declaring two
objectives would be enough. -/
theorem C107_multi_values {n : ℕ} (W P : Fin n → α) (C inf : α) (isNan : α → Bool) (Ss : List (Finset (Fin n))) :
    probEvaluateValues { (knapCfg n : ProbCfg α) with nObj := 2 } inf isNan (knapMultiEval (List.ofFn W) (List.ofFn P) C) (.matrix (Ss.map packing)) none =
      some [⟨[Ss.length, 2], Ss.flatMap fun S => [-chosenSum P S, (S.card : α)]⟩, ⟨[Ss.length, 1], Ss.map fun S => chosenSum W S - C⟩] := by
  have hcard : ∀ S : Finset (Fin n), ((packing S).map boolVal).sum = (S.card : α) := by
    intro S
    have h1 : (packing S).map (boolVal (α := α)) = List.ofFn fun i => if i ∈ S then (1 : α) else 0 := by
      unfold packing
      rw [List.map_ofFn]
      congr 1
      funext i
      by_cases hi : i ∈ S <;> simp [boolVal, hi]
    rw [h1, List.sum_ofFn, Finset.sum_ite_mem]
    simp
  have hlen : (Ss.map (packing (n := n))).all (fun x => x.length == n) = true := by
    simp [packing]
  have hfl : (List.flatMap (fun x => [-knapSum (List.ofFn P) x, (x.map boolVal).sum]) (Ss.map packing)) =
      Ss.flatMap fun S => [-chosenSum P S, (S.card : α)] := by
    rw [List.flatMap_map]
    congr 1
    funext S
    rw [knapSum_eq, hcard]
  have hfll : (Ss.flatMap fun S => [-chosenSum P S, (S.card : α)]).length = Ss.length * 2 := by
    simp
  have hW : (Ss.map (packing (n := n))).map (fun x => knapSum (List.ofFn W) x - C) = Ss.map fun S => chosenSum W S - C := by
    rw [List.map_map]
    exact List.map_congr_left fun S _ => by simp [knapSum_eq]
  simp only [probEvaluateValues, probEvaluate, probDo, knapMultiEval, knapCfg, evalVectorized, hfl, hW]
  simp [defaultReturn, emptyOut, kSet, formatDict, formatSet,
    formatValue, defaultShape, NArr.reshape, formatMissing, kGet, finishDict, finishValue, UVal.toArr, packing, hfll]

section Order

variable [LinearOrder α] [IsStrictOrderedRing α]

/-- A packing that fits. -/
def Fits {n : ℕ} (W : Fin n → α) (C : α) (S : Finset (Fin n)) : Prop := chosenSum W S ≤ C

/-- **C107 (optimum).** A packing is feasible (no positive constraint value) exactly if it fits, and it has the least objective value
among the feasible ones exactly if it has the greatest profit among the packings that fit. -/
theorem C107_optimum {n : ℕ} (W P : Fin n → α) (C : α) (S : Finset (Fin n)) :
    (knapSum (List.ofFn W) (packing S) - C ≤ 0 ↔ Fits W C S) ∧
    ((∀ x : List Bool, x.length = n → knapSum (List.ofFn W) x - C ≤ 0 → -knapSum (List.ofFn P) (packing S) ≤ -knapSum (List.ofFn P) x) ↔
      ∀ T, Fits W C T → chosenSum P T ≤ chosenSum P S) := by
  refine ⟨by rw [knapSum_eq, sub_nonpos]; rfl, ?_⟩
  constructor
  · intro h T hT
    have := h (packing T) (by simp [packing]) (by rw [knapSum_eq, sub_nonpos]; exact hT)
    rw [knapSum_eq, knapSum_eq] at this
    exact neg_le_neg_iff.1 this
  · intro h x hx hf
    obtain ⟨T, rfl⟩ := packing_surjective x hx
    rw [knapSum_eq, sub_nonpos] at hf
    rw [knapSum_eq, knapSum_eq]
    exact neg_le_neg (h T hf)

/-- **C107 (more items).** Adding items that have a profit (a weight) never makes the objective (the constraint) smaller (larger). -/
theorem C107_monotone {n : ℕ} (W P : Fin n → α) (C : α) (S T : Finset (Fin n)) (hST : S ⊆ T) (hP : ∀ i, 0 ≤ P i) (hW : ∀ i, 0 ≤ W i) :
    -knapSum (List.ofFn P) (packing T) ≤ -knapSum (List.ofFn P) (packing S) ∧
      knapSum (List.ofFn W) (packing S) - C ≤ knapSum (List.ofFn W) (packing T) - C := by
  rw [knapSum_eq, knapSum_eq, knapSum_eq, knapSum_eq]
  exact ⟨neg_le_neg (Finset.sum_le_sum_of_subset_of_nonneg hST fun i _ _ => hP i),
    sub_le_sub_right (Finset.sum_le_sum_of_subset_of_nonneg hST fun i _ _ => hW i) _⟩

end Order

/-- **C107 (random instances).** In a problem created by `create_random_knapsack_problem` (positive weights, at least one item) packing
nothing is feasible and packing everything is not. -/
theorem C107_random {n : ℕ} (W : Fin n → ℕ) (hn : 0 < n) (hW : ∀ i, 1 ≤ W i) :
    Fits (fun i => (W i : ℤ)) (knapCapacity (List.ofFn W) : ℤ) ∅ ∧
    ¬ Fits (fun i => (W i : ℤ)) (knapCapacity (List.ofFn W) : ℤ) Finset.univ := by
  unfold Fits chosenSum knapCapacity
  constructor
  · simp only [Finset.sum_empty]; exact Int.natCast_nonneg _
  · rw [not_le, ← Nat.cast_sum, Nat.cast_lt, List.sum_ofFn]
    have : 1 ≤ ∑ i, W i := le_trans (hW ⟨0, hn⟩) (Finset.single_le_sum (f := W) (fun _ _ => Nat.zero_le _) (Finset.mem_univ _))
    omega

/-- **C107 (random problems).** The capacity is a tenth of the total weight (rounded down); with at least ten items some item fits. -/
theorem C107_random_capacity {n : ℕ} (W : Fin n → ℕ) :
    (10 * knapCapacity (List.ofFn W) ≤ ∑ i, W i ∧ ∑ i, W i < 10 * (knapCapacity (List.ofFn W) + 1)) ∧
    (10 ≤ n → ∃ i, Fits (fun i => (W i : ℤ)) (knapCapacity (List.ofFn W) : ℤ) {i}) := by
  unfold knapCapacity
  rw [List.sum_ofFn]
  refine ⟨⟨by omega, by omega⟩, fun hn => ?_⟩
  by_contra hcon
  have hall : ∀ i, (∑ i, W i) / 10 + 1 ≤ W i := by
    intro i
    by_contra hi
    refine hcon ⟨i, ?_⟩
    unfold Fits chosenSum
    rw [Finset.sum_singleton]
    exact_mod_cast (by omega : W i ≤ (∑ i, W i) / 10)
  have hs : n * ((∑ i, W i) / 10 + 1) ≤ ∑ i, W i := by
    have := Finset.card_nsmul_le_sum Finset.univ W ((∑ i, W i) / 10 + 1) (fun i _ => hall i)
    simpa using this
  have : 10 * ((∑ i, W i) / 10 + 1) ≤ n * ((∑ i, W i) / 10 + 1) := Nat.mul_le_mul_right _ hn
  omega

example : probEvaluateValues (knapCfg 3) (1000 : ℤ) (fun _ => false) (knapEval [2, 3, 4] [5, 6, 7] 6) (.matrix [[true, false, true], [true, true, true]]) none =
    some [⟨[2, 1], [-12, -18]⟩, ⟨[2, 1], [0, 3]⟩] := by decide +kernel

example : Fits (fun i : Fin 3 => (![2, 3, 4] i : ℤ)) 6 {0, 2} ∧ ¬ Fits (fun i : Fin 3 => (![2, 3, 4] i : ℤ)) 6 {0, 1, 2} := by
  unfold Fits chosenSum; decide +kernel

end Props
