import Verif.Model.GProblems
import Mathlib.Analysis.MeanInequalities
import Mathlib.Tactic.IntervalCases
import Mathlib.Tactic.Linarith
import Mathlib.Algebra.BigOperators.Fin

/-!
# C132: the documented optima of the G problems
-/

set_option linter.unusedVariables false
set_option linter.unusedSimpArgs false

namespace Props
open Model Spec

theorem list_eq_cols {n : ℕ} (x : List ℝ) (h : x.length = n) : x = (List.range n).map (col x) := by
  apply List.ext_getElem (by simp [h])
  intro i h1 h2
  simp [col, h1]

theorem within_replicate {n : ℕ} {a b : ℝ} {x : List ℝ} (h : Within (List.replicate n a) (List.replicate n b) x) : Cube n a b x := by
  obtain ⟨h1, h2⟩ := h
  rw [List.length_replicate] at h1
  refine ⟨h1, fun v hv => ?_⟩
  obtain ⟨i, hi, rfl⟩ := List.getElem_of_mem hv
  have := h2 i hi
  have hi' : i < n := by omega
  simpa [List.getD, hi, hi'] using this

theorem within_of_cube {n : ℕ} {a b : ℝ} {x : List ℝ} (h : Cube n a b x) : Within (List.replicate n a) (List.replicate n b) x := by
  refine ⟨by rw [h.1, List.length_replicate], fun i hi => ?_⟩
  have hi' : i < n := by rw [h.1] at hi; exact hi
  have := h.2 _ (List.getElem_mem hi)
  simpa [List.getD, hi, hi'] using this

/-- C132, G1: the documented solution is feasible, has the documented value, and no feasible solution has a smaller one. -/
theorem C132_g1 : OptimalAt g1Problem.Feasible g1Problem.F g1Set g1Front := by
  refine ⟨⟨⟨rfl, ?_⟩, ?_, by simp [g1Problem]⟩, ?_, ?_⟩
  · intro i hi
    have : i < 13 := hi
    interval_cases i <;> norm_num [g1Problem, g1Set]
  · norm_num [g1Problem, g1Set, col]
  · norm_num [g1Problem, g1Set, g1Front]
  · rintro y ⟨⟨hl, hb⟩, hg, -⟩
    have hl' : y.length = 13 := hl
    have hy := list_eq_cols y hl'
    have b : ∀ i, i < 13 → (g1Problem.xl.getD i 0 ≤ col y i ∧ col y i ≤ g1Problem.xu.getD i 0) := fun i hi => hb i (by omega)
    have hF : g1Problem.F y = 5 * (col y 0 + col y 1 + col y 2 + col y 3) - 5 * (col y 0 ^ 2 + col y 1 ^ 2 + col y 2 ^ 2 + col y 3 ^ 2) -
        (col y 4 + col y 5 + col y 6 + col y 7 + col y 8 + col y 9 + col y 10 + col y 11 + col y 12) := by
      simp only [g1Problem]
      conv_lhs => rw [hy]
      simp [List.range_succ]
      ring
    rw [hF]
    simp only [g1Problem, List.forall_mem_cons, List.not_mem_nil, false_implies, implies_true] at hg
    obtain ⟨-, -, -, -, -, -, h7, h8, h9, -⟩ := hg
    have b0 := b 0 (by norm_num); have b1 := b 1 (by norm_num); have b2 := b 2 (by norm_num); have b3 := b 3 (by norm_num); have b4 := b 4 (by norm_num)
    have b5 := b 5 (by norm_num); have b6 := b 6 (by norm_num); have b7 := b 7 (by norm_num); have b8 := b 8 (by norm_num); have b12 := b 12 (by norm_num)
    norm_num [g1Problem] at b0 b1 b2 b3 b4 b5 b6 b7 b8 b12
    unfold g1Front
    nlinarith [mul_nonneg b0.1 (sub_nonneg.2 b0.2), mul_nonneg b1.1 (sub_nonneg.2 b1.2), mul_nonneg b2.1 (sub_nonneg.2 b2.2), mul_nonneg b3.1 (sub_nonneg.2 b3.2)]

/-- C132, G3 for every number of variables: the documented solution is feasible, and it is optimal with value `-1`. -/
theorem C132_g3 (n : ℕ) (hn : 1 ≤ n) : OptimalAt (g3Problem n).Feasible (g3Problem n).F (g3Set n) (-1) ∧ gFront (g3Problem n) (g3Set n) = -1 := by
  have hn0 : (0 : ℝ) < n := by exact_mod_cast hn
  have hs : 0 < √(n : ℝ) := Real.sqrt_pos.2 hn0
  have hs1 : 1 ≤ √(n : ℝ) := by rw [Real.one_le_sqrt]; exact_mod_cast hn
  have hv : (g3Problem n).F (g3Set n) = -1 := by
    simp only [g3Problem, g3Set, List.prod_replicate]
    rw [one_div, inv_pow, neg_mul, mul_inv_cancel₀ (by positivity)]
  refine ⟨⟨⟨within_of_cube ⟨by simp [g3Set], ?_⟩, by simp [g3Problem], ?_⟩, hv, ?_⟩, hv⟩
  · intro v hv
    rw [(List.mem_replicate.1 hv).2]
    exact ⟨by positivity, by rw [div_le_one hs]; exact hs1⟩
  · simp only [g3Problem, g3Set, List.mem_singleton, forall_eq, List.map_replicate, List.sum_replicate, nsmul_eq_mul]
    rw [div_pow, Real.sq_sqrt hn0.le]
    field_simp
    ring
  · rintro y ⟨hw, -, hH⟩
    obtain ⟨hl, hb⟩ := within_replicate hw
    simp only [g3Problem, List.mem_singleton, forall_eq] at hH ⊢
    have hsum : (y.map fun v => v ^ 2).sum = 1 := by linarith
    have hz : ∀ v ∈ y, 0 ≤ v := fun v hv => (hb v hv).1
    -- the mean inequality for the squares
    have hprod : y.prod ^ 2 = ∏ i : Fin n, (y[i]'(by rw [hl]; exact i.2)) ^ 2 := by
      rw [Finset.prod_pow]
      congr 1
      subst hl
      exact (Fin.prod_univ_getElem y).symm
    have hsum' : ∑ i : Fin n, (y[i]'(by rw [hl]; exact i.2)) ^ 2 = 1 := by
      rw [← hsum]
      subst hl
      exact Fin.sum_univ_fun_getElem y (fun v => v ^ 2)
    have hgm := Real.geom_mean_le_arith_mean_weighted Finset.univ (fun _ : Fin n => 1 / (n : ℝ)) (fun i => (y[i]'(by rw [hl]; exact i.2)) ^ 2)
      (fun _ _ => by positivity) (by simp; field_simp) (fun i _ => sq_nonneg _)
    rw [← Finset.mul_sum, hsum', mul_one, Real.finsetProd_rpow _ _ (fun i _ => sq_nonneg _), ← hprod] at hgm
    have hp0 : 0 ≤ y.prod ^ 2 := sq_nonneg _
    have h1 : y.prod ^ 2 ≤ (1 / (n : ℝ)) ^ n := by
      generalize y.prod ^ 2 = P at hgm hp0
      calc P = (P ^ (1 / (n : ℝ))) ^ n := by
            rw [← Real.rpow_natCast, ← Real.rpow_mul hp0, one_div_mul_cancel hn0.ne', Real.rpow_one]
        _ ≤ (1 / (n : ℝ)) ^ n := pow_le_pow_left₀ (Real.rpow_nonneg hp0 _) hgm n
    have h2 : (√(n : ℝ) ^ n * y.prod) ^ 2 ≤ 1 := by
      rw [mul_pow, ← pow_mul, Nat.mul_comm n 2, pow_mul, Real.sq_sqrt hn0.le]
      calc (n : ℝ) ^ n * y.prod ^ 2 ≤ (n : ℝ) ^ n * (1 / (n : ℝ)) ^ n := mul_le_mul_of_nonneg_left h1 (by positivity)
        _ = 1 := by rw [← mul_pow, mul_one_div_cancel hn0.ne', one_pow]
    nlinarith

/-- C132, G6: the documented solution is feasible and optimal: it is the point of the feasible region with the smallest value of both variables. -/
theorem C132_g6 : OptimalAt g6Problem.Feasible g6Problem.F g6Set (gFront g6Problem g6Set) := by
  have hs := Real.sqrt_nonneg ((100 : ℝ) - (14.095 - 5) ^ 2)
  have hs2 : √((100 : ℝ) - (14.095 - 5) ^ 2) ^ 2 = 100 - (14.095 - 5) ^ 2 := Real.sq_sqrt (by norm_num)
  have hs5 : √((100 : ℝ) - (14.095 - 5) ^ 2) ≤ 5 := by nlinarith
  refine ⟨⟨⟨rfl, ?_⟩, ?_, by simp [g6Problem]⟩, rfl, ?_⟩
  · intro i hi
    have : i < 2 := hi
    interval_cases i
    · norm_num [g6Problem, g6Set]
    · simp only [g6Problem, g6Set, List.getD_cons_succ, List.getD_cons_zero]
      exact ⟨by linarith, by linarith⟩
  · simp only [g6Problem, g6Set, col, List.getD_cons_succ, List.getD_cons_zero, List.forall_mem_cons, List.not_mem_nil, false_implies, implies_true, and_true]
    exact ⟨by nlinarith, by nlinarith⟩
  · rintro y ⟨⟨hl, hb⟩, hg, -⟩
    simp only [g6Problem, List.forall_mem_cons, List.not_mem_nil, false_implies, implies_true, and_true] at hg
    obtain ⟨h1, h2⟩ := hg
    have hx : 14.095 ≤ col y 0 := by nlinarith
    have hy : 5 - √((100 : ℝ) - (14.095 - 5) ^ 2) ≤ col y 1 := by
      by_contra hc
      push Not at hc
      nlinarith
    simp only [gFront, g6Problem, g6Set, col, List.getD_cons_succ, List.getD_cons_zero] at *
    have a1 : ((14.095 : ℝ) - 10) ^ 3 ≤ (y.getD 0 0 - 10) ^ 3 := pow_le_pow_left₀ (by norm_num) (by linarith) 3
    have a2 : (5 - √((100 : ℝ) - (14.095 - 5) ^ 2) - 20) ^ 3 ≤ (y.getD 1 0 - 20) ^ 3 := by
      have hmono : StrictMono fun t : ℝ => t ^ 3 := Odd.strictMono_pow (by decide)
      exact hmono.monotone (by linarith)
    linarith

/-- C132, G7: the documented solution is feasible, and no feasible solution is better by more than `10⁻⁷`. -/
theorem C132_g7 : g7Problem.OptimalUpTo (1 / 10 ^ 7) g7Set := by
  refine ⟨⟨⟨rfl, ?_⟩, ?_, by simp [g7Problem]⟩, ?_⟩
  · intro i hi
    have : i < 10 := hi
    interval_cases i <;> norm_num [g7Problem, g7Set]
  · norm_num [g7Problem, g7Set, col]
  · rintro y ⟨-, hg, -⟩
    simp only [g7Problem, List.forall_mem_cons, List.not_mem_nil, false_implies, implies_true, and_true] at hg
    obtain ⟨h1, h2, h3, h4, h5, h6, -, -⟩ := hg
    have hv : g7Problem.F g7Set ≤ 24.30620907 := by norm_num [g7Problem, g7Set, col]
    refine (sub_le_sub_right hv _).trans ?_
    simp only [g7Problem]
    generalize col y 0 = y0 at *
    generalize col y 1 = y1 at *
    generalize col y 2 = y2 at *
    generalize col y 3 = y3 at *
    generalize col y 4 = y4 at *
    generalize col y 5 = y5 at *
    generalize col y 6 = y6 at *
    generalize col y 7 = y7 at *
    generalize col y 8 = y8 at *
    generalize col y 9 = y9 at *
    -- the Lagrange function as a sum of squares
    have key : y0 ^ 2 + y1 ^ 2 + y0 * y1 - 14 * y0 - 16 * y1 + (y2 - 10) ^ 2 + 4 * (y3 - 5) ^ 2 + (y4 - 3) ^ 2
        + 2 * (y5 - 1) ^ 2 + 5 * y6 ^ 2 + 7 * (y7 - 11) ^ 2 + 2 * (y8 - 10) ^ 2 + (y9 - 7) ^ 2 + 45
        + (858264523 / 500000000 : ℝ) * (4 * y0 + 5 * y1 - 3 * y6 + 9 * y7 - 105) + (29657659 / 62500000 : ℝ) * (10 * y0 - 8 * y1 - 17 * y6 + 2 * y7) + (171990439 / 125000000 : ℝ) * (-8 * y0 + 2 * y1 + 5 * y8 - 2 * y9 - 12)
        + (20546047 / 1000000000 : ℝ) * (3 * (y0 - 2) ^ 2 + 4 * (y1 - 3) ^ 2 + 2 * y2 ^ 2 - 7 * y3 - 120) + (312025697 / 1000000000 : ℝ) * (5 * y0 ^ 2 + 8 * y1 + (y2 - 6) ^ 2 - 2 * y3 - 40)
        + (71762287 / 250000000 : ℝ) * (y0 ^ 2 + 2 * (y1 - 2) ^ 2 - 2 * y0 * y1 + 14 * y4 - 6 * y5) = (1569626320135869830027403133720474867794959204109 / 64577175148586746864484831920000000000000000000 : ℝ) + ((1454407887 / 500000000 : ℝ) * (y0 - (2591452148964764357 / 1193118137572894178 : ℝ) + (106475426 / 1454407887 : ℝ) * (y1 - (5640355815699074211 / 2386236275145788356 : ℝ))) ^ 2 + (596559068786447089 / 363601971750000000 : ℝ) * (y1 - (5640355815699074211 / 2386236275145788356 : ℝ)) ^ 2 + (1353117791 / 1000000000 : ℝ) * (y2 - (11872154182 / 1353117791 : ℝ)) ^ 2 + (4 : ℝ) * (y3 - (40767873723 / 8000000000 : ℝ)) ^ 2 + (1 : ℝ) * (y4 - (247663991 / 250000000 : ℝ)) ^ 2 + (2 : ℝ) * (y5 - (715286861 / 500000000 : ℝ)) ^ 2 + (5 : ℝ) * (y6 - (6608235193 / 5000000000 : ℝ)) ^ 2 + (7 : ℝ) * (y7 - (9828728107 / 1000000000 : ℝ)) ^ 2 + (2 : ℝ) * (y8 - (828009561 / 100000000 : ℝ)) ^ 2 + (1 : ℝ) * (y9 - (1046990439 / 125000000 : ℝ)) ^ 2) := by ring
    have hsq : 0 ≤ (1454407887 / 500000000 : ℝ) * (y0 - (2591452148964764357 / 1193118137572894178 : ℝ) + (106475426 / 1454407887 : ℝ) * (y1 - (5640355815699074211 / 2386236275145788356 : ℝ))) ^ 2 + (596559068786447089 / 363601971750000000 : ℝ) * (y1 - (5640355815699074211 / 2386236275145788356 : ℝ)) ^ 2 + (1353117791 / 1000000000 : ℝ) * (y2 - (11872154182 / 1353117791 : ℝ)) ^ 2 + (4 : ℝ) * (y3 - (40767873723 / 8000000000 : ℝ)) ^ 2 + (1 : ℝ) * (y4 - (247663991 / 250000000 : ℝ)) ^ 2 + (2 : ℝ) * (y5 - (715286861 / 500000000 : ℝ)) ^ 2 + (5 : ℝ) * (y6 - (6608235193 / 5000000000 : ℝ)) ^ 2 + (7 : ℝ) * (y7 - (9828728107 / 1000000000 : ℝ)) ^ 2 + (2 : ℝ) * (y8 - (828009561 / 100000000 : ℝ)) ^ 2 + (1 : ℝ) * (y9 - (1046990439 / 125000000 : ℝ)) ^ 2 := by positivity
    have hV : (24.306209067 : ℝ) ≤ (1569626320135869830027403133720474867794959204109 / 64577175148586746864484831920000000000000000000 : ℝ) := by norm_num
    have m1 := mul_nonpos_of_nonneg_of_nonpos (by norm_num : 0 ≤ (858264523 / 500000000 : ℝ)) h1
    have m2 := mul_nonpos_of_nonneg_of_nonpos (by norm_num : 0 ≤ (29657659 / 62500000 : ℝ)) h2
    have m3 := mul_nonpos_of_nonneg_of_nonpos (by norm_num : 0 ≤ (171990439 / 125000000 : ℝ)) h3
    have m4 := mul_nonpos_of_nonneg_of_nonpos (by norm_num : 0 ≤ (20546047 / 1000000000 : ℝ)) h4
    have m5 := mul_nonpos_of_nonneg_of_nonpos (by norm_num : 0 ≤ (312025697 / 1000000000 : ℝ)) h5
    have m6 := mul_nonpos_of_nonneg_of_nonpos (by norm_num : 0 ≤ (71762287 / 250000000 : ℝ)) h6
    generalize (1454407887 / 500000000 : ℝ) * (y0 - (2591452148964764357 / 1193118137572894178 : ℝ) + (106475426 / 1454407887 : ℝ) * (y1 - (5640355815699074211 / 2386236275145788356 : ℝ))) ^ 2 + (596559068786447089 / 363601971750000000 : ℝ) * (y1 - (5640355815699074211 / 2386236275145788356 : ℝ)) ^ 2 + (1353117791 / 1000000000 : ℝ) * (y2 - (11872154182 / 1353117791 : ℝ)) ^ 2 + (4 : ℝ) * (y3 - (40767873723 / 8000000000 : ℝ)) ^ 2 + (1 : ℝ) * (y4 - (247663991 / 250000000 : ℝ)) ^ 2 + (2 : ℝ) * (y5 - (715286861 / 500000000 : ℝ)) ^ 2 + (5 : ℝ) * (y6 - (6608235193 / 5000000000 : ℝ)) ^ 2 + (7 : ℝ) * (y7 - (9828728107 / 1000000000 : ℝ)) ^ 2 + (2 : ℝ) * (y8 - (828009561 / 100000000 : ℝ)) ^ 2 + (1 : ℝ) * (y9 - (1046990439 / 125000000 : ℝ)) ^ 2 = S at key hsq
    linarith

/-- C132, G11: the documented solution is feasible and optimal with value `0.75`. -/
theorem C132_g11 : OptimalAt g11Problem.Feasible g11Problem.F g11Set 0.75 ∧ gFront g11Problem g11Set = 0.75 := by
  have hs : 0 ≤ √(0.5 : ℝ) := Real.sqrt_nonneg _
  have hs2 : √(0.5 : ℝ) ^ 2 = 0.5 := Real.sq_sqrt (by norm_num)
  have hs1 : √(0.5 : ℝ) ≤ 1 := Real.sqrt_le_one.2 (by norm_num)
  have hv : g11Problem.F g11Set = 0.75 := by
    simp only [g11Problem, g11Set, col, List.getD_cons_succ, List.getD_cons_zero]
    rw [neg_sq, hs2]; norm_num
  refine ⟨⟨⟨⟨rfl, ?_⟩, ?_, by simp [g11Problem]⟩, hv, ?_⟩, hv⟩
  · intro i hi
    have : i < 2 := hi
    interval_cases i
    · simp only [g11Problem, g11Set, List.getD_cons_zero]
      exact ⟨by linarith, by linarith⟩
    · norm_num [g11Problem, g11Set]
  · simp only [g11Problem, g11Set, col, List.getD_cons_succ, List.getD_cons_zero, List.forall_mem_cons, List.not_mem_nil, false_implies, implies_true, and_true]
    rw [neg_sq, hs2]; norm_num
  · rintro y ⟨-, hg, -⟩
    simp only [g11Problem, List.forall_mem_cons, List.not_mem_nil, false_implies, implies_true, and_true] at hg ⊢
    nlinarith [sq_nonneg (col y 1 - 0.5)]

theorem g12Min_spec (l : List ℝ) : ∀ a : Option ℝ, (∃ v, g12Min a l = some v ∧ (∀ w ∈ l, v ≤ w) ∧ (v ∈ l ∨ a = some v) ∧ ∀ b, a = some b → v ≤ b) ∨ (a = none ∧ l = []) := by
  induction l with
  | nil =>
    intro a
    cases a with
    | none => right; exact ⟨rfl, rfl⟩
    | some b => left; exact ⟨b, rfl, by simp, Or.inr rfl, fun c hc => by rw [Option.some.inj hc]⟩
  | cons w l ih =>
    intro a
    left
    cases a with
    | none =>
      rcases ih (some w) with ⟨v, h1, h2, h3, h4⟩ | ⟨h, -⟩
      · refine ⟨v, h1, ?_, ?_, by simp⟩
        · intro u hu
          rcases List.mem_cons.1 hu with rfl | hu
          · exact h4 _ rfl
          · exact h2 u hu
        · left
          rcases h3 with h3 | h3
          · exact List.mem_cons_of_mem _ h3
          · rw [Option.some.inj h3]; exact List.mem_cons_self
      · cases h
    | some b =>
      rcases ih (some (min b w)) with ⟨v, h1, h2, h3, h4⟩ | ⟨h, -⟩
      · have hv := h4 _ rfl
        refine ⟨v, h1, ?_, ?_, ?_⟩
        · intro u hu
          rcases List.mem_cons.1 hu with rfl | hu
          · exact hv.trans (min_le_right _ _)
          · exact h2 u hu
        · rcases h3 with h3 | h3
          · left; exact List.mem_cons_of_mem _ h3
          · rcases min_choice b w with e | e
            · right; rw [← Option.some.inj h3, e]
            · left; rw [← Option.some.inj h3, e]; exact List.mem_cons_self
        · intro c hc
          rw [← Option.some.inj hc]
          exact hv.trans (min_le_left _ _)
      · cases h

/-- C132, G12: the constraint is satisfied exactly in the 729 closed balls of radius `0.25` around the points with entries `1, …, 9`. -/
theorem C132_g12_feasible (x : List ℝ) : (∀ g ∈ g12Problem.G x, g ≤ 0) ↔
    ∃ i j k : ℕ, (1 ≤ i ∧ i ≤ 9) ∧ (1 ≤ j ∧ j ≤ 9) ∧ (1 ≤ k ∧ k ≤ 9) ∧ (col x 0 - i) ^ 2 + (col x 1 - j) ^ 2 + (col x 2 - k) ^ 2 ≤ 0.25 ^ 2 := by
  have hmem : ∀ v, v ∈ g12Terms x ↔ ∃ i j k : ℕ, (1 ≤ i ∧ i ≤ 9) ∧ (1 ≤ j ∧ j ≤ 9) ∧ (1 ≤ k ∧ k ≤ 9) ∧ v = (col x 0 - i) ^ 2 + (col x 1 - j) ^ 2 + (col x 2 - k) ^ 2 - 0.0625 := by
    intro v
    have hr : ∀ i : ℕ, (1 ≤ i ∧ i < 1 + 9) ↔ (1 ≤ i ∧ i ≤ 9) := by intro i; omega
    unfold g12Terms
    simp only [List.mem_flatMap, List.mem_map, List.mem_range'_1, hr]
    constructor
    · rintro ⟨i, hi, j, hj, k, hk, rfl⟩; exact ⟨i, j, k, hi, hj, hk, rfl⟩
    · rintro ⟨i, j, k, hi, hj, hk, rfl⟩; exact ⟨i, hi, j, hj, k, hk, rfl⟩
  rcases g12Min_spec (g12Terms x) none with ⟨v, h1, h2, h3, -⟩ | ⟨-, h⟩
  · simp only [g12Problem, h1, Option.toList_some, List.mem_singleton, forall_eq]
    constructor
    · intro hv
      rcases h3 with h3 | h3
      · obtain ⟨i, j, k, hi, hj, hk, e⟩ := (hmem v).1 h3
        exact ⟨i, j, k, hi, hj, hk, by rw [e] at hv; norm_num at hv ⊢; linarith⟩
      · cases h3
    · rintro ⟨i, j, k, hi, hj, hk, e⟩
      have := h2 _ ((hmem _).2 ⟨i, j, k, hi, hj, hk, rfl⟩)
      norm_num at e
      linarith
  · have : ((col x 0 - (1 : ℕ)) ^ 2 + (col x 1 - (1 : ℕ)) ^ 2 + (col x 2 - (1 : ℕ)) ^ 2 - 0.0625) ∈ g12Terms x := (hmem _).2 ⟨1, 1, 1, by norm_num, by norm_num, by norm_num, rfl⟩
    rw [h] at this
    cases this

/-- C132, G12: the documented solution is feasible and optimal with value `-1`. -/
theorem C132_g12 : OptimalAt g12Problem.Feasible g12Problem.F g12Set (-1) ∧ gFront g12Problem g12Set = -1 := by
  have hv : g12Problem.F g12Set = -1 := by norm_num [g12Problem, g12Set, col]
  refine ⟨⟨⟨⟨rfl, ?_⟩, ?_, by simp [g12Problem]⟩, hv, ?_⟩, hv⟩
  · intro i hi
    have : i < 3 := hi
    interval_cases i <;> norm_num [g12Problem, g12Set]
  · rw [C132_g12_feasible]
    exact ⟨5, 5, 5, by norm_num, by norm_num, by norm_num, by norm_num [g12Set, col]⟩
  · intro y _
    simp only [g12Problem]
    nlinarith [sq_nonneg (col y 0 - 5), sq_nonneg (col y 1 - 5), sq_nonneg (col y 2 - 5)]

/-- The pooling problem behind G23, in the quality `q` of the pool. -/
theorem g23_bound (q x2 x3 x5 x6 : ℝ) (hq1 : 1 ≤ q) (hq3 : q ≤ 3) (h2 : 0 ≤ x2) (h3 : 0 ≤ x3) (h5 : 0 ≤ x5) (h6 : 0 ≤ x6) (hA : x2 + x5 ≤ 100) (hB : x3 + x6 ≤ 200)
    (hg1 : q * x2 + 2 * x5 ≤ 2.5 * (x2 + x5)) (hg2 : q * x3 + 2 * x6 ≤ 1.5 * (x3 + x6)) : (5 * q - 12) * x2 - x5 + ((5 * q - 6) * x3 + 5 * x6) ≤ 400 := by
  rcases le_or_gt q 1.5 with hq | hq
  · have e1 : (5 * q - 12) * x2 - x5 ≤ 0 := by nlinarith
    have h6' : x6 ≤ (3 - 2 * q) * x3 := by nlinarith
    have hb : 0 ≤ 11 - 5 * q := by linarith
    have ha : 0 ≤ 9 - 5 * q := by linarith
    have hd : 0 < 4 - 2 * q := by linarith
    have m1 := mul_le_mul_of_nonneg_left h6' hb
    have m2 := mul_le_mul_of_nonneg_left hB ha
    have : (4 - 2 * q) * ((5 * q - 6) * x3 + 5 * x6) ≤ (4 - 2 * q) * 400 := by nlinarith
    have := le_of_mul_le_mul_left this hd
    linarith
  · have h30 : x3 ≤ 0 := by
      by_contra hc; push Not at hc
      nlinarith
    have h30 : x3 = 0 := le_antisymm h30 h3
    have h60 : x6 ≤ 0 := by rw [h30] at hg2; linarith
    have e2 : (5 * q - 6) * x3 + 5 * x6 ≤ 0 := by rw [h30]; linarith
    have e1 : (5 * q - 12) * x2 - x5 ≤ 300 := by nlinarith
    linarith

/-- C132, G23: the documented solution is feasible and optimal with value `-400`. -/
theorem C132_g23 : OptimalAt g23Problem.Feasible g23Problem.F g23Set (-400) ∧ gFront g23Problem g23Set = -400 := by
  have hv : g23Problem.F g23Set = -400 := by norm_num [g23Problem, g23Set, col]
  refine ⟨⟨⟨⟨rfl, ?_⟩, ?_, ?_⟩, hv, ?_⟩, hv⟩
  · intro i hi
    have : i < 9 := hi
    interval_cases i <;> norm_num [g23Problem, g23Set]
  · norm_num [g23Problem, g23Set, col]
  · norm_num [g23Problem, g23Set, col]
  · rintro y ⟨⟨hl, hb⟩, hg, hh⟩
    have b : ∀ i, i < 9 → (g23Problem.xl.getD i 0 ≤ col y i ∧ col y i ≤ g23Problem.xu.getD i 0) := fun i hi => hb i (by rw [hl]; exact hi)
    simp only [g23Problem, List.forall_mem_cons, List.not_mem_nil, false_implies, implies_true, and_true] at hg hh ⊢
    obtain ⟨g1, g2⟩ := hg
    obtain ⟨h1, h2, h3, h4⟩ := hh
    have b2 := b 2 (by norm_num); have b3 := b 3 (by norm_num); have b4 := b 4 (by norm_num); have b5 := b 5 (by norm_num); have b6 := b 6 (by norm_num)
    have b7 := b 7 (by norm_num); have b8 := b 8 (by norm_num)
    norm_num [g23Problem] at b2 b3 b4 b5 b6 b7 b8
    have := g23_bound (100 * col y 8) (col y 2) (col y 3) (col y 5) (col y 6) (by linarith) (by linarith) b2.1 b3.1 b5.1 b6.1 (by linarith) (by linarith) (by nlinarith) (by nlinarith)
    have e4 : col y 4 = col y 2 + col y 5 := by linarith
    have e7 : col y 7 = col y 3 + col y 6 := by linarith
    rw [e4, e7]
    norm_num at h2
    have c0 : 6 * col y 0 + 16 * col y 1 = (col y 2 + col y 3) * (21 - 5 * (100 * col y 8)) := by linarith [h1, h2]
    nlinarith

/-- C132, G24: no feasible solution is better than the documented one by more than `10⁻⁷`, and its constraint values are at most `10⁻¹²` (over the real numbers it is not feasible
exactly, which is what is missing here). -/
theorem C132_g24_partial : Within g24Problem.xl g24Problem.xu g24Set ∧ (∀ g ∈ g24Problem.G g24Set, g ≤ 1 / 10 ^ 12) ∧
    ∀ y, g24Problem.Feasible y → g24Problem.F g24Set - 1 / 10 ^ 7 ≤ g24Problem.F y := by
  refine ⟨⟨rfl, ?_⟩, ?_, ?_⟩
  · intro i hi
    have : i < 2 := hi
    interval_cases i <;> norm_num [g24Problem, g24Set]
  · norm_num [g24Problem, g24Set, col]
  · rintro y ⟨⟨hl, hb⟩, hg, -⟩
    have b : ∀ i, i < 2 → (g24Problem.xl.getD i 0 ≤ col y i ∧ col y i ≤ g24Problem.xu.getD i 0) := fun i hi => hb i (by rw [hl]; exact hi)
    have b0 := b 0 (by norm_num); have b1 := b 1 (by norm_num)
    have hv : g24Problem.F g24Set = -(2.329520197477607 + 3.17849307411768) := by norm_num [g24Problem, g24Set, col]
    rw [hv]
    simp only [g24Problem, List.forall_mem_cons, List.not_mem_nil, false_implies, implies_true, and_true] at hg ⊢
    norm_num [g24Problem] at b0 b1
    obtain ⟨g1, g2⟩ := hg
    generalize col y 0 = u at *
    generalize col y 1 = v at *
    rcases le_or_gt u 2.3295202 with hu | hu
    · have : u + 2 + 2 * u ^ 2 * (u - 2) ^ 2 ≤ 5.50801330 := by
        nlinarith [mul_nonneg b0.1 (sub_nonneg.2 hu), mul_nonneg (mul_nonneg b0.1 (sub_nonneg.2 hu)) (sq_nonneg (u - 1)), mul_nonneg (sub_nonneg.2 hu) (sq_nonneg (u - 1.3))]
      nlinarith
    · have : u + 4 * (u - 1) ^ 2 * (u - 3) ^ 2 ≤ 5.50801330 := by
        nlinarith [mul_nonneg (sub_nonneg.2 hu.le) (sub_nonneg.2 b0.2)]
      nlinarith

/-- C132: for every row the evaluations set as many constraint values as the problems declare (`n_ieq_constr`, `n_eq_constr`; g.py:28, 132, 207, 228, 382, 399, 1231, 1256). -/
theorem C132_shapes (n : ℕ) (x : List ℝ) :
    ((g1Problem.G x).length, (g1Problem.H x).length) = (9, 0) ∧ (((g3Problem n).G x).length, ((g3Problem n).H x).length) = (0, 1) ∧
    ((g6Problem.G x).length, (g6Problem.H x).length) = (2, 0) ∧ ((g7Problem.G x).length, (g7Problem.H x).length) = (8, 0) ∧
    ((g11Problem.G x).length, (g11Problem.H x).length) = (1, 0) ∧ ((g12Problem.G x).length, (g12Problem.H x).length) = (1, 0) ∧
    ((g23Problem.G x).length, (g23Problem.H x).length) = (2, 4) ∧ ((g24Problem.G x).length, (g24Problem.H x).length) = (2, 0) := by
  refine ⟨rfl, rfl, rfl, rfl, rfl, ?_, rfl, rfl⟩
  rcases g12Min_spec (g12Terms x) none with ⟨v, h, -⟩ | ⟨-, h⟩
  · simp [g12Problem, h]
  · have := congrArg List.length h
    simp [g12Terms] at this

example : g1Problem.Feasible g1Set := C132_g1.1

end Props
