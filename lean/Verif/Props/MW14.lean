import Verif.Model.MW14
import Verif.Props.MWScaled
import Mathlib.Analysis.Complex.ExponentialBounds
import Mathlib.Data.List.GetD

/-!
# C130: MW14
-/

set_option linter.unusedVariables false
set_option linter.unusedSimpArgs false

namespace Props
open Model Spec

/-- The surface of MW14: the position variables and the mean of `6 - exp y - 1.5 sin(1.1 pi y^2)`. -/
noncomputable def mw14Surface {k : ℕ} (y : Fin k → ℝ) : Fin (k + 1) → ℝ :=
  Fin.snoc y (1 / k * ∑ j, (6 - Real.exp (y j) - 1.5 * Real.sin (1.1 * Real.pi * y j ^ 2)))

theorem exp_three_halves : Real.exp 1.5 ≤ 4.5 := by
  have h1 := Real.exp_one_lt_d9
  have h2 : Real.exp 1.5 = Real.exp 1 * Real.exp (1 / 2) := by rw [← Real.exp_add]; norm_num
  have h3 : Real.exp (1 / 2) * Real.exp (1 / 2) = Real.exp 1 := by rw [← Real.exp_add]; norm_num
  have h4 := Real.exp_pos (1 / 2)
  have h5 : Real.exp (1 / 2) ≤ 1.65 := by
    by_contra hc
    push Not at hc
    norm_num at hc h1
    nlinarith
  rw [h2]
  norm_num at h1 h5 ⊢
  nlinarith

theorem mw14_term_nonneg (v : ℝ) (h1 : v ≤ 1.5) : 0 ≤ 6 - Real.exp v - mw14LA v := by
  have a := Real.exp_le_exp.2 h1
  have b := exp_three_halves
  have c := Real.sin_le_one (1.1 * Real.pi * v ^ 2)
  unfold mw14LA
  generalize Real.sin (1.1 * Real.pi * v ^ 2) = q at c ⊢
  have d : (4.5 : ℝ) = 9 / 2 := by norm_num
  have e : (1.5 : ℝ) * q = 3 / 2 * q := by norm_num
  rw [d] at b
  rw [e]
  linarith

theorem mw14_drop_one (k : ℕ) (hk : 1 ≤ k) (y : Fin k → ℝ) (hy : ∀ j, 0 ≤ y j ∧ y j ≤ 1.5) (n : ℕ) (hn : k < n) :
    ∃ l : List ℝ, Cube n 0 1.5 (List.ofFn y ++ l) ∧ mwG3 ((List.ofFn y ++ l).drop (k - 1)) = 1 := by
  set b := y ⟨k - 1, by omega⟩ with hb
  obtain ⟨b0, b1⟩ := hy ⟨k - 1, by omega⟩
  norm_num at b1
  obtain ⟨l, hl, hlb, hg⟩ := mwG3_tail (n - k - 1) (1 - (b - 1 / 2) * (b - 1 / 2)) (by nlinarith) (by nlinarith [mul_self_nonneg (b - 1 / 2)])
  refine ⟨(1 - (b - 1 / 2) * (b - 1 / 2)) :: l, ⟨by simp [hl]; omega, ?_⟩, ?_⟩
  · intro v hv
    rcases List.mem_append.1 hv with hv | hv
    · obtain ⟨j, rfl⟩ := (List.mem_ofFn' _ _).1 hv
      exact hy j
    · rcases List.mem_cons.1 hv with rfl | hv
      · exact ⟨by nlinarith, by norm_num; nlinarith [mul_self_nonneg (b - 1 / 2)]⟩
      · exact ⟨(hlb v hv).1, by have := (hlb v hv).2; norm_num; linarith⟩
  · have hd : (List.ofFn y).drop (k - 1) = [b] := by
      apply List.ext_getElem
      · simp; omega
      · intro i h1 h2
        simp at h2
        subst h2
        simp [hb]
    rw [List.drop_append_of_le_length (by simp), hd, List.singleton_append, mwG3, hg]
    ring

/-- C130, MW14: the constraint removes nothing from the front: the Pareto-optimal objective vectors are the non-dominated points of the surface. -/
theorem C130_mw14 (k n : ℕ) (hk : 1 ≤ k) (hn : k < n) (f : Fin (k + 1) → ℝ) :
    ParetoPoint (fun x => Cube n 0 1.5 x ∧ mw14Con (mw14 k x) ≤ 0) (mw14 k) f ↔
      (∃ y : Fin k → ℝ, (∀ j, 0 ≤ y j ∧ y j ≤ 1.5) ∧ mw14Surface y = f) ∧
        ∀ y : Fin k → ℝ, (∀ j, 0 ≤ y j ∧ y j ≤ 1.5) → ¬ Dominates (mw14Surface y) f := by
  have hk0 : (0 : ℝ) < k := by exact_mod_cast hk
  have att : ∀ y : Fin k → ℝ, (∀ j, 0 ≤ y j ∧ y j ≤ 1.5) → ∃ x, (Cube n 0 1.5 x ∧ mw14Con (mw14 k x) ≤ 0) ∧ mw14 k x = mw14Surface y := by
    intro y hy
    obtain ⟨l, hl, hg⟩ := mw14_drop_one k hk y hy n hn
    have hget : ∀ j : Fin k, (List.ofFn y ++ l).getD j 0 = y j := by
      intro j
      rw [List.getD_append _ _ _ _ (by simp), List.getD_eq_getElem _ _ (by simp)]
      simp
    have hF : mw14 k (List.ofFn y ++ l) = mw14Surface y := by
      funext i
      refine Fin.lastCases ?_ (fun j => ?_) i
      · simp only [mw14, hg, mw14Surface, Fin.snoc_last, Fin.val_last, lt_irrefl, if_false, hget, mw14LA]
      · simp only [mw14, mw14Surface, Fin.snoc_castSucc, Fin.val_castSucc, j.2, if_true, hget]
    refine ⟨_, ⟨hl, ?_⟩, hF⟩
    rw [hF]
    simp only [mw14Con, mw14Surface, Fin.snoc_last, Fin.snoc_castSucc]
    rw [← mul_sub, ← Finset.sum_sub_distrib]
    refine mul_nonpos_of_nonneg_of_nonpos (by positivity) (Finset.sum_nonpos fun j _ => ?_)
    have := Real.quadratic_le_exp_of_nonneg (hy j).1
    unfold mw14LA
    norm_num
    nlinarith
  have low : ∀ x, Cube n 0 1.5 x → ∃ y : Fin k → ℝ, (∀ j, 0 ≤ y j ∧ y j ≤ 1.5) ∧ ∀ i, mw14Surface y i ≤ mw14 k x i := by
    intro x hx
    have hb : ∀ j : Fin k, 0 ≤ x.getD j 0 ∧ x.getD j 0 ≤ 1.5 := by
      intro j
      rw [List.getD_eq_getElem _ _ (by have := hx.1; have := j.2; omega)]
      exact hx.2 _ (List.getElem_mem _)
    refine ⟨fun j => x.getD j 0, hb, fun i => ?_⟩
    refine Fin.lastCases ?_ (fun j => ?_) i
    · simp only [mw14, mw14Surface, Fin.snoc_last, Fin.val_last, lt_irrefl, if_false]
      refine mul_le_mul_of_nonneg_right ?_ (Finset.sum_nonneg fun j _ => mw14_term_nonneg _ (hb j).2)
      exact div_le_div_of_nonneg_right (mwG3_ge _) hk0.le
    · simp only [mw14, mw14Surface, Fin.snoc_castSucc, Fin.val_castSucc, j.2, if_true, le_refl]
  constructor
  · rintro ⟨⟨x, hx, rfl⟩, hnd⟩
    obtain ⟨y, hy, hle⟩ := low x hx.1
    refine ⟨⟨y, hy, ?_⟩, ?_⟩
    · obtain ⟨x', hx', he⟩ := att y hy
      by_contra hne
      refine hnd x' hx' ?_
      rw [he]
      refine ⟨hle, ?_⟩
      by_contra hno
      push Not at hno
      exact hne (funext fun i => le_antisymm (hle i) (hno i))
    · intro y' hy' hd
      obtain ⟨x', hx', he⟩ := att y' hy'
      exact hnd x' hx' (he ▸ hd)
  · rintro ⟨⟨y, hy, rfl⟩, hnd⟩
    refine ⟨att y hy, ?_⟩
    rintro x hx ⟨hle, i, hlt⟩
    obtain ⟨y', hy', hl⟩ := low x hx.1
    exact hnd y' hy' ⟨fun i => (hl i).trans (hle i), i, lt_of_le_of_lt (hl i) hlt⟩

/-- C130, MW14: for every number of objectives other than three `pareto_front` returns no point, although `(0, ..., 0, 5)` is Pareto-optimal. -/
theorem C130_mw14_refuted (k n : ℕ) (hk : 1 ≤ k) (h3 : k ≠ 2) (hn : k < n) (remote : List (Fin (k + 1) → ℝ)) :
    mw14Front k remote = [] ∧ ParetoPoint (fun x => Cube n 0 1.5 x ∧ mw14Con (mw14 k x) ≤ 0) (mw14 k) (Fin.snoc (fun _ => 0) 5) := by
  have hk0 : (0 : ℝ) < k := by exact_mod_cast hk
  refine ⟨if_neg (by omega), (C130_mw14 k n hk hn _).2 ⟨⟨fun _ => 0, fun _ => ⟨le_rfl, by norm_num⟩, ?_⟩, ?_⟩⟩
  · unfold mw14Surface
    congr 1
    simp
    field_simp
    ring
  · rintro y hy ⟨hle, i, hlt⟩
    have hz : y = fun _ => 0 := funext fun j => by
      have := hle j.castSucc
      simp only [mw14Surface, Fin.snoc_castSucc] at this
      exact le_antisymm this (hy j).1
    subst hz
    have he : mw14Surface (fun _ : Fin k => (0 : ℝ)) = Fin.snoc (fun _ => 0) 5 := by
      unfold mw14Surface
      congr 1
      simp
      field_simp
      ring
    rw [he] at hlt
    exact lt_irrefl _ hlt

/-- Two objectives and fifteen variables: the hypotheses are met. -/
example : mw14Front 1 [] = [] ∧ ParetoPoint (fun x => Cube 15 0 1.5 x ∧ mw14Con (mw14 1 x) ≤ 0) (mw14 1) (Fin.snoc (fun _ => 0) 5) :=
  C130_mw14_refuted 1 15 le_rfl (by norm_num) (by norm_num) []

end Props
