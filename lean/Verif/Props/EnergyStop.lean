import Mathlib.Analysis.Calculus.Deriv.Mul
import Mathlib.Analysis.Calculus.Deriv.Pow
import Mathlib.Analysis.Calculus.Deriv.Add
import Mathlib.Analysis.SpecialFunctions.Sqrt
import Verif.Props.EnergyDirs

/-!
# C118, continued: when the iterations stop, and the direction of the descent
-/

namespace Props
open Model Finset

set_option linter.unusedSimpArgs false
set_option linter.unusedVariables false

variable {p d : ℕ}

/-- The mean change of an entry of the first `nPts` rows. -/
noncomputable def meanChange (nPts : ℕ) (X Y : Fin p → Fin d → ℝ) : ℝ := (∑ i ∈ univ.filter (fun i : Fin p => i.val < nPts), ∑ k, |Y i k - X i k|) / (nPts * d)

/-- C118: what the energy minimisation compares with the precision is the mean change of the own rows; it is zero only if none of them moved. -/
theorem C118_movement (nPts : ℕ) (X Y : Fin p → Fin d → ℝ) : enDelta nPts X Y = meanChange nPts X Y ∧
    (0 < nPts → 0 < d → (enDelta nPts X Y = 0 ↔ ∀ i : Fin p, i.val < nPts → Y i = X i)) := by
  have e : enDelta nPts X Y = meanChange nPts X Y := by
    simp only [enDelta, meanChange, Real.sqrt_sq_eq_abs]
    rw [← sum_filter, ← sum_div, div_div, mul_comm]
  refine ⟨e, fun hn hd => ?_⟩
  have hc : (0 : ℝ) < nPts * d := by positivity
  rw [e, meanChange, div_eq_zero_iff, or_iff_left hc.ne', sum_eq_zero_iff_of_nonneg fun i _ => sum_nonneg fun k _ => abs_nonneg _]
  constructor
  · intro h i hi
    have := h i (by simpa using hi)
    rw [sum_eq_zero_iff_of_nonneg fun k _ => abs_nonneg _] at this
    funext k
    exact sub_eq_zero.1 (abs_eq_zero.1 (this k (mem_univ k)))
  · intro h i hi
    rw [h i (by simpa using hi)]
    simp

/-- Not vacuous: one row that moves by a half. -/
example : meanChange 1 (fun (_ : Fin 1) (_ : Fin 1) => 0) (fun _ _ => 1 / 2) = 1 / 2 := by
  simp [meanChange]

/-- C118: the energy minimisation ends after a step that changes the own rows by less than the precision on average (and not because of the movement otherwise: with at least two rows, no restart and more iterations
left, it goes on from the new rows). -/
theorem C118_stop (cfg : EnCfg) (nPts : ℕ) (freeze : Fin p → Bool) (k : ℕ) (s : EnSt p d) (r : AdamSt p d × (Fin p → Fin d → ℝ)) (hs : enStep cfg freeze s.adam s.X = some r) :
    (meanChange nPts s.X r.2 < cfg.precision → enLoop cfg nPts freeze (k + 1) s = some r.2 ∨ enLoop cfg nPts freeze (k + 1) s = some s.ret) ∧
    (cfg.precision ≤ meanChange nPts s.X r.2 → 2 ≤ p → cfg.restarts = false → ∃ s' : EnSt p d, s'.X = r.2 ∧ s'.adam = r.1 ∧ enLoop cfg nPts freeze (k + 1) s = enLoop cfg nPts freeze k s') := by
  have e := (C118_movement nPts s.X r.2).1
  constructor
  · intro h
    rw [enLoop, hs, Option.bind_some]
    simp only []
    rw [if_pos (Or.inl (by rw [e]; exact h))]
    split_ifs
    · exact Or.inl rfl
    · exact Or.inr rfl
  · intro h hp hr
    rw [enLoop, hs, Option.bind_some]
    simp only []
    rw [if_neg (by rw [e]; push Not; exact ⟨h, hp⟩), if_neg (by simp [hr])]
    exact ⟨_, rfl, rfl, rfl⟩

/-- C118: the direction of the construction is the gradient of the negated distance to the closest row: in every direction `v` it is the derivative. -/
theorem C118_construction_gradient {q : ℕ} (near : (Fin d → ℝ) → Fin q) (X : Fin q → Fin d → ℝ) (x v : Fin d → ℝ) (h : x ≠ X (near x)) :
    HasDerivAt (fun t : ℝ => -√(∑ k, (x k + t * v k - X (near x) k) ^ 2)) (∑ c, conGrad near X x c * v c) 0 := by
  have hpos : 0 < ∑ k, (x k - X (near x) k) ^ 2 := by
    refine lt_of_le_of_ne (sum_nonneg fun k _ => sq_nonneg _) fun h0 => h ?_
    rw [eq_comm, sum_eq_zero_iff_of_nonneg fun k _ => sq_nonneg _] at h0
    funext k
    have := h0 k (mem_univ k)
    exact sub_eq_zero.1 (pow_eq_zero_iff (two_ne_zero) |>.1 this)
  have hin : HasDerivAt (fun t : ℝ => ∑ k, (x k + t * v k - X (near x) k) ^ 2) (∑ k, 2 * (x k - X (near x) k) * v k) 0 := by
    have := HasDerivAt.fun_sum (u := univ) (A := fun k (t : ℝ) => (x k + t * v k - X (near x) k) ^ 2) (A' := fun k => 2 * (x k - X (near x) k) * v k) (x := 0) fun k _ => by
      have h1 : HasDerivAt (fun t : ℝ => x k + t * v k - X (near x) k) (v k) 0 := by
        simpa using ((HasDerivAt.mul_const (hasDerivAt_id (0 : ℝ)) (v k)).const_add (x k)).sub_const (X (near x) k)
      simpa using h1.fun_pow 2
    exact this
  have hs := (hin.sqrt (by simpa using hpos.ne')).neg
  refine hs.congr_deriv ?_
  simp only [conGrad, zero_mul, add_zero]
  rw [sum_div, ← sum_neg_distrib]
  have hq : √(∑ k, (x k - X (near x) k) ^ 2) ≠ 0 := (Real.sqrt_pos.2 hpos).ne'
  refine sum_congr rfl fun c _ => ?_
  field_simp

/-- Not vacuous: on the line. -/
example : (fun _ : Fin 1 => (1 : ℝ)) ≠ (fun (_ : Fin 1) (_ : Fin 1) => (0 : ℝ)) ((fun _ => 0) fun _ : Fin 1 => (1 : ℝ)) := by
  intro h
  have := congrFun h 0
  simp at this

/-- C118: the descent of the construction ends after a step of Adam that changes the entries by less than `10⁻⁴` on average, and goes on from the projected point otherwise. -/
theorem C118_construction_stop {q : ℕ} (near : (Fin d → ℝ) → Fin q) (X : Fin q → Fin d → ℝ) (it : ℕ) (st : AdamSt 1 d) (x x' : Fin d → ℝ)
    (hx : (spxProject ((adamNext st (fun _ => x) fun _ => prjZero (conGrad near X x)).2 0)).bind rowNorm = some x') :
    conDescent near X (it + 1) st x =
      if (∑ c, |(adamNext st (fun _ => x) fun _ => prjZero (conGrad near X x)).2 0 c - x c|) / d < 1 / 10 ^ 4 then some x'
      else conDescent near X it (adamNext st (fun _ => x) fun _ => prjZero (conGrad near X x)).1 x' := by
  rw [conDescent]
  simp only [hx, Option.bind_some]
  norm_num

end Props
