import Mathlib.Analysis.SpecialFunctions.Trigonometric.Deriv
import Mathlib.Analysis.SpecialFunctions.Trigonometric.Bounds
import Mathlib.Analysis.Calculus.Deriv.MeanValue
import Mathlib.Analysis.Calculus.Deriv.Pow

/-! Taylor bounds of sine and cosine, used for the test problems with trigonometric objectives. -/

namespace Lemmas

/-- A function starting at `0` with non-negative derivative on `[0, ∞)` is non-negative there. -/
theorem nonneg_of_deriv {f f' : ℝ → ℝ} (hf : ∀ x, HasDerivAt f (f' x) x) (h0 : f 0 = 0)
    (h : ∀ x, 0 ≤ x → 0 ≤ f' x) (x : ℝ) (hx : 0 ≤ x) : 0 ≤ f x := by
  have hm : MonotoneOn f (Set.Ici 0) := by
    apply monotoneOn_of_deriv_nonneg (convex_Ici 0)
    · exact fun y _ => (hf y).continuousAt.continuousWithinAt
    · exact fun y _ => (hf y).differentiableAt.differentiableWithinAt
    · intro y hy
      rw [(hf y).deriv]
      exact h y (by simpa using (interior_subset hy))
  have := hm (Set.mem_Ici.2 le_rfl) (Set.mem_Ici.2 hx) hx
  rw [h0] at this
  exact this

theorem sin_ge3 (x : ℝ) (hx : 0 ≤ x) : x - x ^ 3 / 6 ≤ Real.sin x := by
  have h := nonneg_of_deriv (f := fun x => Real.sin x - (x - x ^ 3 / 6))
    (f' := fun x => Real.cos x - (1 - x ^ 2 / 2)) (fun y => by
      have h1 := (Real.hasDerivAt_sin y).sub ((hasDerivAt_id y).sub (((hasDerivAt_id y).pow 3).div_const 6))
      refine h1.congr_deriv ?_
      simp
      ring) (by simp) (fun y _ => by linarith [Real.one_sub_sq_div_two_le_cos (x := y)]) x hx
  linarith

theorem cos_le4_nonneg (x : ℝ) (hx : 0 ≤ x) : Real.cos x ≤ 1 - x ^ 2 / 2 + x ^ 4 / 24 := by
  have h := nonneg_of_deriv (f := fun x => (1 - x ^ 2 / 2 + x ^ 4 / 24) - Real.cos x)
    (f' := fun x => Real.sin x - (x - x ^ 3 / 6)) (fun y => by
      have h1 := (((hasDerivAt_const y (1:ℝ)).sub (((hasDerivAt_id y).pow 2).div_const 2)).add
        (((hasDerivAt_id y).pow 4).div_const 24)).sub (Real.hasDerivAt_cos y)
      refine h1.congr_deriv ?_
      simp
      ring) (by simp) (fun y hy => by linarith [sin_ge3 y hy]) x hx
  linarith

/-- `cos x ≤ 1 - x²/2 + x⁴/24`. -/
theorem cos_le4 (x : ℝ) : Real.cos x ≤ 1 - x ^ 2 / 2 + x ^ 4 / 24 := by
  rcases le_total 0 x with h | h
  · exact cos_le4_nonneg x h
  · have := cos_le4_nonneg (-x) (by linarith)
    rw [Real.cos_neg] at this
    calc _ ≤ _ := this
      _ = _ := by ring

theorem sin_le5 (x : ℝ) (hx : 0 ≤ x) : Real.sin x ≤ x - x ^ 3 / 6 + x ^ 5 / 120 := by
  have h := nonneg_of_deriv (f := fun x => (x - x ^ 3 / 6 + x ^ 5 / 120) - Real.sin x)
    (f' := fun x => (1 - x ^ 2 / 2 + x ^ 4 / 24) - Real.cos x) (fun y => by
      have h1 := (((hasDerivAt_id y).sub (((hasDerivAt_id y).pow 3).div_const 6)).add
        (((hasDerivAt_id y).pow 5).div_const 120)).sub (Real.hasDerivAt_sin y)
      refine h1.congr_deriv ?_
      simp
      ring) (by simp) (fun y _ => by linarith [cos_le4 y]) x hx
  linarith

theorem cos_ge6_nonneg (x : ℝ) (hx : 0 ≤ x) : 1 - x ^ 2 / 2 + x ^ 4 / 24 - x ^ 6 / 720 ≤ Real.cos x := by
  have h := nonneg_of_deriv (f := fun x => Real.cos x - (1 - x ^ 2 / 2 + x ^ 4 / 24 - x ^ 6 / 720))
    (f' := fun x => (x - x ^ 3 / 6 + x ^ 5 / 120) - Real.sin x) (fun y => by
      have h1 := (Real.hasDerivAt_cos y).sub ((((hasDerivAt_const y (1:ℝ)).sub (((hasDerivAt_id y).pow 2).div_const 2)).add
        (((hasDerivAt_id y).pow 4).div_const 24)).sub (((hasDerivAt_id y).pow 6).div_const 720))
      refine h1.congr_deriv ?_
      simp
      ring) (by simp) (fun y hy => by linarith [sin_le5 y hy]) x hx
  linarith

/-- `cos x ≥ 1 - x²/2 + x⁴/24 - x⁶/720`. -/
theorem cos_ge6 (x : ℝ) : 1 - x ^ 2 / 2 + x ^ 4 / 24 - x ^ 6 / 720 ≤ Real.cos x := by
  rcases le_total 0 x with h | h
  · exact cos_ge6_nonneg x h
  · have := cos_ge6_nonneg (-x) (by linarith)
    rw [Real.cos_neg] at this
    calc _ = _ := by ring
      _ ≤ _ := this

theorem sin_ge7 (x : ℝ) (hx : 0 ≤ x) : x - x ^ 3 / 6 + x ^ 5 / 120 - x ^ 7 / 5040 ≤ Real.sin x := by
  have h := nonneg_of_deriv (f := fun x => Real.sin x - (x - x ^ 3 / 6 + x ^ 5 / 120 - x ^ 7 / 5040))
    (f' := fun x => Real.cos x - (1 - x ^ 2 / 2 + x ^ 4 / 24 - x ^ 6 / 720)) (fun y => by
      have h1 := (Real.hasDerivAt_sin y).sub ((((hasDerivAt_id y).sub (((hasDerivAt_id y).pow 3).div_const 6)).add
        (((hasDerivAt_id y).pow 5).div_const 120)).sub (((hasDerivAt_id y).pow 7).div_const 5040))
      refine h1.congr_deriv ?_
      simp
      ring) (by simp) (fun y _ => by linarith [cos_ge6 y]) x hx
  linarith

theorem cos_le8 (x : ℝ) (hx : 0 ≤ x) : Real.cos x ≤ 1 - x ^ 2 / 2 + x ^ 4 / 24 - x ^ 6 / 720 + x ^ 8 / 40320 := by
  have h := nonneg_of_deriv (f := fun x => (1 - x ^ 2 / 2 + x ^ 4 / 24 - x ^ 6 / 720 + x ^ 8 / 40320) - Real.cos x)
    (f' := fun x => Real.sin x - (x - x ^ 3 / 6 + x ^ 5 / 120 - x ^ 7 / 5040)) (fun y => by
      have h1 := (((((hasDerivAt_const y (1:ℝ)).sub (((hasDerivAt_id y).pow 2).div_const 2)).add
        (((hasDerivAt_id y).pow 4).div_const 24)).sub (((hasDerivAt_id y).pow 6).div_const 720)).add
        (((hasDerivAt_id y).pow 8).div_const 40320)).sub (Real.hasDerivAt_cos y)
      refine h1.congr_deriv ?_
      simp
      ring) (by simp) (fun y hy => by linarith [sin_ge7 y hy]) x hx
  linarith

/-- `sin x ≤ x - x³/6 + x⁵/120 - x⁷/5040 + x⁹/362880` for `x ≥ 0`. -/
theorem sin_le9 (x : ℝ) (hx : 0 ≤ x) : Real.sin x ≤ x - x ^ 3 / 6 + x ^ 5 / 120 - x ^ 7 / 5040 + x ^ 9 / 362880 := by
  have h := nonneg_of_deriv (f := fun x => (x - x ^ 3 / 6 + x ^ 5 / 120 - x ^ 7 / 5040 + x ^ 9 / 362880) - Real.sin x)
    (f' := fun x => (1 - x ^ 2 / 2 + x ^ 4 / 24 - x ^ 6 / 720 + x ^ 8 / 40320) - Real.cos x) (fun y => by
      have h1 := (((((hasDerivAt_id y).sub (((hasDerivAt_id y).pow 3).div_const 6)).add
        (((hasDerivAt_id y).pow 5).div_const 120)).sub (((hasDerivAt_id y).pow 7).div_const 5040)).add
        (((hasDerivAt_id y).pow 9).div_const 362880)).sub (Real.hasDerivAt_sin y)
      refine h1.congr_deriv ?_
      simp
      ring) (by simp) (fun y hy => by linarith [cos_le8 y hy]) x hx
  linarith

/-- `cos x ≥ 1 - x²/2 + x⁴/24 - x⁶/720 + x⁸/40320 - x¹⁰/3628800` for `x ≥ 0`. -/
theorem cos_ge10 (x : ℝ) (hx : 0 ≤ x) : 1 - x ^ 2 / 2 + x ^ 4 / 24 - x ^ 6 / 720 + x ^ 8 / 40320 - x ^ 10 / 3628800 ≤ Real.cos x := by
  have h := nonneg_of_deriv (f := fun x => Real.cos x - (1 - x ^ 2 / 2 + x ^ 4 / 24 - x ^ 6 / 720 + x ^ 8 / 40320 - x ^ 10 / 3628800))
    (f' := fun x => (x - x ^ 3 / 6 + x ^ 5 / 120 - x ^ 7 / 5040 + x ^ 9 / 362880) - Real.sin x) (fun y => by
      have h1 := (Real.hasDerivAt_cos y).sub ((((((hasDerivAt_const y (1:ℝ)).sub (((hasDerivAt_id y).pow 2).div_const 2)).add
        (((hasDerivAt_id y).pow 4).div_const 24)).sub (((hasDerivAt_id y).pow 6).div_const 720)).add
        (((hasDerivAt_id y).pow 8).div_const 40320)).sub (((hasDerivAt_id y).pow 10).div_const 3628800))
      refine h1.congr_deriv ?_
      simp
      ring) (by simp) (fun y hy => by linarith [sin_le9 y hy]) x hx
  linarith

/-- `sin x ≥ x - x³/6 + x⁵/120 - x⁷/5040 + x⁹/362880 - x¹¹/39916800` for `x ≥ 0`. -/
theorem sin_ge11 (x : ℝ) (hx : 0 ≤ x) : x - x ^ 3 / 6 + x ^ 5 / 120 - x ^ 7 / 5040 + x ^ 9 / 362880 - x ^ 11 / 39916800 ≤ Real.sin x := by
  have h := nonneg_of_deriv (f := fun x => Real.sin x - (x - x ^ 3 / 6 + x ^ 5 / 120 - x ^ 7 / 5040 + x ^ 9 / 362880 - x ^ 11 / 39916800))
    (f' := fun x => Real.cos x - (1 - x ^ 2 / 2 + x ^ 4 / 24 - x ^ 6 / 720 + x ^ 8 / 40320 - x ^ 10 / 3628800)) (fun y => by
      have h1 := (Real.hasDerivAt_sin y).sub ((((((hasDerivAt_id y).sub (((hasDerivAt_id y).pow 3).div_const 6)).add
        (((hasDerivAt_id y).pow 5).div_const 120)).sub (((hasDerivAt_id y).pow 7).div_const 5040)).add
        (((hasDerivAt_id y).pow 9).div_const 362880)).sub (((hasDerivAt_id y).pow 11).div_const 39916800))
      refine h1.congr_deriv ?_
      simp
      ring) (by simp) (fun y hy => by linarith [cos_ge10 y hy]) x hx
  linarith

end Lemmas
