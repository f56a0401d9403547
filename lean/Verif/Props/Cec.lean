import Verif.Model.Cec
import Verif.Props.DFSurface

/-!
# C167: the bundled CEC 2018 functions and the DF problems
-/

set_option linter.unusedSimpArgs false
set_option linter.unusedVariables false

namespace Props
open Model Spec Lemmas

theorem cec_headD (x : List ℝ) : x.headD 0 = x.getD 0 0 := by cases x <;> rfl

theorem cec9_loop (t x0 : ℝ) : ∀ (l pre : List ℝ) (p : ℝ) (g : ℝ),
    (List.range' (pre.length + 1) l.length).foldl
      (fun g i => g + ((pre ++ p :: l).getD i 0 - Real.cos (4 * t + x0 + (pre ++ p :: l).getD (i - 1) 0)) ^ (2 : ℕ)) g = g + df9g t x0 p l := by
  intro l
  induction l with
  | nil => intro pre p g; simp [df9g]
  | cons v l ih =>
    intro pre p g
    rw [List.length_cons, List.range'_succ, List.foldl_cons]
    have h := ih (pre ++ [p]) v (g + (v - Real.cos (4 * t + x0 + p)) ^ (2 : ℕ))
    simp only [List.length_append, List.length_cons, List.length_nil, Nat.zero_add, List.append_assoc, List.cons_append, List.nil_append] at h
    have e1 : (pre ++ p :: v :: l).getD (pre.length + 1) 0 = v := by
      simp [List.getD_eq_getElem?_getD, List.getElem?_append_right]
    have e2 : (pre ++ p :: v :: l).getD (pre.length + 1 - 1) 0 = p := by
      simp [List.getD_eq_getElem?_getD, List.getElem?_append_right]
    rw [e1, e2, h, df9g]
    ring

theorem cec9g_eq (t : ℝ) (x : List ℝ) : cec9g t x = 1 + df9g t (x.headD 0) (x.headD 0) x.tail := by
  cases x with
  | nil => simp [cec9g, df9g]
  | cons v l =>
    have h := cec9_loop t v l [] v 1
    simpa [cec9g] using h

/-- C167, the objectives: for DF5, DF6, DF7, DF9, DF11 and DF14 the bundled function and the problem return the same objectives, at every point and
at every time. -/
theorem C167_same_partial (x : List ℝ) (t : ℝ) :
    cecDF 5 x t = List.ofFn (df5 t x) ∧ cecDF 6 x t = List.ofFn (df6 t x) ∧ cecDF 7 x t = List.ofFn (df7 t x) ∧
    cecDF 9 x t = List.ofFn (df9 t x) ∧ cecDF 11 x t = List.ofFn (df11 t x) ∧ cecDF 14 x t = List.ofFn (df14 t x) := by
  refine ⟨?_, ?_, ?_, ?_, ?_, ?_⟩
  · simp [cecDF, cec5, df5, dfDist, dfSin, cec_headD, List.head?_eq_getElem?, List.ofFn_succ]
  · simp [cecDF, cec6, df6, df6g, dfSin, cec_headD, List.head?_eq_getElem?, List.ofFn_succ, List.map_map, Function.comp_def]
  · simp [cecDF, cec7, df7, dfDist, cec_headD, List.head?_eq_getElem?, List.ofFn_succ]
  · simp [cecDF, cec9, df9, df9Hump, df9N, cec9g_eq, cec_headD, List.head?_eq_getElem?, List.ofFn_succ]
  · have e6 : (6.0 : ℝ) = 6 := by norm_num
    have e3 : (3.0 : ℝ) = 3 := by norm_num
    simp [cecDF, cec11, df11, df11Angle, dfSin, List.ofFn_succ, e6, e3]
  · simp [cecDF, cec14, df14, dfDist, dfSin, List.ofFn_succ]

/-- DF1 of the two sources: for a position variable strictly between 0 and `g` they agree at no time but those at which the exponent is 1; for an exponent
larger than 1 the bundled function returns less, for a smaller one more. -/
theorem C167_df1_differs (x : List ℝ) (t : ℝ) (h0 : 0 < x.headD 0) (h1 : x.headD 0 < dfDist |dfSin t| x.tail) :
    (1 < 0.75 * dfSin t + 1.25 → (cecDF 1 x t).getD 1 0 < df1 t x 1) ∧ (0.75 * dfSin t + 1.25 < 1 → df1 t x 1 < (cecDF 1 x t).getD 1 0) := by
  have hg : 0 < dfDist |dfSin t| x.tail := h0.trans h1
  have hv : (cecDF 1 x t).getD 1 0 = dfDist |dfSin t| x.tail * (1 - x.headD 0 / dfDist |dfSin t| x.tail) ^ (0.75 * dfSin t + 1.25) := by
    simp [cecDF, cec1, dfDist, dfSin, cec_headD, List.head?_eq_getElem?]
  have hd : df1 t x 1 = dfDist |dfSin t| x.tail * (1 - (x.headD 0 / dfDist |dfSin t| x.tail) ^ (0.75 * dfSin t + 1.25)) := by
    simp [df1]
  rw [hv, hd]
  set u := x.headD 0 / dfDist |dfSin t| x.tail with hu
  have hu0 : 0 < u := div_pos h0 hg
  have hu1 : u < 1 := (div_lt_one hg).2 h1
  have hs := (dfSin_mem t).1
  refine ⟨fun hH => ?_, fun hH => ?_⟩
  · have e1 : (1 - u) ^ (0.75 * dfSin t + 1.25) < (1 - u) ^ (1 : ℝ) := Real.rpow_lt_rpow_of_exponent_gt (by linarith) (by linarith) hH
    have e2 : u ^ (0.75 * dfSin t + 1.25) < u ^ (1 : ℝ) := Real.rpow_lt_rpow_of_exponent_gt hu0 hu1 hH
    rw [Real.rpow_one] at e1 e2
    exact mul_lt_mul_of_pos_left (by linarith) hg
  · have e1 : (1 - u) ^ (1 : ℝ) < (1 - u) ^ (0.75 * dfSin t + 1.25) := Real.rpow_lt_rpow_of_exponent_gt (by linarith) (by linarith) hH
    have e2 : u ^ (1 : ℝ) < u ^ (0.75 * dfSin t + 1.25) := Real.rpow_lt_rpow_of_exponent_gt hu0 hu1 hH
    rw [Real.rpow_one] at e1 e2
    exact mul_lt_mul_of_pos_left (by linarith) hg

theorem dfSin_one : dfSin 1 = 1 := by
  rw [dfSin, show 0.5 * Real.pi * 1 = Real.pi / 2 by ring, Real.sin_pi_div_two]

theorem dfSin_zero : dfSin 0 = 0 := by simp [dfSin]

example : 0 < ([0.5, 1] : List ℝ).headD 0 ∧ ([0.5, 1] : List ℝ).headD 0 < dfDist |dfSin 1| ([0.5, 1] : List ℝ).tail ∧
    1 < 0.75 * dfSin 1 + 1.25 := by
  rw [dfSin_one]; norm_num [dfDist]

/-- C167 is violated by the other eight problems: there are a point within the bounds of the problem and a time at which the objectives differ. -/
theorem C167_objectives_refuted :
    (∃ x t, dfBox 1 10 0 1 0 1 x ∧ cecDF 1 x t ≠ List.ofFn (df1 t x)) ∧
    (∃ x t, dfBox 1 2 0 1 0 1 x ∧ cecDF 2 x t ≠ List.ofFn (df2 t x)) ∧
    (∃ x t, dfBox 1 2 0 1 (-1) 2 x ∧ cecDF 3 x t ≠ List.ofFn (df3 t x)) ∧
    (∃ x t, dfBox 1 2 (-2) 2 (-2) 2 x ∧ cecDF 4 x t ≠ List.ofFn (df4 t x)) ∧
    (∃ x t, dfBox 1 2 0 1 (-1) 1 x ∧ cecDF 8 x t ≠ List.ofFn (df8 t x)) ∧
    (∃ x t, dfBox 2 3 0 1 (-1) 1 x ∧ cecDF 10 x t ≠ List.ofFn (df10 t x)) ∧
    (∃ x t, dfBox 2 3 0 1 (-1) 1 x ∧ some (cecDF 12 x t) ≠ (df12Batch t [x])[0]?.map List.ofFn) ∧
    (∃ x t, dfBox 2 3 0 1 (-1) 1 x ∧ cecDF 13 x t ≠ List.ofFn (df13 t x)) := by
  have hs1 : Real.sin (0.5 * Real.pi) = 1 := by rw [show 0.5 * Real.pi = Real.pi / 2 by ring, Real.sin_pi_div_two]
  have hc1 : Real.cos (0.5 * Real.pi) = 0 := by rw [show 0.5 * Real.pi = Real.pi / 2 by ring, Real.cos_pi_div_two]
  refine ⟨⟨0.5 :: List.replicate 9 1, 1, ⟨rfl, ?_, ?_⟩, fun h => ?_⟩, ⟨[0, 1], 0, ⟨rfl, ?_, ?_⟩, fun h => ?_⟩,
    ⟨[0, 2], 0, ⟨rfl, ?_, ?_⟩, fun h => ?_⟩, ⟨[2, 1], 1, ⟨rfl, ?_, ?_⟩, fun h => ?_⟩, ⟨[0, 1], 0, ⟨rfl, ?_, ?_⟩, fun h => ?_⟩,
    ⟨[1, 0.25, 0], 0, ⟨rfl, ?_, ?_⟩, fun h => ?_⟩, ⟨[1, 0, 0], 0, ⟨rfl, ?_, ?_⟩, fun h => ?_⟩, ⟨[0, 1, 1], 0, ⟨rfl, ?_, ?_⟩, fun h => ?_⟩⟩
  case refine_1 => intro v hv; simp at hv; subst hv; norm_num
  case refine_2 => intro v hv; simp at hv; subst hv; norm_num
  case refine_3 =>
    have hlt := (C167_df1_differs (0.5 :: List.replicate 9 1) 1 (by norm_num)
      (by rw [dfSin_one, abs_one, List.tail_cons, dfDist_rep]; norm_num)).1 (by rw [dfSin_one]; norm_num)
    rw [h] at hlt
    simp [List.ofFn_succ] at hlt
  case refine_4 => intro v hv; simp at hv; subst hv; norm_num
  case refine_5 => intro v hv; simp at hv; subst hv; norm_num
  case refine_6 =>
    have h1 := congrArg (fun l => l.getD 1 0) h
    simp [cecDF, cec2, df2, dfDist, dfSin, List.ofFn_succ] at h1
    norm_num [List.range_succ, List.filter] at h1
  case refine_7 => intro v hv; simp at hv; subst hv; norm_num
  case refine_8 => intro v hv; simp at hv; subst hv; norm_num
  case refine_9 =>
    have h1 := congrArg (fun l => l.getD 1 0) h
    have e : ((2 : ℝ) ^ (1.5 : ℝ)) ^ (2 : ℕ) = 8 := by
      rw [← Real.rpow_natCast, ← Real.rpow_mul (by norm_num)]; norm_num
    simp [cecDF, cec3, df3, dfDist, dfSin, List.ofFn_succ, e] at h1
    norm_num at h1
  case refine_10 => intro v hv; simp at hv; subst hv; norm_num
  case refine_11 => intro v hv; simp at hv; subst hv; norm_num
  case refine_12 =>
    have h1 := congrArg (fun l => l.getD 0 0) h
    simp [cecDF, cec4, df4, df4g, df4b, dfSin, List.ofFn_succ, hs1, hc1] at h1
    norm_num at h1
  case refine_13 => intro v hv; simp at hv; subst hv; norm_num
  case refine_14 => intro v hv; simp at hv; subst hv; norm_num
  case refine_15 =>
    have h1 := congrArg (fun l => l.getD 1 0) h
    have e : Real.sin (3 * Real.pi) = 0 := by simpa using Real.sin_nat_mul_pi 3
    simp [cecDF, cec8, df8, dfDist, dfSin, List.ofFn_succ, e] at h1
    norm_num at h1
  case refine_16 => intro v hv; simp at hv; rcases hv with rfl | rfl <;> norm_num
  case refine_17 => intro v hv; simp at hv; subst hv; norm_num
  case refine_18 =>
    have h1 := congrArg (fun l => l.getD 0 0) h
    have e : Real.sin (2 * Real.pi * (1 + 0.25)) = 1 := by
      rw [show 2 * Real.pi * (1 + 0.25) = Real.pi / 2 + 2 * Real.pi by ring, Real.sin_add_two_pi, Real.sin_pi_div_two]
    have e' : Real.sin (4 * Real.pi * (1 + 0.25)) = 0 := by
      rw [show 4 * Real.pi * (1 + 0.25) = (5 : ℕ) * Real.pi by push_cast; ring, Real.sin_nat_mul_pi]
    simp [cecDF, cec10, df10, dfDist, dfSin, List.ofFn_succ, hs1, e, e'] at h1
  case refine_19 => intro v hv; simp at hv; rcases hv with rfl | rfl <;> norm_num
  case refine_20 => intro v hv; simp at hv; subst hv; norm_num
  case refine_21 =>
    simp [cecDF, cec12, df12Batch, df12Tmp, dfDist, List.ofFn_succ, hs1, hc1] at h
  case refine_22 => intro v hv; simp at hv; rcases hv with rfl | rfl <;> norm_num
  case refine_23 => intro v hv; simp at hv; subst hv; norm_num
  case refine_24 =>
    have h1 := congrArg (fun l => l.getD 2 0) h
    simp [cecDF, cec13, df13, df13h, dfDist, dfSin, List.ofFn_succ, hs1, hc1] at h1

theorem dfBox_getD {k n : ℕ} {a b c d : ℝ} {x : List ℝ} :
    dfBox k n a b c d x ↔ x.length = n ∧ ∀ i < n, (if i < k then a else c) ≤ x.getD i 0 ∧ x.getD i 0 ≤ (if i < k then b else d) := by
  refine and_congr_right fun hn => ⟨fun h i hi => ?_, fun h => ⟨fun v hv => ?_, fun v hv => ?_⟩⟩
  · have hi' : i < x.length := by omega
    rw [List.getD_eq_getElem _ _ hi']
    by_cases hk : i < k
    · simp only [hk, if_true]
      exact h.1 _ (List.mem_iff_getElem.2 ⟨i, by simp; omega, by simp⟩)
    · simp only [hk, if_false]
      exact h.2 _ (List.mem_iff_getElem.2 ⟨i - k, by simp; omega, by simp [show k + (i - k) = i by omega]⟩)
  · obtain ⟨i, hi, rfl⟩ := List.mem_iff_getElem.1 hv
    simp at hi
    have := h i (by omega)
    rw [List.getD_eq_getElem _ _ hi.2] at this
    simpa [hi.1] using this
  · obtain ⟨i, hi, rfl⟩ := List.mem_iff_getElem.1 hv
    simp at hi
    have := h (k + i) (by omega)
    rw [List.getD_eq_getElem _ _ (by omega)] at this
    simpa using this

/-- C167, where the differing formulas of the two sources agree: DF1 at times at which the exponent is 1 or with position 0, DF3 at times at which the
exponent is 1, DF4 at times at which the sine is 0, DF8 then for equal first two variables, DF10 wherever the waves of the two frequencies meet, DF12 at
whole times for equal first two variables, DF13 wherever the distance function is 1 (on the Pareto set). -/
theorem C167_agree_partial (x : List ℝ) (t : ℝ) :
    (0.75 * dfSin t + 1.25 = 1 ∨ x.headD 0 = 0 → cecDF 1 x t = List.ofFn (df1 t x)) ∧
    (dfSin t + 1.5 = 1 → cecDF 3 x t = List.ofFn (df3 t x)) ∧
    (dfSin t = 0 → cecDF 4 x t = List.ofFn (df4 t x)) ∧
    (dfSin t = 0 → x.getD 1 0 = x.getD 0 0 → cecDF 8 x t = List.ofFn (df8 t x)) ∧
    (dfBox 2 x.length 0 1 (-1) 1 x → 2 ≤ x.length → Real.sin (2 * Real.pi * (x.getD 0 0 + x.getD 1 0)) = Real.sin (4 * Real.pi * (x.getD 0 0 + x.getD 1 0)) →
      cecDF 10 x t = List.ofFn (df10 t x)) ∧
    (Real.sin (Real.pi * t) = 0 → 2 ≤ x.length → x.getD 0 0 = x.getD 1 0 → some (cecDF 12 x t) = (df12Batch t [x])[0]?.map List.ofFn) ∧
    (dfDist (dfSin t) (x.drop 2) = 1 → cecDF 13 x t = List.ofFn (df13 t x)) := by
  refine ⟨?_, ?_, ?_, ?_, ?_, ?_, ?_⟩
  · intro h
    have e : cecDF 1 x t = [x.headD 0, dfDist |dfSin t| x.tail * (1 - x.headD 0 / dfDist |dfSin t| x.tail) ^ (0.75 * dfSin t + 1.25)] := by
      simp [cecDF, cec1, dfDist, dfSin, cec_headD, List.head?_eq_getElem?]
    have hs := (dfSin_mem t).1
    rw [e]
    rcases h with h | h
    · simp [df1, h, List.ofFn_succ]
    · have hne : 0.75 * dfSin t + 1.25 ≠ 0 := by linarith
      simp only [df1, h, zero_div, sub_zero, Real.one_rpow, Real.zero_rpow hne]
      simp [List.ofFn_succ]
  · intro h
    have h' : Real.sin (0.5 * Real.pi * t) + 1.5 = 1 := h
    have e : ∀ v w : ℝ, v - Real.sin (0.5 * Real.pi * t) - w = v - (Real.sin (0.5 * Real.pi * t) + w) := fun v w => by ring
    simp only [cecDF, cec3, df3, dfDist, dfSin, cec_headD, h', Real.rpow_one, e]
    simp [List.ofFn_succ]
  · intro h
    have h' : Real.sin (0.5 * Real.pi * t) = 0 := h
    have e : ((x.tail.zipIdx.map fun e : ℝ × ℕ => e.1 ^ (2 : ℕ))).sum = (x.tail.map fun v => v ^ (2 : ℕ)).sum := by
      conv_rhs => rw [← List.zipIdx_map_fst 0 x.tail, List.map_map]
      rfl
    simp only [cecDF, cec4, df4, df4g, df4b, dfSin, cec_headD, h', zero_mul, zero_div, sub_zero, add_zero, e]
    simp [List.ofFn_succ]
  · intro h hx
    have h' : Real.sin (0.5 * Real.pi * t) = 0 := h
    simp only [cecDF, cec8, df8, dfDist, dfSin, cec_headD, h', hx, zero_mul, zero_div, sub_zero]
    simp [List.ofFn_succ]
  · intro hb hl hs
    have h0 := (dfBox_getD.1 hb).2 0 (by omega)
    have h1 := (dfBox_getD.1 hb).2 1 (by omega)
    norm_num at h0 h1
    have hpi := Real.pi_pos
    have hc0 : 0 ≤ Real.cos (0.5 * Real.pi * x.getD 0 0) := Real.cos_nonneg_of_mem_Icc ⟨by simp only [List.getD_eq_getElem?_getD]; nlinarith, by simp only [List.getD_eq_getElem?_getD]; nlinarith⟩
    have hc1 : 0 ≤ Real.cos (0.5 * Real.pi * x.getD 1 0) := Real.cos_nonneg_of_mem_Icc ⟨by simp only [List.getD_eq_getElem?_getD]; nlinarith, by simp only [List.getD_eq_getElem?_getD]; nlinarith⟩
    have hs1 : 0 ≤ Real.sin (0.5 * Real.pi * x.getD 1 0) := Real.sin_nonneg_of_nonneg_of_le_pi (by simp only [List.getD_eq_getElem?_getD]; nlinarith) (by simp only [List.getD_eq_getElem?_getD]; nlinarith)
    simp only [cecDF, cec10, df10, dfDist, dfSin, hs, Real.mul_rpow hs1 hc0, Real.mul_rpow hc1 hc0]
    simp [List.ofFn_succ, mul_assoc]
  · intro h hl hx
    obtain ⟨a, b, l, rfl⟩ : ∃ a b l, x = a :: b :: l := by
      match x, hl with
      | a :: b :: l, _ => exact ⟨a, b, l, rfl⟩
    simp at hx
    subst hx
    simp [cecDF, cec12, df12Batch, df12Tmp, dfDist, List.ofFn_succ, h, List.map_map, Function.comp_def]
  · intro h
    have h' : 1 + ((x.drop 2).map fun v => (v - Real.sin (0.5 * Real.pi * t)) ^ (2 : ℕ)).sum = 1 := h
    have h'' : dfDist (Real.sin (0.5 * Real.pi * t)) (x.drop 2) = 1 := h
    simp only [cecDF, cec13, df13, df13h, h', dfSin, h'', one_mul]
    simp [List.ofFn_succ]
    ring

example : dfSin 0 = 0 ∧ dfDist (dfSin 0) (([0.3, 0.4, 0, 0] : List ℝ).drop 2) = 1 := by
  rw [dfSin_zero]; norm_num [dfDist]

/-- A point within the bounds `lx`, `ux`. -/
def CecBox (k n : ℕ) (x : List ℝ) : Prop :=
  x.length = n ∧ ∀ i < n, (cecLower k n).getD i 0 ≤ x.getD i 0 ∧ x.getD i 0 ≤ (cecUpper k n).getD i 0

theorem set0_getD (n : ℕ) (a c : ℝ) (i : ℕ) (hi : i < n) : ((List.replicate n c).set 0 a).getD i 0 = if i < 1 then a else c := by
  rw [List.getD_eq_getElem _ _ (by simpa using hi), List.getElem_set]
  by_cases h : i = 0
  · subst h; simp
  · rw [if_neg (by omega), if_neg (by omega)]; simp

theorem set01_getD (n : ℕ) (a c : ℝ) (i : ℕ) (hi : i < n) :
    (((List.replicate n c).set 0 a).set 1 a).getD i 0 = if i < 2 then a else c := by
  rw [List.getD_eq_getElem _ _ (by simpa using hi), List.getElem_set, List.getElem_set]
  by_cases h : i = 0
  · subst h; simp
  · by_cases h1 : i = 1
    · subst h1; simp
    · rw [if_neg (by omega), if_neg (by omega), if_neg (by omega)]; simp

theorem rep_getD (n : ℕ) (c : ℝ) (i : ℕ) (hi : i < n) : (List.replicate n c).getD i 0 = c := by
  rw [List.getD_eq_getElem _ _ (by simpa using hi)]; simp

/-- C167, the bounds: those of DF1, DF2, DF3, DF7 and DF11 are the problems' bounds, for every number of variables. -/
theorem C167_bounds_partial (n : ℕ) (x : List ℝ) :
    (CecBox 1 n x ↔ dfBox 1 n 0 1 0 1 x) ∧ (CecBox 2 n x ↔ dfBox 1 n 0 1 0 1 x) ∧ (CecBox 3 n x ↔ dfBox 1 n 0 1 (-1) 2 x) ∧
    (CecBox 7 n x ↔ dfBox 1 n 1 4 0 1 x) ∧ (CecBox 11 n x ↔ dfBox 2 n 0 1 0 1 x) := by
  simp only [CecBox, dfBox_getD, cecLower, cecUpper]
  refine ⟨?_, ?_, ?_, ?_, ?_⟩ <;> refine and_congr_right fun _ => forall₂_congr fun i hi => ?_
  · rw [rep_getD _ _ _ hi, rep_getD _ _ _ hi]; simp
  · rw [rep_getD _ _ _ hi, rep_getD _ _ _ hi]; simp
  · rw [set0_getD _ _ _ _ hi, set0_getD _ _ _ _ hi]
  · rw [set0_getD _ _ _ _ hi, set0_getD _ _ _ _ hi]
  · rw [rep_getD _ _ _ hi, rep_getD _ _ _ hi]; simp

/-- C167 is violated by the other bounds: all variables of DF4 are fixed to `-2`; in DF5, 6, 8 and 9 all but the first variable and in DF10, 12, 13 and
14 all but the first two are fixed to `-1`, instead of the range up to `2` or `1`. -/
theorem C167_bounds_refuted (n : ℕ) (x : List ℝ) :
    (CecBox 4 n x ↔ x = List.replicate n (-2)) ∧
    (∀ k ∈ [5, 6, 8, 9], CecBox k n x ↔ dfBox 1 n 0 1 (-1) (-1) x) ∧
    (∀ k ∈ [10, 12, 13, 14], CecBox k n x ↔ dfBox 2 n 0 1 (-1) (-1) x) := by
  refine ⟨⟨fun ⟨hl, h⟩ => ?_, ?_⟩, ?_, ?_⟩
  · rw [List.eq_replicate_iff]
    refine ⟨hl, fun v hv => ?_⟩
    obtain ⟨i, hi, rfl⟩ := List.mem_iff_getElem.1 hv
    have := h i (by omega)
    simp only [cecLower, cecUpper] at this
    rw [rep_getD _ _ _ (by omega), List.getD_eq_getElem _ _ hi] at this
    linarith
  · rintro rfl
    refine ⟨by simp, fun i hi => ?_⟩
    simp only [cecLower, cecUpper]
    rw [rep_getD _ _ _ hi]
    simp
  · intro k hk
    simp only [List.mem_cons, List.not_mem_nil, or_false] at hk
    simp only [CecBox, dfBox_getD]
    refine and_congr_right fun _ => forall₂_congr fun i hi => ?_
    rcases hk with rfl | rfl | rfl | rfl <;> simp only [cecLower, cecUpper] <;> rw [set0_getD _ _ _ _ hi, set0_getD _ _ _ _ hi]
  · intro k hk
    simp only [List.mem_cons, List.not_mem_nil, or_false] at hk
    simp only [CecBox, dfBox_getD]
    refine and_congr_right fun _ => forall₂_congr fun i hi => ?_
    rcases hk with rfl | rfl | rfl | rfl <;> simp only [cecLower, cecUpper] <;> rw [set01_getD _ _ _ _ hi, set01_getD _ _ _ _ hi]

example : CecBox 3 2 [1, 2] ∧ CecBox 4 2 [-2, -2] := by
  refine ⟨((C167_bounds_partial 2 _).2.2.1).2 ⟨rfl, ?_, ?_⟩, ((C167_bounds_refuted 2 _).1).2 rfl⟩ <;> intro v hv <;> simp at hv <;> subst hv <;> norm_num

theorem cecU_mem {i : ℕ} (hi : i < 50) : Unit01 (cecU i) := by
  unfold cecU
  rw [List.getD_eq_getElem _ _ (by simpa [linspace] using hi)]
  exact linspace_mem (by norm_num) (List.getElem_mem _)

theorem cecU_zero : cecU 0 = 0 := by
  unfold cecU
  rw [List.getD_eq_getElem _ _ (by simp [linspace])]
  simp [linspace]

theorem cecGrid_mem {c : ℕ → ℕ → List ℝ} {r : List ℝ} : r ∈ cecGrid c ↔ ∃ i j, i < 50 ∧ j < 50 ∧ r = c i j := by
  simp only [cecGrid, List.mem_flatMap, List.mem_map, List.mem_range]
  constructor
  · rintro ⟨j, hj, i, hi, rfl⟩; exact ⟨i, j, hi, hj, rfl⟩
  · rintro ⟨i, j, hi, hj, rfl⟩; exact ⟨j, hj, i, hi, rfl⟩

theorem cecGrid_first (c : ℕ → ℕ → List ℝ) : c 0 0 ∈ cecGetPF (cecGrid c) false :=
  cecGrid_mem.2 ⟨0, 0, by norm_num, by norm_num, rfl⟩

theorem cecDot_const (a b : ℕ → ℝ) (i j : ℕ) : cecDot (fun i _ => a i) (fun _ j => b j) i j = 50 * (a i * b j) := by
  simp only [cecDot, List.map_const', List.length_range, List.sum_replicate, nsmul_eq_mul]
  norm_num

/-- Every row of the front of problem `k` is a Pareto-optimal objective vector. -/
def CecFrontOk {m : ℕ} (k : ℕ) (t : ℝ) (p : ℕ) (D : List ℝ → Prop) (F : List ℝ → Fin m → ℝ) : Prop :=
  ∃ rows, cecFront k t p = some rows ∧ rows ≠ [] ∧ ∀ r ∈ rows, ∃ f, r = List.ofFn f ∧ ParetoPoint D F f

theorem cecMap_ne {α : Type} {n : ℕ} (hn : 1 ≤ n) (a b : ℝ) (f : ℝ → α) : (linspace a b n).map f ≠ [] := by
  intro h
  have := congrArg List.length h
  simp [linspace] at this
  omega

theorem cecGrid_ne (c : ℕ → ℕ → List ℝ) : cecGetPF (cecGrid c) false ≠ [] :=
  List.ne_nil_of_mem (cecGrid_mem.2 ⟨0, 0, by norm_num, by norm_num, rfl⟩)

/-- C167, the fronts: for DF1, 2, 3, 5, 6, 8, 10 and 14, for DF7 at times after -1 and for DF4 as long as the curve fits into the bounds, the bundled front has
points, and all of them are Pareto-optimal for the problem (with pymoo's objectives and bounds). -/
theorem C167_front_partial (n p : ℕ) (hn : 2 ≤ n) (hp : 1 ≤ p) (t : ℝ) :
    CecFrontOk 1 t p (dfBox 1 n 0 1 0 1) (df1 t) ∧ CecFrontOk 2 t p (Cube n 0 1) (df2 t) ∧ CecFrontOk 3 t p (dfBox 1 n 0 1 (-1) 2) (df3 t) ∧
    (dfSin t + df4b t ≤ 2 → CecFrontOk 4 t p (dfBox 1 n (-2) 2 (-2) 2) (df4 t)) ∧ CecFrontOk 5 t p (dfBox 1 n 0 1 (-1) 1) (df5 t) ∧
    CecFrontOk 6 t p (dfBox 1 n 0 1 (-1) 1) (df6 t) ∧ (-1 < t → CecFrontOk 7 t p (dfBox 1 n 1 4 0 1) (df7 t)) ∧
    CecFrontOk 8 t p (dfBox 1 n 0 1 (-1) 1) (df8 t) ∧ CecFrontOk 10 t p (dfBox 2 n 0 1 (-1) 1) (df10 t) ∧
    CecFrontOk 14 t p (dfBox 2 n 0 1 (-1) 1) (df14 t) := by
  have hn1 : 1 ≤ n := by omega
  refine ⟨⟨_, rfl, cecMap_ne hp _ _ _, fun r hr => ?_⟩, ⟨_, rfl, cecMap_ne hp _ _ _, fun r hr => ?_⟩, ⟨_, rfl, cecMap_ne hp _ _ _, fun r hr => ?_⟩,
    fun hfit => ⟨_, rfl, cecMap_ne (by norm_num) _ _ _, fun r hr => ?_⟩, ⟨_, rfl, cecMap_ne hp _ _ _, fun r hr => ?_⟩,
    ⟨_, rfl, cecMap_ne hp _ _ _, fun r hr => ?_⟩, fun ht => ⟨_, rfl, cecMap_ne hp _ _ _, fun r hr => ?_⟩,
    ⟨_, rfl, cecMap_ne hp _ _ _, fun r hr => ?_⟩, ⟨_, rfl, cecGrid_ne _, fun r hr => ?_⟩, ⟨_, rfl, cecGrid_ne _, fun r hr => ?_⟩⟩
  all_goals simp only [cecGetPF, Bool.false_eq_true, if_false] at hr
  case refine_1 =>
    obtain ⟨u, hu, rfl⟩ := List.mem_map.1 hr
    exact ⟨_, by simp [List.ofFn_succ, dfSin], (C117_df1_curve n hn1 t ![u, 1 - u ^ (0.75 * dfSin t + 1.25)]).2 ⟨u, linspace_mem (by norm_num) hu, rfl⟩⟩
  case refine_2 =>
    obtain ⟨u, hu, rfl⟩ := List.mem_map.1 hr
    refine ⟨_, ?_, (C117_df2_curve n hn1 t ![u, 1 - √u]).2 ⟨u, linspace_mem (by norm_num) hu, rfl⟩⟩
    simp [List.ofFn_succ, Real.sqrt_eq_rpow]; norm_num
  case refine_3 =>
    obtain ⟨u, hu, rfl⟩ := List.mem_map.1 hr
    exact ⟨_, by simp [List.ofFn_succ, dfSin], (C117_df3_curve n hn1 t ![u, 1 - u ^ (dfSin t + 1.5)]).2 ⟨u, linspace_mem (by norm_num) hu, by simp⟩⟩
  case refine_4 =>
    obtain ⟨u, hu, rfl⟩ := List.mem_map.1 hr
    have hb : 0 ≤ df4b t := by unfold df4b; positivity
    exact ⟨_, by simp [List.ofFn_succ, dfSin, df4b],
      (C117_df4_curve n hn1 t hfit ![|u - dfSin t| ^ (1.5 + dfSin t), |u - dfSin t - df4b t| ^ (1.5 + dfSin t)]).2
        ⟨u, linspace_mem (by linarith) hu, rfl⟩⟩
  case refine_5 =>
    obtain ⟨u, hu, rfl⟩ := List.mem_map.1 hr
    exact ⟨_, by simp [List.ofFn_succ, dfSin, df5Curve], (C117_df5_curve n hn1 t (df5Curve t u)).2 ⟨u, linspace_mem (by norm_num) hu, rfl⟩⟩
  case refine_6 =>
    obtain ⟨u, hu, rfl⟩ := List.mem_map.1 hr
    exact ⟨_, by simp [List.ofFn_succ, dfSin, df6Curve], (C117_df6_curve n hn1 t (df6Curve t u)).2 ⟨u, linspace_mem (by norm_num) hu, rfl⟩⟩
  case refine_7 =>
    obtain ⟨u, hu, rfl⟩ := List.mem_map.1 hr
    exact ⟨_, by simp [List.ofFn_succ], (C117_df7_curve n hn1 t ht ![(1 + t) / u, u / (1 + t)]).2 ⟨u, linspace_mem (by norm_num) hu, rfl⟩⟩
  case refine_8 =>
    obtain ⟨u, hu, rfl⟩ := List.mem_map.1 hr
    exact ⟨_, by simp [List.ofFn_succ, df8Curve], (C117_df8_curve n hn1 t (df8Curve t u)).2 ⟨u, linspace_mem (by norm_num) hu, rfl⟩⟩
  case refine_9 =>
    obtain ⟨i, j, hi, hj, rfl⟩ := cecGrid_mem.1 hr
    exact ⟨_, by simp [List.ofFn_succ, df10Curve], (C117_df10_surface n hn t (df10Curve t (cecU j) (cecU i))).2 ⟨_, _, cecU_mem hj, cecU_mem hi, rfl⟩⟩
  case refine_10 =>
    obtain ⟨i, j, hi, hj, rfl⟩ := cecGrid_mem.1 hr
    exact ⟨_, by simp [List.ofFn_succ, df14Curve, dfSin], (C117_df14_surface n hn t (df14Curve t (cecU j) (cecU i))).2 ⟨_, _, cecU_mem hj, cecU_mem hi, rfl⟩⟩

/-- C167 is violated by the fronts of DF9, DF12 and DF13, which are empty, and by the front of DF11, whose first point is not Pareto-optimal at any time
(two coordinates are 50 times too large). -/
theorem C167_front_refuted (t : ℝ) (p : ℕ) :
    (1 ≤ p → cecFront 9 t p = some []) ∧ cecFront 12 t p = some [] ∧ cecFront 13 t p = some [] ∧
    ∃ rows r, cecFront 11 t p = some rows ∧ r ∈ rows ∧ ∀ n f, 2 ≤ n → r = List.ofFn f → ¬ ParetoPoint (dfBox 2 n 0 1 0 1) (df11 t) f := by
  refine ⟨fun hp => if_neg (by omega), rfl, rfl, _, _, rfl, cecGrid_first _, fun n f hn hr hf => ?_⟩
  obtain ⟨u, v, hu, hv, hc⟩ := (C117_df11_surface n hn t f).1 hf
  have hA := dfAbs_mem t
  rw [hc] at hr
  have hr2 := congrArg (fun l => l.getD 2 0) hr
  have hd := cecDot_const (fun i => Real.cos (Real.pi * |Real.sin (0.5 * Real.pi * t)| / 6 +
    (Real.pi / 2 - Real.pi * |Real.sin (0.5 * Real.pi * t)| / 3) * cecU i)) (fun i => Real.cos (Real.pi * |Real.sin (0.5 * Real.pi * t)| / 6 +
    (Real.pi / 2 - Real.pi * |Real.sin (0.5 * Real.pi * t)| / 3) * cecU i)) 0 0
  simp only [List.getD_cons_succ, List.getD_cons_zero] at hr2
  rw [hd, cecU_zero] at hr2
  simp [List.ofFn_succ, df11Curve, dfSin] at hr2
  set α := Real.pi * |Real.sin (0.5 * Real.pi * t)| / 6 with hα
  have hG : |Real.sin (0.5 * Real.pi * t)| ≤ 1 := hA.2
  have hG0 : 0 ≤ |Real.sin (0.5 * Real.pi * t)| := hA.1
  have hpi := Real.pi_pos
  have hpi4 := Real.pi_le_four
  have hα0 : 0 ≤ α := by rw [hα]; positivity
  have hα1 : α ≤ 2 / 3 := by
    rw [hα]
    have := mul_le_mul hpi4 hG hG0 (by norm_num : (0:ℝ) ≤ 4)
    linarith
  have hcos : 0.7 ≤ Real.cos α := by
    have := Real.one_sub_sq_div_two_le_cos (x := α)
    nlinarith
  have hbig : 0.7 * 0.7 ≤ Real.cos α * Real.cos α := mul_le_mul hcos hcos (by norm_num) (by linarith)
  have hu' := df11Angle_nonneg t hu
  have hv' := df11Angle_nonneg t hv
  have h1 : (1 + |Real.sin (0.5 * Real.pi * t)|) * Real.cos (df11Angle t v) ≤ 2 * 1 :=
    mul_le_mul (by linarith) (Real.cos_le_one _) hv'.2 (by norm_num)
  have h2 : (1 + |Real.sin (0.5 * Real.pi * t)|) * Real.cos (df11Angle t v) * Real.cos (df11Angle t u) ≤ 2 * 1 * 1 :=
    mul_le_mul h1 (Real.cos_le_one _) hu'.2 (by norm_num)
  linarith

/-- The bundled DF1 does not even agree with its own front: at time 1 and for three or more points there is a point within the bounds whose value dominates
a returned front point. -/
theorem C167_own_front_refuted (n p : ℕ) (hn : 1 ≤ n) (hp : 3 ≤ p) :
    ∃ rows r x, cecFront 1 1 p = some rows ∧ r ∈ rows ∧ CecBox 1 n x ∧ (cecDF 1 x 1).getD 0 0 = r.getD 0 0 ∧ (cecDF 1 x 1).getD 1 0 < r.getD 1 0 := by
  have hp' : (3 : ℝ) ≤ p := by exact_mod_cast hp
  set u : ℝ := 1 / ((p : ℝ) - 1) with hu
  have hu0 : 0 < u := by rw [hu]; apply div_pos <;> linarith
  have hu1 : u < 1 := by rw [hu, div_lt_one] <;> linarith
  refine ⟨_, [u, 1 - u ^ (2 : ℝ)], u :: List.replicate (n - 1) 1, rfl, ?_, ?_, ?_⟩
  · refine List.mem_map.2 ⟨u, List.mem_map.2 ⟨1, by simp; omega, by rw [hu]; push_cast; ring⟩, ?_⟩
    have hs := dfSin_one
    rw [dfSin] at hs
    rw [hs]
    norm_num
  · refine (C167_bounds_partial n _).1.2 ⟨by simp; omega, fun v hv => ?_, fun v hv => ?_⟩
    · simp at hv; subst hv; exact ⟨hu0.le, hu1.le⟩
    · simp at hv; obtain ⟨_, rfl⟩ := hv; norm_num
  · have h := (C167_df1_differs (u :: List.replicate (n - 1) 1) 1 (by simpa using hu0)
      (by rw [dfSin_one, abs_one, List.tail_cons, dfDist_rep]; simpa using hu1)).1 (by rw [dfSin_one]; norm_num)
    have e : df1 1 (u :: List.replicate (n - 1) 1) 1 = 1 - u ^ (2 : ℝ) := by
      simp [df1, dfSin_one, dfDist_rep]; norm_num
    rw [e] at h
    exact ⟨by simp [cecDF, cec1], by simpa using h⟩

end Props
