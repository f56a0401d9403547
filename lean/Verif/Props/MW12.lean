import Verif.Model.MW12
import Verif.Props.MW
import Mathlib.Analysis.Real.Pi.Bounds

/-!
# C130: the front of MW12

The loop scales every point until the second constraint holds. Where the first objective is 0 the two constraints of MW12 leave one point, `(0, 1)`, below
1.3; scaling by 1.001 never meets it, and the returned point is infeasible.
-/

set_option linter.unusedSimpArgs false
set_option linter.unusedVariables false

namespace Props
open Model Spec Lemmas

/-- What the loop returns: the first multiple by a power of 1.001 at which the second constraint holds. -/
theorem C130_mw12_loop (fuel : ℕ) (F G : Fin 2 → ℝ) (h : mw12Loop fuel F = some G) :
    ∃ k ≤ fuel, (∀ i, G i = F i * 1.001 ^ k) ∧ mw12Con G 1 ≤ 0 ∧ ∀ j < k, 0 < mw12Con (fun i => F i * 1.001 ^ j) 1 := by
  have hinv : ∀ F : Fin 2 → ℝ, mw12Invalid F ↔ 0 < mw12Con F 1 := fun F => by simp [mw12Invalid, mw12Con]
  induction fuel generalizing F with
  | zero =>
    by_cases hF : mw12Invalid F
    · simp [mw12Loop, hF] at h
    · simp [mw12Loop, hF] at h
      subst h
      exact ⟨0, le_rfl, by simp, not_lt.1 fun hc => hF ((hinv _).2 hc), by simp⟩
  | succ fuel ih =>
    by_cases hF : mw12Invalid F
    · simp only [mw12Loop, hF, if_true] at h
      obtain ⟨k, hk, hG, hc, hj⟩ := ih _ h
      refine ⟨k + 1, by omega, fun i => by rw [hG i]; ring, hc, fun j hjk => ?_⟩
      cases j with
      | zero => simpa using (hinv F).1 hF
      | succ j =>
        have := hj j (by omega)
        have e : (fun i => F i * 1.001 ^ (j + 1)) = fun i => F i * 1.001 * 1.001 ^ j := funext fun i => by ring
        rw [e]; exact this
    · simp [mw12Loop, hF] at h
      subst h
      exact ⟨0, by omega, by simp, not_lt.1 fun hc => hF ((hinv _).2 hc), by simp⟩

/-- The common factor of the two constraints for a first objective of 0: positive below 1, negative above. -/
theorem mw12_factor (y : ℝ) : (y < 1 → 0 < 1 - y + 0.08 * Real.sin (2 * Real.pi * y)) ∧ (1 < y → 1 - y + 0.08 * Real.sin (2 * Real.pi * y) < 0) := by
  have hpi := Real.pi_pos
  have hpi' := Real.pi_lt_d2
  constructor
  · intro h
    have e : Real.sin (2 * Real.pi * y) = -Real.sin (2 * Real.pi * (1 - y)) := by
      rw [← Real.sin_neg, ← Real.sin_sub_two_pi (2 * Real.pi * y)]; congr 1; ring
    have hs : Real.sin (2 * Real.pi * (1 - y)) ≤ 2 * Real.pi * (1 - y) := Real.sin_le (by nlinarith)
    rw [e]
    nlinarith
  · intro h
    have e : Real.sin (2 * Real.pi * y) = Real.sin (2 * Real.pi * (y - 1)) := by
      rw [← Real.sin_sub_two_pi]; congr 1; ring
    have hs : Real.sin (2 * Real.pi * (y - 1)) ≤ 2 * Real.pi * (y - 1) := Real.sin_le (by nlinarith)
    rw [e]
    nlinarith

/-- The constraints of MW12 for a first objective of 0. -/
theorem mw12Con_zero (y : ℝ) :
    mw12Con ![0, y] 0 = -(1 - y + 0.08 * Real.sin (2 * Real.pi * y)) * (1.4 - y + 0.08 * Real.sin (2 * Real.pi * (y / 1.4))) ∧
    mw12Con ![0, y] 1 = (1 - y + 0.08 * Real.sin (2 * Real.pi * y)) * (1.8 - y + 0.08 * Real.sin (2 * Real.pi * (y / 1.8))) := by
  simp [mw12Con]

/-- Every feasible objective vector of MW12 whose first entry is 0 has 1, or more than 1.3, as its second entry. -/
theorem C130_mw12_corner (f : Fin 2 → ℝ) (h0 : f 0 = 0) (hc : ∀ i, mw12Con f i ≤ 0) : f 1 = 1 ∨ 1.3 < f 1 := by
  have ef : f = ![0, f 1] := by ext i; fin_cases i <;> simp [h0]
  rw [ef] at hc
  have c0 := hc 0
  have c1 := hc 1
  rw [(mw12Con_zero _).1] at c0
  rw [(mw12Con_zero _).2] at c1
  obtain ⟨p, q⟩ := mw12_factor (f 1)
  have s4 := Real.neg_one_le_sin (2 * Real.pi * (f 1 / 1.4))
  have s8 := Real.neg_one_le_sin (2 * Real.pi * (f 1 / 1.8))
  by_contra hne
  push Not at hne
  rcases lt_trichotomy (f 1) 1 with h | h | h
  · have := mul_pos (p h) (show 0 < 1.8 - f 1 + 0.08 * Real.sin (2 * Real.pi * (f 1 / 1.8)) by linarith)
    linarith
  · exact hne.1 h
  · have := mul_pos (neg_pos.2 (q h)) (show 0 < 1.4 - f 1 + 0.08 * Real.sin (2 * Real.pi * (f 1 / 1.4)) by linarith [hne.2])
    linarith

/-- No power of 1.001 scales 0.85 to 1: an odd number would be even. -/
theorem mw12_never_one (k : ℕ) : (0.85 : ℝ) * 1.001 ^ k ≠ 1 := by
  intro h
  have h1 : (17 : ℝ) * 1001 ^ k = 20 * 1000 ^ k := by
    have e : (1.001 : ℝ) = 1001 / 1000 := by norm_num
    rw [e, div_pow] at h
    have hne : (1000 : ℝ) ^ k ≠ 0 := by positivity
    field_simp at h
    linarith
  have h2 : 17 * 1001 ^ k = 20 * 1000 ^ k := by exact_mod_cast h1
  have h3 : (17 * 1001 ^ k) % 2 = 1 := by rw [Nat.mul_mod, Nat.pow_mod]; simp
  rw [h2] at h3
  omega

/-- What the loop returns for the row `(0, 0.85)` is above 1 by at most 0.001, and violates the first constraint. -/
theorem mw12_row (fuel : ℕ) (G : Fin 2 → ℝ) (h : mw12Loop fuel ![0, 0.85] = some G) :
    G 0 = 0 ∧ 1 < G 1 ∧ G 1 ≤ 1.001 ∧ 0 < mw12Con G 0 := by
  obtain ⟨k, -, hG, hc, hj⟩ := C130_mw12_loop fuel _ _ h
  have g0 : G 0 = 0 := by rw [hG 0]; simp
  have g1 : G 1 = 0.85 * 1.001 ^ k := by rw [hG 1]; simp
  have ef : G = ![0, G 1] := by ext i; fin_cases i <;> simp [g0]
  have hne : G 1 ≠ 1 := by rw [g1]; exact mw12_never_one k
  have s8 := Real.neg_one_le_sin (2 * Real.pi * (G 1 / 1.8))
  have hgt : 1 < G 1 := by
    by_contra hle
    have hlt : G 1 < 1 := lt_of_le_of_ne (not_lt.1 hle) hne
    rw [ef, (mw12Con_zero _).2] at hc
    have := mul_pos ((mw12_factor _).1 hlt) (show 0 < 1.8 - G 1 + 0.08 * Real.sin (2 * Real.pi * (G 1 / 1.8)) by linarith)
    linarith
  have hle : G 1 ≤ 1.001 := by
    cases k with
    | zero => rw [g1]; norm_num
    | succ k =>
      by_contra hbig
      have h1 := hj k (by omega)
      set y : ℝ := 0.85 * 1.001 ^ k with hy
      have ey : (fun i => (![0, 0.85] : Fin 2 → ℝ) i * 1.001 ^ k) = ![0, y] := by
        ext i; fin_cases i <;> simp [hy]
      rw [ey, (mw12Con_zero _).2] at h1
      have hyG : G 1 = y * 1.001 := by rw [g1, hy]; ring
      have hy1 : 1 < y := by
        have := not_le.1 hbig
        rw [hyG] at this
        linarith
      -- the factor is negative at `y`, so that the other one is negative, and then `y` is above 1.72
      have hneg := (mw12_factor y).2 hy1
      have hC : 1.8 - y + 0.08 * Real.sin (2 * Real.pi * (y / 1.8)) < 0 := by
        by_contra hC
        nlinarith [not_lt.1 hC]
      have hy2 : 1.7 < y := by linarith [Real.neg_one_le_sin (2 * Real.pi * (y / 1.8))]
      -- but an earlier multiple is between 1 and 1.001
      have hbase : (0.85 : ℝ) * 1.001 ^ 163 ≤ 1.001 := by norm_num
      have hbase1 : (1 : ℝ) ≤ 0.85 * 1.001 ^ 163 := by norm_num
      have hk : 163 < k := by
        by_contra hk
        have : (1.001 : ℝ) ^ k ≤ 1.001 ^ 163 := pow_le_pow_right₀ (by norm_num) (by omega)
        rw [hy] at hy2
        linarith
      have h2 := hj 163 (by omega)
      have e2 : (fun i => (![0, 0.85] : Fin 2 → ℝ) i * 1.001 ^ 163) = ![0, 0.85 * 1.001 ^ 163] := by
        ext i; fin_cases i <;> simp
      rw [e2, (mw12Con_zero _).2] at h2
      have hn := (mw12_factor (0.85 * 1.001 ^ 163)).2 (lt_of_le_of_ne hbase1 (mw12_never_one 163).symm)
      have hp : 0 < 1.8 - 0.85 * 1.001 ^ 163 + 0.08 * Real.sin (2 * Real.pi * (0.85 * 1.001 ^ 163 / 1.8)) := by
        linarith [Real.neg_one_le_sin (2 * Real.pi * (0.85 * 1.001 ^ 163 / 1.8))]
      have := mul_neg_of_neg_of_pos hn hp
      linarith
  refine ⟨g0, hgt, hle, ?_⟩
  rw [ef, (mw12Con_zero _).1]
  refine mul_pos (neg_pos.2 ((mw12_factor _).2 hgt)) ?_
  linarith [Real.neg_one_le_sin (2 * Real.pi * (G 1 / 1.4))]

theorem mapM_some_mem {α β : Type} {f : α → Option β} : ∀ {l : List α} {r : List β}, l.mapM f = some r → ∀ {a}, a ∈ l → ∃ b ∈ r, f a = some b := by
  intro l
  induction l with
  | nil => intro r _ a ha; simp at ha
  | cons v l ih =>
    intro r h a ha
    simp only [List.mapM_cons, Option.bind_eq_bind, Option.bind_eq_some_iff, Option.pure_def, Option.some.injEq] at h
    obtain ⟨b, hb, r', hr', rfl⟩ := h
    rcases List.mem_cons.1 ha with rfl | ha
    · exact ⟨b, by simp, hb⟩
    · obtain ⟨c, hc, e⟩ := ih hr' ha
      exact ⟨c, by simp [hc], e⟩

/-- The loop ends for that row within 163 rounds: the front for the single row `(0, ·)` is computed. -/
theorem C130_mw12_ends : ∃ G c, mw12Front 163 (some [![0, 0]]) = some (G, c) := by
  have hstep : ∀ fuel k : ℕ, k + fuel = 163 → ∃ g, mw12Loop fuel ![0, 0.85 * 1.001 ^ k] = some g := by
    intro fuel
    induction fuel with
    | zero =>
      intro k hk
      obtain rfl : k = 163 := by omega
      have hb : (0.85 : ℝ) * 1.001 ^ 163 ≤ 1.001 := by norm_num
      have hb1 : (1 : ℝ) ≤ 0.85 * 1.001 ^ 163 := by norm_num
      have hn := (mw12_factor (0.85 * 1.001 ^ 163)).2 (lt_of_le_of_ne hb1 (mw12_never_one 163).symm)
      have hp : 0 < 1.8 - 0.85 * 1.001 ^ 163 + 0.08 * Real.sin (2 * Real.pi * (0.85 * 1.001 ^ 163 / 1.8)) := by
        linarith [Real.neg_one_le_sin (2 * Real.pi * (0.85 * 1.001 ^ 163 / 1.8))]
      have hni : ¬ mw12Invalid ![0, 0.85 * 1.001 ^ 163] := by
        have h2 := (mw12Con_zero (0.85 * 1.001 ^ 163)).2
        have h3 := mul_neg_of_neg_of_pos hn hp
        intro hi
        have hi' : 0 < mw12Con ![0, 0.85 * 1.001 ^ 163] 1 := by
          simpa only [mw12Invalid, mw12Con, Matrix.cons_val_zero, Matrix.cons_val_one, gt_iff_lt] using hi
        rw [h2] at hi'
        linarith
      exact ⟨_, by rw [mw12Loop, if_neg hni]⟩
    | succ fuel ih =>
      intro k hk
      by_cases hi : mw12Invalid ![0, 0.85 * 1.001 ^ k]
      · obtain ⟨g, hg⟩ := ih (k + 1) (by omega)
        refine ⟨g, ?_⟩
        rw [mw12Loop, if_pos hi, ← hg]
        congr 1
        ext i; fin_cases i <;> simp [pow_succ]; ring
      · exact ⟨_, by rw [mw12Loop, if_neg hi]⟩
  obtain ⟨g, hg⟩ := hstep 163 0 rfl
  refine ⟨[g], [g], ?_⟩
  simp at hg
  simp [mw12Front, mwRows, hg]

/-- C130 is violated by MW12: whenever the front is computed from rows of which one has the first entry 0 (as the default rows do), a returned point is
infeasible: no solution whose constraints hold has these objectives. -/
theorem C130_mw12_refuted (n fuel : ℕ) (refDirs : Option (List (Fin 2 → ℝ))) (h : ∀ R, refDirs = some R → ∃ r ∈ R, r 0 = 0)
    (G c : List (Fin 2 → ℝ)) (hG : mw12Front fuel refDirs = some (G, c)) :
    ∃ g ∈ G, ∀ x, mw12 n x = g → ¬ ∀ i, mw12Con (mw12 n x) i ≤ 0 := by
  unfold mw12Front at hG
  simp only [Option.map_eq_some_iff] at hG
  obtain ⟨G', hG', he⟩ := hG
  obtain rfl : G' = G := congrArg Prod.fst he
  have hmem : (![0, 0.85] : Fin 2 → ℝ) ∈ (mwRows (fun t => 0.85 - 0.8 * t - 0.08 * |Real.sin (3.2 * Real.pi * t)|) refDirs).1 := by
    cases refDirs with
    | none => exact List.mem_map.2 ⟨0, List.mem_map.2 ⟨0, by simp, by simp⟩, by simp⟩
    | some R =>
      obtain ⟨r, hr, h0⟩ := h R rfl
      exact List.mem_map.2 ⟨r, hr, by simp [h0]⟩
  obtain ⟨g, hg, hrow⟩ : ∃ g ∈ G', mw12Loop fuel ![0, 0.85] = some g := by
    exact mapM_some_mem hG' hmem
  obtain ⟨g0, g1, g2, hc⟩ := mw12_row fuel g hrow
  refine ⟨g, hg, fun x hx hf => ?_⟩
  have := hf 0
  rw [hx] at this
  linarith

example : ∃ G c, mw12Front 163 (some [![0, 0]]) = some (G, c) ∧ ∃ g ∈ G, ∀ x, mw12 15 x = g → ¬ ∀ i, mw12Con (mw12 15 x) i ≤ 0 := by
  obtain ⟨G, c, h⟩ := C130_mw12_ends
  exact ⟨G, c, h, C130_mw12_refuted 15 163 _ (fun R hR => ⟨![0, 0], by cases hR; simp, rfl⟩) G c h⟩

example : (![0, 1] : Fin 2 → ℝ) 0 = 0 ∧ ∀ i, mw12Con ![0, 1] i ≤ 0 := by
  refine ⟨rfl, fun i => ?_⟩
  have e : Real.sin (2 * Real.pi * 1) = 0 := by rw [mul_one]; exact Real.sin_two_pi
  fin_cases i
  · simp only [Fin.zero_eta]; rw [(mw12Con_zero 1).1, e]; norm_num
  · simp only [Fin.mk_one]; rw [(mw12Con_zero 1).2, e]; norm_num

end Props
