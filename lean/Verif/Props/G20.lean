import Mathlib.Tactic.IntervalCases
import Mathlib.Tactic.Linarith
import Mathlib.Tactic.Positivity
import Verif.Model.GMore

/-!
# C132, continued: G20 has no feasible solution
-/

namespace Props
open Spec Model

set_option linter.unusedVariables false

set_option maxHeartbeats 1000000 in
/-- C132, G20: no row is feasible. -/
theorem C132_g20_infeasible (y : List ℝ) : ¬ g20Problem.Feasible y := by
  rintro ⟨⟨hl, hb⟩, hg, hh⟩
  have b : ∀ i, i < 24 → 0 ≤ col y i := fun i hi => by
    have := (hb i (by rw [hl]; exact hi)).1
    rwa [show g20Problem.xl.getD i 0 = 0 by interval_cases i <;> rfl] at this
  have hS : (cols 24 y).sum = 1 := by
    have := hh ((cols 24 y).sum - 1) (by simp [g20Problem])
    linarith
  have h14 := hh (((List.range 12).map fun i => col y i / g20D.getD i 0).sum + 0.7302 * 530 * (14.7 / 40) * g20S y 12 - 1.671) (by simp [g20Problem])
  have hi : ∀ i, i < 12 → col y (i + 12) / (g20B.getD i 0 * g20S y 12) - g20C.getD i 0 * col y i / (40 * g20B.getD i 0 * g20S y 0) = 0 := fun i hi =>
    hh _ (List.mem_append_left _ (List.mem_map.2 ⟨i, List.mem_range.2 hi, rfl⟩))
  have hz : ∀ i e, i < 12 → (col y i + col y (i + 12)) / (1 + e) ≤ 0 → 0 < e → col y i = 0 ∧ col y (i + 12) = 0 := fun i e hi he h0 => by
    have b1 := b i (by omega)
    have b2 := b (i + 12) (by omega)
    rw [div_le_iff₀ (by linarith)] at he
    constructor <;> linarith
  have gz1 : ∀ i, i < 3 → (col y i + col y (i + 12)) / (1 + g20E.getD i 0) ≤ 0 := fun i hi => by
    have := hg _ (List.mem_append_left _ (List.mem_map.2 ⟨i, List.mem_range.2 hi, rfl⟩))
    rwa [hS] at this
  have gz2 : ∀ i, i < 3 → (col y (i + 6) + col y (i + 6 + 12)) / (1 + g20E.getD (i + 3) 0) ≤ 0 := fun i hi => by
    have := hg _ (List.mem_append_right _ (List.mem_map.2 ⟨i, List.mem_range.2 hi, rfl⟩))
    rwa [hS] at this
  have z0 := hz 0 _ (by norm_num) (gz1 0 (by norm_num)) (by norm_num [g20E])
  have z1 := hz 1 _ (by norm_num) (gz1 1 (by norm_num)) (by norm_num [g20E])
  have z2 := hz 2 _ (by norm_num) (gz1 2 (by norm_num)) (by norm_num [g20E])
  have z6 := hz 6 _ (by norm_num) (gz2 0 (by norm_num)) (by norm_num [g20E])
  have z7 := hz 7 _ (by norm_num) (gz2 1 (by norm_num)) (by norm_num [g20E])
  have z8 := hz 8 _ (by norm_num) (gz2 2 (by norm_num)) (by norm_num [g20E])
  have e3 := hi 3 (by norm_num); have e4 := hi 4 (by norm_num); have e5 := hi 5 (by norm_num)
  have e9 := hi 9 (by norm_num); have e10 := hi 10 (by norm_num); have e11 := hi 11 (by norm_num)
  have p3 := b 3 (by norm_num); have p4 := b 4 (by norm_num); have p5 := b 5 (by norm_num); have p9 := b 9 (by norm_num); have p10 := b 10 (by norm_num); have p11 := b 11 (by norm_num)
  have q3 := b 15 (by norm_num); have q4 := b 16 (by norm_num); have q5 := b 17 (by norm_num); have q9 := b 21 (by norm_num); have q10 := b 22 (by norm_num); have q11 := b 23 (by norm_num)
  have s1 : g20S y 0 = col y 3 / 137.4 + col y 4 / 120.9 + col y 5 / 170.9 + col y 9 / 82.507 + col y 10 / 46.07 + col y 11 / 60.097 := by
    simp only [Nat.reduceAdd] at z0 z1 z2 z6 z7 z8
    simp [g20S, List.range_succ, g20B, z0, z1, z2, z6, z7, z8]; ring
  have s2 : g20S y 12 = col y 15 / 137.4 + col y 16 / 120.9 + col y 17 / 170.9 + col y 21 / 82.507 + col y 22 / 46.07 + col y 23 / 60.097 := by
    simp only [Nat.reduceAdd] at z0 z1 z2 z6 z7 z8
    simp [g20S, List.range_succ, g20B, z0, z1, z2, z6, z7, z8]; ring
  have m : col y 3 + col y 4 + col y 5 + col y 9 + col y 10 + col y 11 + (col y 15 + col y 16 + col y 17 + col y 21 + col y 22 + col y 23) = 1 := by
    simp only [Nat.reduceAdd] at z0 z1 z2 z6 z7 z8
    rw [← hS]
    simp [cols, List.range_succ, z0, z1, z2, z6, z7, z8]; ring
  have d14 : col y 3 / 92.7 + col y 4 / 82.7 + col y 5 / 91.6 + col y 9 / 64.517 + col y 10 / 49.4 + col y 11 / 49.1 + 0.7302 * 530 * (14.7 / 40) * g20S y 12 = 1.671 := by
    simp only [Nat.reduceAdd] at z0 z1 z2 z6 z7 z8
    simp [List.range_succ, g20D, z0, z1, z2, z6, z7, z8] at h14
    linarith
  simp only [g20B, g20C, List.getD_cons_succ, List.getD_cons_zero, Nat.reduceAdd] at e3 e4 e5 e9 e10 e11
  clear hi hz gz1 gz2 z0 z1 z2 z6 z7 z8 h14 hS hh hg hb hl b
  generalize g20S y 12 = S2 at *
  generalize g20S y 0 = S1 at *
  generalize col y 3 = x3 at *
  generalize col y 4 = x4 at *
  generalize col y 5 = x5 at *
  generalize col y 9 = x9 at *
  generalize col y 10 = x10 at *
  generalize col y 11 = x11 at *
  generalize col y 15 = y3 at *
  generalize col y 16 = y4 at *
  generalize col y 17 = y5 at *
  generalize col y 21 = y9 at *
  generalize col y 22 = y10 at *
  generalize col y 23 = y11 at *
  have S2p : 0.0116 ≤ S2 := by
    ring_nf at d14
    linarith only [d14, m, p3, p4, p5, p9, p10, p11, q3, q4, q5, q9, q10, q11]
  have S2q : 0 < S2 := by linarith only [S2p]
  have S1p : 0 < S1 := by
    rcases (show 0 ≤ S1 by rw [s1]; positivity).lt_or_eq with h | h
    · exact h
    · exfalso
      have k : ∀ {u v w : ℝ}, 0 < w → u / (w * S2) - v / (40 * w * S1) = 0 → u = 0 := fun {u v w} hw h' => by
        rw [← h, mul_zero, div_zero, sub_zero, div_eq_zero_iff] at h'
        rcases h' with h' | h'
        · exact h'
        · exact absurd h' (mul_pos hw (by linarith only [S2p])).ne'
      have w3 := k (by norm_num) e3; have w4 := k (by norm_num) e4; have w5 := k (by norm_num) e5; have w9 := k (by norm_num) e9; have w10 := k (by norm_num) e10; have w11 := k (by norm_num) e11
      rw [w3, w4, w5, w9, w10, w11] at s2
      linarith only [s2, S2p]
  have k : ∀ {u v w c : ℝ}, 0 < w → u / (w * S2) - c * v / (40 * w * S1) = 0 → 40 * u * S1 = c * v * S2 := fun {u v w c} hw h' => by
    have : u / (w * S2) = c * v / (40 * w * S1) := by linarith
    rw [div_eq_div_iff (mul_pos hw S2q).ne' (by positivity)] at this
    have h2 : w * (40 * u * S1) = w * (c * v * S2) := by linarith
    exact mul_left_cancel₀ hw.ne' h2
  have k3 := k (by norm_num) e3
  have k4 := k (by norm_num) e4
  have k5 := k (by norm_num) e5
  have k9 := k (by norm_num) e9
  have k10 := k (by norm_num) e10
  have k11 := k (by norm_num) e11
  -- the balance of the molar fractions
  have bal : 40 * S1 * S2 = (14.7 * x3 / 137.4 + 84.7 * x4 / 120.9 + 27.7 * x5 / 170.9 + 17.7 * x9 / 82.507 + 0.85 * x10 / 46.07 + 0.64 * x11 / 60.097) * S2 := by
    have : 40 * S1 * S2 = 40 * S1 * (y3 / 137.4 + y4 / 120.9 + y5 / 170.9 + y9 / 82.507 + y10 / 46.07 + y11 / 60.097) := by rw [s2]
    rw [this]
    linear_combination k3 / 137.4 + k4 / 120.9 + k5 / 170.9 + k9 / 82.507 + k10 / 46.07 + k11 / 60.097
  have bal' : 40 * S1 = 14.7 * x3 / 137.4 + 84.7 * x4 / 120.9 + 27.7 * x5 / 170.9 + 17.7 * x9 / 82.507 + 0.85 * x10 / 46.07 + 0.64 * x11 / 60.097 :=
    mul_right_cancel₀ (by linarith only [S2p] : 0 < S2).ne' bal
  have mass : 100 * S1 ≤ (14.7 * x3 + 84.7 * x4 + 27.7 * x5 + 17.7 * x9 + 0.85 * x10 + 0.64 * x11) / 40 := by
    ring_nf at bal' s1 ⊢
    linarith only [bal', s1, p3, p4, p5, p9, p10, p11]
  have mass' : 40 * S1 * (100 * S2) ≤ 40 * S1 * (y3 + y4 + y5 + y9 + y10 + y11) := by
    have := mul_le_mul_of_nonneg_right mass (by linarith only [S2p] : 0 ≤ 40 * S2)
    linarith only [this, k3, k4, k5, k9, k10, k11]
  have := le_of_mul_le_mul_left mass' (by positivity)
  linarith only [this, m, S2p, p3, p4, p5, p9, p10, p11]

/-- C132, G20: refuted. The documented solution is not feasible (no row is); it misses an inequality constraint by more than 0.3. -/
theorem C132_g20_refuted : ¬ g20Problem.Feasible g20Set ∧ ∃ g ∈ g20Problem.G g20Set, 0.3 ≤ g := by
  refine ⟨C132_g20_infeasible _, (col g20Set 7 + col g20Set 19) / ((cols 24 g20Set).sum + 0.6), ?_, ?_⟩
  · exact List.mem_append_right _ (List.mem_map.2 ⟨1, by simp, rfl⟩)
  · norm_num [cols, List.range_succ, col, g20Set]

/-- C132: for every row the evaluations of G5, G8 and G20 set as many constraint values as the problems declare (g.py:176, 281, 917). -/
theorem C132_shapes_rest (x : List ℝ) :
    ((g5Problem.G x).length, (g5Problem.H x).length) = (2, 3) ∧ ((g8Problem.G x).length, (g8Problem.H x).length) = (2, 0) ∧ ((g20Problem.G x).length, (g20Problem.H x).length) = (6, 14) := by
  refine ⟨rfl, rfl, ?_⟩
  simp [g20Problem]

end Props
