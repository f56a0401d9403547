import Verif.Model.Repair
import Mathlib.Tactic.Linarith
import Mathlib.Tactic.FieldSimp
import Mathlib.Tactic.Ring
import Mathlib.Data.Rat.Floor
import Mathlib.Tactic.NormNum
import Mathlib.Algebra.Order.Archimedean.Basic
import Mathlib.Data.Fin.VecNotation

/-! # C24 (bound repairs) and C46 (rounding repair) -/

set_option linter.unusedSectionVars false
set_option linter.unusedSimpArgs false

namespace Props
open Model

variable {K : Type*} [Field K] [LinearOrder K] [IsStrictOrderedRing K] {r n : ℕ}

/-- C24. A row is listed as out of bounds iff some entry is outside `[xl, xu]`, as in bounds iff none is; every row is in
exactly one of the two lists. -/
theorem C24_bounds_check (X : Fin r → Fin n → K) (xl xu : Fin n → K) (i : Fin r) :
    (i ∈ isInBounds X xl xu ↔ ∀ j, xl j ≤ X i j ∧ X i j ≤ xu j) ∧
    (i ∈ isOutOfBounds X xl xu ↔ ∃ j, X i j < xl j ∨ xu j < X i j) ∧
    (i ∈ isOutOfBounds X xl xu ↔ i ∉ isInBounds X xl xu) := by
  have h1 : i ∈ isInBounds X xl xu ↔ ∀ j, xl j ≤ X i j ∧ X i j ≤ xu j := by
    simp [isInBounds, List.mem_filter, List.all_eq_true]
  have h2 : i ∈ isOutOfBounds X xl xu ↔ ∃ j, X i j < xl j ∨ xu j < X i j := by
    simp [isOutOfBounds, List.mem_filter, List.any_eq_true]
  refine ⟨h1, h2, ?_⟩
  rw [h1, h2]
  simp only [not_forall, not_and_or, not_le]

/-- C24, clamping (`repair_clamp`, `to_bounds`): every entry is the nearest point of `[xl, xu]`: the lower bound if it was
below, the upper bound if it was above, unchanged otherwise; so it is in bounds. -/
theorem C24_clamp (X : Fin r → Fin n → K) (xl xu : Fin n → K) (h : ∀ j, xl j ≤ xu j) (i : Fin r) (j : Fin n) :
    let y := repairClamp X xl xu i j
    xl j ≤ y ∧ y ≤ xu j ∧ (X i j < xl j → y = xl j) ∧ (xu j < X i j → y = xu j) ∧
      (xl j ≤ X i j → X i j ≤ xu j → y = X i j) := by
  have hj := h j
  simp only [repairClamp, setWhere, below, above, decide_eq_true_eq]
  by_cases h1 : X i j < xl j
  · simp only [h1, if_true, if_pos]
    rw [if_neg (not_lt.2 hj)]
    exact ⟨le_refl _, hj, fun _ => rfl, fun h => absurd (h1.trans_le hj) (not_lt.2 h.le), fun h => absurd h1 (not_lt.2 h)⟩
  · simp only [h1, if_false]
    by_cases h2 : xu j < X i j
    · rw [if_pos h2]
      exact ⟨hj, le_refl _, fun h => absurd h id, fun _ => rfl, fun _ h => absurd h2 (not_lt.2 h)⟩
    · rw [if_neg h2]
      exact ⟨not_lt.1 h1, not_lt.1 h2, fun h => absurd h id, fun h => absurd h h2, fun _ _ => rfl⟩

/-- C24, `set_to_bounds_if_outside`: with both bounds it is clamping; a missing bound is not enforced, and nothing is
changed without bounds. -/
theorem C24_set_to_bounds (X : Fin r → Fin n → K) (xl xu : Fin n → K) :
    setToBounds X (some xl) (some xu) = repairClamp X xl xu ∧ setToBounds X none none = X ∧
    (∀ i j, xl j ≤ setToBounds X (some xl) none i j ∧ (xl j ≤ X i j → setToBounds X (some xl) none i j = X i j)) ∧
    (∀ i j, setToBounds X none (some xu) i j ≤ xu j ∧ (X i j ≤ xu j → setToBounds X none (some xu) i j = X i j)) := by
  refine ⟨rfl, rfl, fun i j => ?_, fun i j => ?_⟩
  · simp only [setToBounds, setWhere, below, decide_eq_true_eq]
    split_ifs with h
    · exact ⟨le_refl _, fun h' => absurd h (not_lt.2 h')⟩
    · exact ⟨not_lt.1 h, fun _ => rfl⟩
  · simp only [setToBounds, setWhere, above, decide_eq_true_eq]
    split_ifs with h
    · exact ⟨le_refl _, fun h' => absurd h (not_lt.2 h')⟩
    · exact ⟨not_lt.1 h, fun _ => rfl⟩

theorem npMod_spec [FloorRing K] (a s : K) (hs : 0 < s) :
    ∃ v, npMod a s = some v ∧ 0 ≤ v ∧ v < s ∧ ∃ k : ℤ, v = a + k * s := by
  refine ⟨a - s * (⌊a / s⌋ : ℤ), by simp [npMod, hs.ne'], ?_, ?_, -⌊a / s⌋, by push_cast; ring⟩
  · have := Int.floor_le (a / s)
    rw [le_div_iff₀ hs] at this
    nlinarith
  · have := Int.lt_floor_add_one (a / s)
    rw [div_lt_iff₀ hs] at this
    nlinarith

/-- C24, periodic wrapping: for `xl < xu` every entry is in bounds afterwards, differs from the input by a whole number of
periods `xu - xl`, and is unchanged if it was in bounds. -/
theorem C24_periodic_partial [FloorRing K] (X : Fin r → Fin n → K) (xl xu : Fin n → K) (i : Fin r) (j : Fin n)
    (h : xl j < xu j) :
    ∃ y, repairPeriodic X xl xu i j = some y ∧ xl j ≤ y ∧ y ≤ xu j ∧ (∃ k : ℤ, y = X i j + k * (xu j - xl j)) ∧
      (xl j ≤ X i j → X i j ≤ xu j → y = X i j) := by
  have hs : 0 < xu j - xl j := by linarith
  unfold repairPeriodic repairPeriodicEntry
  by_cases h1 : X i j < xl j
  · obtain ⟨v, e, h0, h2, k, hk⟩ := npMod_spec (xl j - X i j) _ hs
    have : ¬ xu j < xu j - v := by linarith
    refine ⟨xu j - v, by simp [h1, e, this], by linarith, by linarith, ⟨1 - k, ?_⟩, fun h => absurd h1 (not_lt.2 h)⟩
    rw [hk]; push_cast; ring
  · by_cases h2 : xu j < X i j
    · obtain ⟨v, e, h0, h3, k, hk⟩ := npMod_spec (X i j - xu j) _ hs
      refine ⟨xl j + v, by simp [h1, h2, e], by linarith, by linarith, ⟨k - 1, ?_⟩, fun _ h => absurd h2 (not_lt.2 h)⟩
      rw [hk]; push_cast; ring
    · exact ⟨X i j, by simp [h1, h2], not_lt.1 h1, not_lt.1 h2, ⟨0, by simp⟩, fun _ _ => rfl⟩

/-- C24, bounce-back: for `xl < xu` every entry is in bounds afterwards; an entry below (above) is mirrored at the lower
(upper) bound, up to whole ranges; an entry in bounds is unchanged. -/
theorem C24_bounce_back_partial [FloorRing K] (X : Fin r → Fin n → K) (xl xu : Fin n → K) (i : Fin r) (j : Fin n)
    (h : xl j < xu j) :
    ∃ y, bounceBack X xl xu i j = some y ∧ xl j ≤ y ∧ y ≤ xu j ∧
      (X i j < xl j → ∃ k : ℤ, y - xl j = (xl j - X i j) + k * (xu j - xl j)) ∧
      (xu j < X i j → ∃ k : ℤ, xu j - y = (X i j - xu j) + k * (xu j - xl j)) ∧
      (xl j ≤ X i j → X i j ≤ xu j → y = X i j) := by
  have hs : 0 < xu j - xl j := by linarith
  unfold bounceBack bounceBackEntry
  by_cases h1 : X i j < xl j
  · obtain ⟨v, e, h0, h2, k, hk⟩ := npMod_spec (xl j - X i j) _ hs
    have : ¬ xu j < xl j + v := by linarith
    refine ⟨xl j + v, by simp [h1, e, this], by linarith, by linarith, fun _ => ⟨k, by rw [hk]; ring⟩,
      fun h' => ?_, fun h => absurd h1 (not_lt.2 h)⟩
    exact absurd (h1.trans (h.trans h')) (lt_irrefl _)
  · by_cases h2 : xu j < X i j
    · obtain ⟨v, e, h0, h3, k, hk⟩ := npMod_spec (X i j - xu j) _ hs
      refine ⟨xu j - v, by simp [h1, h2, e], by linarith, by linarith, fun h' => absurd h' h1,
        fun _ => ⟨k, by rw [hk]; ring⟩, fun _ h => absurd h2 (not_lt.2 h)⟩
    · exact ⟨X i j, by simp [h1, h2], not_lt.1 h1, not_lt.1 h2, fun h' => absurd h' h1, fun h' => absurd h' h2,
        fun _ _ => rfl⟩

/-- C24 as stated (for `xl <= xu`) fails for periodic and bounce-back repair: every value different from the single
admissible one becomes NaN when the bounds coincide. -/
theorem C24_fixed_variable_refuted [FloorRing K] (x b : K) (h : x ≠ b) :
    repairPeriodicEntry x b b = none ∧ bounceBackEntry x b b = none := by
  rcases lt_or_gt_of_ne h with h | h
  · simp [repairPeriodicEntry, bounceBackEntry, npMod, h]
  · simp [repairPeriodicEntry, bounceBackEntry, npMod, h, not_lt.2 h.le]

/-- C24, random re-initialisation between the bound and a parent (`repair_random_init`, the `bounce-back` repair of
differential evolution): for every sequence of random numbers in `[0, 1]` and parents in bounds, every entry is in bounds
afterwards, between the violated bound and the parent, and entries in bounds are unchanged. -/
theorem C24_random_init (Xp X : Fin r → Fin n → K) (xl xu : Fin n → K) (u1 u2 : Fin r → Fin n → K)
    (hu1 : ∀ i j, 0 ≤ u1 i j ∧ u1 i j ≤ 1) (hu2 : ∀ i j, 0 ≤ u2 i j ∧ u2 i j ≤ 1)
    (hX : ∀ i j, xl j ≤ X i j ∧ X i j ≤ xu j) (i : Fin r) (j : Fin n) :
    let y := repairRandomInit Xp X xl xu u1 u2 i j
    xl j ≤ y ∧ y ≤ xu j ∧ (xl j ≤ Xp i j → Xp i j ≤ xu j → y = Xp i j) ∧
      (Xp i j < xl j → y ≤ X i j) ∧ (xu j < Xp i j → X i j ≤ y) := by
  obtain ⟨a1, a2⟩ := hu1 i j
  obtain ⟨b1, b2⟩ := hu2 i j
  obtain ⟨c1, c2⟩ := hX i j
  simp only [repairRandomInit, setWhere, below, above, decide_eq_true_eq]
  by_cases h1 : Xp i j < xl j
  · simp only [h1, if_true]
    have e1 : xl j ≤ xl j + u1 i j * (X i j - xl j) := by nlinarith [mul_nonneg a1 (sub_nonneg.2 c1)]
    have e2 : xl j + u1 i j * (X i j - xl j) ≤ X i j := by nlinarith [mul_nonneg (sub_nonneg.2 a2) (sub_nonneg.2 c1)]
    rw [if_neg (by linarith)]
    exact ⟨e1, e2.trans c2, fun h => absurd h1 (not_lt.2 h), fun _ => e2, fun h => by linarith⟩
  · simp only [h1, if_false]
    by_cases h2 : xu j < Xp i j
    · rw [if_pos h2]
      have e1 : xu j - u2 i j * (xu j - X i j) ≤ xu j := by nlinarith [mul_nonneg b1 (sub_nonneg.2 c2)]
      have e2 : X i j ≤ xu j - u2 i j * (xu j - X i j) := by nlinarith [mul_nonneg (sub_nonneg.2 b2) (sub_nonneg.2 c2)]
      exact ⟨c1.trans e2, e1, fun _ h => absurd h2 (not_lt.2 h), fun h => absurd h id, fun _ => e2⟩
    · rw [if_neg h2]
      exact ⟨not_lt.1 h1, not_lt.1 h2, fun _ _ => rfl, fun h => absurd h id, fun h => absurd h h2⟩

/-- C24, the repairs `midway` and `rand-init` of differential evolution. -/
theorem C24_de_repairs (Xp X : Fin r → Fin n → K) (xl xu : Fin n → K) (u1 u2 : Fin r → Fin n → K)
    (hu1 : ∀ i j, 0 ≤ u1 i j ∧ u1 i j ≤ 1) (hu2 : ∀ i j, 0 ≤ u2 i j ∧ u2 i j ≤ 1) (i : Fin r) (j : Fin n) :
    ((xl j ≤ X i j ∧ X i j ≤ xu j) →
      xl j ≤ repairMidway Xp X xl xu i j ∧ repairMidway Xp X xl xu i j ≤ xu j) ∧
    (xl j ≤ xu j → xl j ≤ repairRandInit Xp xl xu u1 u2 i j ∧ repairRandInit Xp xl xu u1 u2 i j ≤ xu j) ∧
    (xl j ≤ Xp i j → Xp i j ≤ xu j →
      repairMidway Xp X xl xu i j = Xp i j ∧ repairRandInit Xp xl xu u1 u2 i j = Xp i j) := by
  obtain ⟨a1, a2⟩ := hu1 i j
  obtain ⟨b1, b2⟩ := hu2 i j
  refine ⟨?_, ?_, ?_⟩
  · rintro ⟨c1, c2⟩
    simp only [repairMidway, setWhere, below, above, decide_eq_true_eq]
    by_cases h1 : Xp i j < xl j
    · simp only [h1, if_true]
      rw [if_neg (by linarith)]
      constructor <;> linarith
    · simp only [h1, if_false]
      by_cases h2 : xu j < Xp i j
      · rw [if_pos h2]; constructor <;> linarith
      · rw [if_neg h2]; exact ⟨not_lt.1 h1, not_lt.1 h2⟩
  · intro h
    simp only [repairRandInit, setWhere, below, above, decide_eq_true_eq]
    by_cases h1 : Xp i j < xl j
    · simp only [h1, if_true]
      have e1 : 0 ≤ u1 i j * (xu j - xl j) := mul_nonneg a1 (sub_nonneg.2 h)
      have e2 : 0 ≤ (1 - u1 i j) * (xu j - xl j) := mul_nonneg (sub_nonneg.2 a2) (sub_nonneg.2 h)
      rw [if_neg (by nlinarith)]
      constructor <;> nlinarith
    · simp only [h1, if_false]
      by_cases h2 : xu j < Xp i j
      · rw [if_pos h2]
        have e1 : 0 ≤ u2 i j * (xu j - xl j) := mul_nonneg b1 (sub_nonneg.2 h)
        have e2 : 0 ≤ (1 - u2 i j) * (xu j - xl j) := mul_nonneg (sub_nonneg.2 b2) (sub_nonneg.2 h)
        constructor <;> nlinarith
      · rw [if_neg h2]; exact ⟨not_lt.1 h1, not_lt.1 h2⟩
  · intro h1 h2
    simp only [repairMidway, repairRandInit, setWhere, below, above, decide_eq_true_eq]
    simp [not_lt.2 h1, not_lt.2 h2]

/-- C24, inverse penalty: whatever the formula yields, the row returned is in bounds; a row in bounds is returned
unchanged. -/
theorem C24_inverse_penalty (raw x xl xu : Fin n → K) (h : ∀ j, xl j ≤ xu j) :
    (∀ j, xl j ≤ inversePenalty raw x xl xu j ∧ inversePenalty raw x xl xu j ≤ xu j) ∧
    ((∀ j, xl j ≤ x j ∧ x j ≤ xu j) → inversePenalty raw x xl xu = x) := by
  unfold inversePenalty
  by_cases hc : ((List.finRange n).any fun j => decide (x j < xl j) || decide (xu j < x j)) = true
  · rw [if_pos hc]
    refine ⟨fun j => ?_, fun hin => ?_⟩
    · have hj := h j
      simp only
      by_cases h1 : raw j < xl j
      · rw [if_pos h1, if_neg (not_lt.2 hj)]; exact ⟨le_refl _, hj⟩
      · rw [if_neg h1]
        split_ifs with h2
        · exact ⟨hj, le_refl _⟩
        · exact ⟨not_lt.1 h1, not_lt.1 h2⟩
    · obtain ⟨j, -, hj⟩ := List.any_eq_true.1 hc
      simp only [Bool.or_eq_true, decide_eq_true_eq] at hj
      rcases hj with hj | hj
      · exact absurd hj (not_lt.2 (hin j).1)
      · exact absurd hj (not_lt.2 (hin j).2)
  · rw [if_neg hc]
    refine ⟨fun j => ?_, fun _ => rfl⟩
    have : ¬ (x j < xl j ∨ xu j < x j) := by
      intro hj
      exact hc (List.any_eq_true.2 ⟨j, List.mem_finRange _, by simpa using hj⟩)
    simp only [not_or, not_lt] at this
    exact this

/-- C24. The final check of a bound repair operator passes iff all entries are in bounds, so it always passes for
clamping. -/
theorem C24_repair_operator (repair : (Fin r → Fin n → K) → Fin r → Fin n → K) (xl xu : Fin n → K)
    (X : Fin r → Fin n → K) :
    ((∃ Y, boundsRepairDo repair xl xu X = some Y) ↔ ∀ i j, xl j ≤ repair X i j ∧ repair X i j ≤ xu j) ∧
    ((∀ j, xl j ≤ xu j) → boundsRepairDo (fun X => repairClamp X xl xu) xl xu X = some (repairClamp X xl xu)) := by
  have key : ∀ Y : Fin r → Fin n → K, (isOutOfBounds Y xl xu).length = 0 ↔ ∀ i j, xl j ≤ Y i j ∧ Y i j ≤ xu j := by
    intro Y
    rw [List.length_eq_zero_iff, List.eq_nil_iff_forall_not_mem]
    constructor
    · intro h i j
      have := h i
      rw [(C24_bounds_check Y xl xu i).2.2, not_not, (C24_bounds_check Y xl xu i).1] at this
      exact this j
    · intro h i
      rw [(C24_bounds_check Y xl xu i).2.2, not_not, (C24_bounds_check Y xl xu i).1]
      exact h i
  refine ⟨?_, fun h => ?_⟩
  · rw [← key]
    unfold boundsRepairDo
    by_cases hc : (isOutOfBounds (repair X) xl xu).length = 0 <;> simp [hc]
  · unfold boundsRepairDo
    simp only
    rw [if_pos ((key _).2 fun i j => ⟨(C24_clamp X xl xu h i j).1, (C24_clamp X xl xu h i j).2.1⟩)]

example : let X : Fin 2 → Fin 2 → ℚ := ![![-3, 1/2], ![7/2, 2]]
    (List.finRange 2).map (fun i => (List.finRange 2).map (repairClamp X ![0, 0] ![1, 2] i)) = [[0, 1/2], [1, 2]] ∧
    (List.finRange 2).map (fun i => (List.finRange 2).map (repairPeriodic X ![0, 0] ![1, 2] i)) =
      [[some 1, some (1/2)], [some (1/2), some 2]] ∧
    (List.finRange 2).map (fun i => (List.finRange 2).map (bounceBack X ![0, 0] ![1, 2] i)) =
      [[some 0, some (1/2)], [some (1/2), some 2]] ∧
    isOutOfBounds X ![0, 0] ![1, 2] = [0, 1] := by decide +kernel

/-! ## C46 -/

/-- C46. Rounding to integers: within one half of the input, exact on integers, ties to the even neighbour, monotone with
respect to integer bounds: if the variable is within integer bounds, so is the repaired value. -/
theorem C46_rounding [FloorRing K] (X : Fin r → Fin n → K) (i : Fin r) (j : Fin n) :
    let y := roundingRepair X i j
    |X i j - (y : K)| ≤ 1 / 2 ∧ (∀ z : ℤ, X i j = z → y = z) ∧ (|X i j - (y : K)| = 1 / 2 → Even y) ∧
    (∀ l u : ℤ, (l : K) ≤ X i j → X i j ≤ u → l ≤ y ∧ y ≤ u) := by
  intro y
  have hy : y = npAround (X i j) := rfl
  clear_value y
  subst hy
  generalize X i j = x
  have h0 := Int.floor_le x
  have h1 := Int.lt_floor_add_one x
  have hcase : (npAround x = ⌊x⌋ ∧ x - (⌊x⌋ : ℤ) ≤ 1 / 2 ∧ (x - (⌊x⌋ : ℤ) = 1 / 2 → Even ⌊x⌋)) ∨
      (npAround x = ⌊x⌋ + 1 ∧ 1 / 2 ≤ x - (⌊x⌋ : ℤ) ∧ (x - (⌊x⌋ : ℤ) = 1 / 2 → ¬ Even ⌊x⌋)) := by
    unfold npAround
    simp only
    split_ifs with a b c
    · exact Or.inl ⟨rfl, a.le, fun h => absurd h a.ne⟩
    · exact Or.inr ⟨rfl, b.le, fun h => absurd h b.ne'⟩
    · exact Or.inl ⟨rfl, not_lt.1 b, fun _ => c⟩
    · exact Or.inr ⟨rfl, not_lt.1 a, fun _ => c⟩
  rcases hcase with ⟨e, h2, h3⟩ | ⟨e, h2, h3⟩
  · rw [e]
    have habs : |x - (⌊x⌋ : ℤ)| = x - (⌊x⌋ : ℤ) := abs_of_nonneg (by linarith)
    refine ⟨by rw [habs]; exact h2, fun z hz => by rw [hz, Int.floor_intCast], fun h => h3 (by rw [← habs]; exact h), ?_⟩
    intro l u hl hu
    exact ⟨Int.le_floor.2 hl, Int.cast_le (R := K) |>.1 (h0.trans hu)⟩
  · rw [e]
    have habs : |x - ((⌊x⌋ + 1 : ℤ) : K)| = ((⌊x⌋ : ℤ) : K) + 1 - x := by
      rw [abs_of_nonpos (by push_cast; linarith)]; push_cast; ring
    refine ⟨by rw [habs]; linarith, fun z hz => ?_, fun h => ?_, ?_⟩
    · rw [hz, Int.floor_intCast] at h2
      norm_num at h2
    · rw [habs] at h
      have : ¬ Even ⌊x⌋ := h3 (by linarith)
      exact Int.even_add_one.2 this
    · intro l u hl hu
      refine ⟨(Int.le_floor.2 hl).trans (by omega), ?_⟩
      have : (⌊x⌋ : ℤ) < u := by
        by_contra hcon
        have : (u : K) ≤ (⌊x⌋ : ℤ) := Int.cast_le.2 (not_lt.1 hcon)
        linarith
      omega

example : [5/2, 7/2, -3/2, 13/5, (4 : ℚ)].map npAround = [2, 4, -2, 3, 4] := by decide +kernel

end Props
