import Verif.Model.RealOperators
import Verif.Props.Repair
import Mathlib.Tactic.Linarith
import Mathlib.Tactic.Positivity
import Mathlib.Tactic.FieldSimp
import Mathlib.Tactic.Ring
import Mathlib.Tactic.NormNum

/-!
# C48: simulated binary crossover
-/

set_option linter.unusedSimpArgs false
set_option linter.unusedVariables false

namespace Props

open Model

variable {r n : ℕ}

theorem sbx_alpha (eta beta : ℝ) (he : 0 ≤ eta) (hb : 1 ≤ beta) :
    0 < beta ^ (-(eta + 1)) ∧ beta ^ (-(eta + 1)) ≤ 1 := by
  have hb0 : 0 < beta := by linarith
  refine ⟨Real.rpow_pos_of_pos hb0 _, ?_⟩
  exact Real.rpow_le_one_of_one_le_of_nonpos hb (by linarith)

/-- The spread factor: between 0 and `beta`, growing with the random number. -/
theorem sbx_betaq (eta rand beta : ℝ) (he : 0 ≤ eta) (hb : 1 ≤ beta) (h0 : 0 ≤ rand) (h1 : rand < 1) :
    0 ≤ sbxBetaq eta rand beta ∧ sbxBetaq eta rand beta ≤ beta := by
  obtain ⟨hp, hle⟩ := sbx_alpha eta beta he hb
  have hb0 : 0 < beta := by linarith
  have ha : 0 < 2 - beta ^ (-(eta + 1)) := by linarith
  have hpow : 0 < 1 / (eta + 1) := by positivity
  simp only [sbxBetaq]
  split
  · rename_i hr
    have hra : rand * (2 - beta ^ (-(eta + 1))) ≤ 1 := by
      rw [le_div_iff₀ ha] at hr; exact hr
    have hra0 : 0 ≤ rand * (2 - beta ^ (-(eta + 1))) := by positivity
    refine ⟨Real.rpow_nonneg hra0 _, ?_⟩
    exact le_trans (Real.rpow_le_one hra0 hra hpow.le) hb
  · have hra : rand * (2 - beta ^ (-(eta + 1))) < 2 - beta ^ (-(eta + 1)) := by nlinarith
    have hden : beta ^ (-(eta + 1)) < 2 - rand * (2 - beta ^ (-(eta + 1))) := by linarith
    have hden0 : 0 < 2 - rand * (2 - beta ^ (-(eta + 1))) := by linarith
    refine ⟨Real.rpow_nonneg (by positivity) _, ?_⟩
    have h2 : 1 / (2 - rand * (2 - beta ^ (-(eta + 1)))) ≤ beta ^ (eta + 1) := by
      rw [div_le_iff₀ hden0]
      have hmul : beta ^ (eta + 1) * beta ^ (-(eta + 1)) = 1 := by
        rw [← Real.rpow_add hb0]; simp
      have hpos : 0 < beta ^ (eta + 1) := Real.rpow_pos_of_pos hb0 _
      nlinarith
    calc (1 / (2 - rand * (2 - beta ^ (-(eta + 1))))) ^ (1 / (eta + 1))
        ≤ (beta ^ (eta + 1)) ^ (1 / (eta + 1)) := Real.rpow_le_rpow (by positivity) h2 hpow.le
      _ = beta := by
        rw [← Real.rpow_mul hb0.le, mul_one_div_cancel (by linarith), Real.rpow_one]

/-- The spread factor grows with the random number. -/
theorem sbx_betaq_mono (eta beta s t : ℝ) (he : 0 ≤ eta) (hb : 1 ≤ beta) (h0 : 0 ≤ s) (hst : s ≤ t) (h1 : t < 1) :
    sbxBetaq eta s beta ≤ sbxBetaq eta t beta := by
  obtain ⟨hp, hle⟩ := sbx_alpha eta beta he hb
  have ha : 0 < 2 - beta ^ (-(eta + 1)) := by linarith
  have hpow : 0 < 1 / (eta + 1) := by positivity
  have hra : ∀ x : ℝ, 0 ≤ x → 0 ≤ x * (2 - beta ^ (-(eta + 1))) := fun x hx => by positivity
  have hsm : s * (2 - beta ^ (-(eta + 1))) ≤ t * (2 - beta ^ (-(eta + 1))) := by nlinarith
  have hden : ∀ x : ℝ, x < 1 → 0 < 2 - x * (2 - beta ^ (-(eta + 1))) := by
    intro x hx
    have : x * (2 - beta ^ (-(eta + 1))) < 2 - beta ^ (-(eta + 1)) := by nlinarith
    linarith
  simp only [sbxBetaq]
  by_cases hs : s ≤ 1 / (2 - beta ^ (-(eta + 1)))
  · rw [if_pos hs]
    by_cases ht : t ≤ 1 / (2 - beta ^ (-(eta + 1)))
    · rw [if_pos ht]
      exact Real.rpow_le_rpow (hra s h0) hsm hpow.le
    · rw [if_neg ht]
      have e1 : s * (2 - beta ^ (-(eta + 1))) ≤ 1 := by rw [le_div_iff₀ ha] at hs; exact hs
      have e2 : 1 < t * (2 - beta ^ (-(eta + 1))) := by rw [not_le, div_lt_iff₀ ha] at ht; exact ht
      refine le_trans (Real.rpow_le_one (hra s h0) e1 hpow.le) ?_
      apply Real.one_le_rpow _ hpow.le
      rw [le_div_iff₀ (hden t h1)]
      linarith
  · rw [if_neg hs, if_neg (fun h => hs (le_trans hst h))]
    apply Real.rpow_le_rpow
    · have := hden s (by linarith); positivity
    · exact one_div_le_one_div_of_le (hden t h1) (by linarith)
    · exact hpow.le

/-- The two children of `y1 < y2` in the bounds, on both sides of the middle of the parents. -/
theorem sbx_spread (xl xu eta rand y1 y2 : ℝ) (he : 0 ≤ eta) (h0 : 0 ≤ rand) (h1 : rand < 1) (hy : y1 < y2) (hl : xl ≤ y1) (hu : y2 ≤ xu) :
    xl ≤ (sbxSpread xl xu eta rand y1 y2).1 ∧ (sbxSpread xl xu eta rand y1 y2).1 ≤ (y1 + y2) / 2 ∧
    (y1 + y2) / 2 ≤ (sbxSpread xl xu eta rand y1 y2).2 ∧ (sbxSpread xl xu eta rand y1 y2).2 ≤ xu := by
  have hd : 0 < y2 - y1 := by linarith
  have b1 : 1 ≤ 1 + 2 * (y1 - xl) / (y2 - y1) := by
    have : 0 ≤ 2 * (y1 - xl) / (y2 - y1) := div_nonneg (by linarith) hd.le
    linarith
  have b2 : 1 ≤ 1 + 2 * (xu - y2) / (y2 - y1) := by
    have : 0 ≤ 2 * (xu - y2) / (y2 - y1) := div_nonneg (by linarith) hd.le
    linarith
  obtain ⟨p1, p2⟩ := sbx_betaq eta rand _ he b1 h0 h1
  obtain ⟨q1, q2⟩ := sbx_betaq eta rand _ he b2 h0 h1
  have e1 : (1 + 2 * (y1 - xl) / (y2 - y1)) * (y2 - y1) = (y2 - y1) + 2 * (y1 - xl) := by field_simp
  have e2 : (1 + 2 * (xu - y2) / (y2 - y1)) * (y2 - y1) = (y2 - y1) + 2 * (xu - y2) := by field_simp
  have m1 := mul_le_mul_of_nonneg_right p2 hd.le
  have m2 := mul_le_mul_of_nonneg_right q2 hd.le
  have z1 := mul_nonneg p1 hd.le
  have z2 := mul_nonneg q1 hd.le
  rw [e1] at m1
  rw [e2] at m2
  simp only [sbxSpread]
  refine ⟨by linarith, by linarith, by linarith, by linarith⟩

theorem sbxEntry_eq (xl xu eta rand p1 p2 : ℝ) (bin : Bool) (hne : p1 ≠ p2) :
    sbxEntry xl xu eta rand bin p1 p2 =
      if bin then ((sbxSpread xl xu eta rand (min p1 p2) (max p1 p2)).2, (sbxSpread xl xu eta rand (min p1 p2) (max p1 p2)).1)
      else sbxSpread xl xu eta rand (min p1 p2) (max p1 p2) := by
  rcases lt_or_gt_of_ne hne with h | h
  · have hn : ¬ p2 < p1 := by linarith
    cases bin <;> simp [sbxEntry, h, hn, min_eq_left h.le, max_eq_right h.le]
  · have hn : ¬ p1 < p2 := by linarith
    cases bin <;> simp [sbxEntry, h, hn, min_eq_right h.le, max_eq_left h.le]

theorem clamp_id (X : Fin r → Fin n → ℝ) (xl xu : Fin n → ℝ) (i : Fin r) (j : Fin n) (h1 : xl j ≤ X i j) (h2 : X i j ≤ xu j) :
    repairClamp X xl xu i j = X i j := by
  have a : ¬ X i j < xl j := by linarith
  have b : ¬ xu j < X i j := by linarith
  simp [repairClamp, setWhere, below, above, a, b]

/-- An admissible situation: parents in the bounds, random numbers in `[0, 1)`, `eta` and `eps` non-negative. -/
structure SbxOk (X : Fin 2 → Fin r → Fin n → ℝ) (xl xu : Fin n → ℝ) (eta : Fin r → ℝ) (eps : ℝ) (rand : Fin r → Fin n → ℝ) : Prop where
  bounds : ∀ k i j, xl j ≤ X k i j ∧ X k i j ≤ xu j
  eta : ∀ i, 0 ≤ eta i
  eps : 0 ≤ eps
  rand : ∀ i j, 0 ≤ rand i j ∧ rand i j < 1

theorem sbxRaw_spec (X : Fin 2 → Fin r → Fin n → ℝ) (xl xu : Fin n → ℝ) (eta probVar probBin : Fin r → ℝ) (eps : ℝ)
    (u rand w : Fin r → Fin n → ℝ) (h : SbxOk X xl xu eta eps rand) (i : Fin r) (j : Fin n) :
    (∀ k, xl j ≤ sbxRaw X xl xu eta probVar probBin eps u rand w k i j ∧
      sbxRaw X xl xu eta probVar probBin eps u rand w k i j ≤ xu j) ∧
    (sbxCross X xl xu probVar eps u i j = true →
      let lo := min (X 0 i j) (X 1 i j)
      let hi := max (X 0 i j) (X 1 i j)
      lo < hi ∧
      sbxRaw X xl xu eta probVar probBin eps u rand w 0 i j =
        (if w i j < probBin i then (sbxSpread (xl j) (xu j) (eta i) (rand i j) lo hi).2 else (sbxSpread (xl j) (xu j) (eta i) (rand i j) lo hi).1) ∧
      sbxRaw X xl xu eta probVar probBin eps u rand w 1 i j =
        (if w i j < probBin i then (sbxSpread (xl j) (xu j) (eta i) (rand i j) lo hi).1 else (sbxSpread (xl j) (xu j) (eta i) (rand i j) lo hi).2)) := by
  have key : sbxCross X xl xu probVar eps u i j = true →
      let lo := min (X 0 i j) (X 1 i j)
      let hi := max (X 0 i j) (X 1 i j)
      lo < hi ∧
      sbxRaw X xl xu eta probVar probBin eps u rand w 0 i j =
        (if w i j < probBin i then (sbxSpread (xl j) (xu j) (eta i) (rand i j) lo hi).2 else (sbxSpread (xl j) (xu j) (eta i) (rand i j) lo hi).1) ∧
      sbxRaw X xl xu eta probVar probBin eps u rand w 1 i j =
        (if w i j < probBin i then (sbxSpread (xl j) (xu j) (eta i) (rand i j) lo hi).1 else (sbxSpread (xl j) (xu j) (eta i) (rand i j) lo hi).2) := by
    intro hc
    have hc' := hc
    simp only [sbxCross, Bool.and_eq_true, Bool.not_eq_true', decide_eq_false_iff_not, decide_eq_true_eq] at hc'
    have hne : X 0 i j ≠ X 1 i j := by
      intro he
      apply hc'.1.2
      rw [he, sub_self, abs_zero]
      exact h.eps
    refine ⟨?_, ?_, ?_⟩
    · rcases lt_or_gt_of_ne hne with h | h
      · rw [min_eq_left h.le, max_eq_right h.le]; exact h
      · rw [min_eq_right h.le, max_eq_left h.le]; exact h
    · simp only [sbxRaw, hc, if_true, sbxEntry_eq _ _ _ _ _ _ _ hne]
      by_cases hw : w i j < probBin i <;> simp [hw]
    · simp only [sbxRaw, hc, if_true, sbxEntry_eq _ _ _ _ _ _ _ hne]
      by_cases hw : w i j < probBin i <;> simp [hw]
  refine ⟨?_, key⟩
  intro k
  by_cases hc : sbxCross X xl xu probVar eps u i j = true
  · obtain ⟨k1, k2, k3⟩ := key hc
    have hs := sbx_spread (xl j) (xu j) (eta i) (rand i j) _ _ (h.eta i) (h.rand i j).1 (h.rand i j).2 k1
      (le_min (h.bounds 0 i j).1 (h.bounds 1 i j).1) (max_le (h.bounds 0 i j).2 (h.bounds 1 i j).2)
    have hk : k = 0 ∨ k = 1 := by omega
    rcases hk with rfl | rfl
    · rw [k2]; split
      · exact ⟨by linarith [hs.1, hs.2.1, hs.2.2.1], hs.2.2.2⟩
      · exact ⟨hs.1, by linarith [hs.2.1, hs.2.2.1, hs.2.2.2]⟩
    · rw [k3]; split
      · exact ⟨hs.1, by linarith [hs.2.1, hs.2.2.1, hs.2.2.2]⟩
      · exact ⟨by linarith [hs.1, hs.2.1, hs.2.2.1], hs.2.2.2⟩
  · simp only [sbxRaw, hc]
    exact h.bounds k i j

/-- **C48** (bounds). For parents inside the bounds, every value of every child is inside the bounds; the final clamping never
changes anything (it only matters for rounding errors, which the model does not have). -/
theorem C48_in_bounds (X : Fin 2 → Fin r → Fin n → ℝ) (xl xu : Fin n → ℝ) (eta probVar probBin : Fin r → ℝ) (eps : ℝ)
    (u rand w : Fin r → Fin n → ℝ) (h : SbxOk X xl xu eta eps rand) (k : Fin 2) (i : Fin r) (j : Fin n) :
    xl j ≤ crossSbx X xl xu eta probVar probBin eps u rand w k i j ∧ crossSbx X xl xu eta probVar probBin eps u rand w k i j ≤ xu j ∧
    crossSbx X xl xu eta probVar probBin eps u rand w k i j = sbxRaw X xl xu eta probVar probBin eps u rand w k i j := by
  have hr := (sbxRaw_spec X xl xu eta probVar probBin eps u rand w h i j).1 k
  have : crossSbx X xl xu eta probVar probBin eps u rand w k i j = sbxRaw X xl xu eta probVar probBin eps u rand w k i j :=
    clamp_id _ _ _ _ _ hr.1 hr.2
  rw [this]
  exact ⟨hr.1, hr.2, rfl⟩

/-- **C48** (no crossover). A variable that is not selected (random number at least `prob_var`), whose parents are within
`eps` of each other, or whose bounds coincide is inherited unchanged by both children. -/
theorem C48_unchanged (X : Fin 2 → Fin r → Fin n → ℝ) (xl xu : Fin n → ℝ) (eta probVar probBin : Fin r → ℝ) (eps : ℝ)
    (u rand w : Fin r → Fin n → ℝ) (h : SbxOk X xl xu eta eps rand) (k : Fin 2) (i : Fin r) (j : Fin n)
    (hc : probVar i ≤ u i j ∨ |X 0 i j - X 1 i j| ≤ eps ∨ xl j = xu j) :
    crossSbx X xl xu eta probVar probBin eps u rand w k i j = X k i j := by
  rw [(C48_in_bounds X xl xu eta probVar probBin eps u rand w h k i j).2.2]
  have : sbxCross X xl xu probVar eps u i j = false := by
    simp only [sbxCross, Bool.and_eq_false_iff, Bool.not_eq_false', decide_eq_true_eq, decide_eq_false_iff_not, not_lt]
    tauto
  simp [sbxRaw, this]

/-- **C48** (crossed variables). One child lies between the lower bound and the middle of the parents, the other between the
middle and the upper bound. The first child is the lower one unless the random number for the exchange is below `prob_bin`. -/
theorem C48_crossed (X : Fin 2 → Fin r → Fin n → ℝ) (xl xu : Fin n → ℝ) (eta probVar probBin : Fin r → ℝ) (eps : ℝ)
    (u rand w : Fin r → Fin n → ℝ) (h : SbxOk X xl xu eta eps rand) (i : Fin r) (j : Fin n)
    (hc : u i j < probVar i) (he : eps < |X 0 i j - X 1 i j|) (hb : xl j ≠ xu j) :
    let Q := crossSbx X xl xu eta probVar probBin eps u rand w
    let mid := (X 0 i j + X 1 i j) / 2
    (w i j < probBin i → Q 1 i j ≤ mid ∧ mid ≤ Q 0 i j) ∧ (probBin i ≤ w i j → Q 0 i j ≤ mid ∧ mid ≤ Q 1 i j) := by
  have hcr : sbxCross X xl xu probVar eps u i j = true := by
    simp [sbxCross, hc, he, hb]
  obtain ⟨k1, k2, k3⟩ := (sbxRaw_spec X xl xu eta probVar probBin eps u rand w h i j).2 hcr
  have hs := sbx_spread (xl j) (xu j) (eta i) (rand i j) _ _ (h.eta i) (h.rand i j).1 (h.rand i j).2 k1
    (le_min (h.bounds 0 i j).1 (h.bounds 1 i j).1) (max_le (h.bounds 0 i j).2 (h.bounds 1 i j).2)
  have hmid : (min (X 0 i j) (X 1 i j) + max (X 0 i j) (X 1 i j)) / 2 = (X 0 i j + X 1 i j) / 2 := by rw [min_add_max]
  rw [hmid] at hs
  simp only
  rw [(C48_in_bounds X xl xu eta probVar probBin eps u rand w h 0 i j).2.2,
    (C48_in_bounds X xl xu eta probVar probBin eps u rand w h 1 i j).2.2, k2, k3]
  refine ⟨fun hw => ?_, fun hw => ?_⟩
  · rw [if_pos hw, if_pos hw]; exact ⟨hs.2.1, hs.2.2.1⟩
  · rw [if_neg (by linarith), if_neg (by linarith)]; exact ⟨hs.2.1, hs.2.2.1⟩

/-- **C48** (spread). The distance of a child from the middle of the parents never shrinks when the random number grows; with
random number 0 both children are the middle of the parents; with a random number of at most 1/2 both children lie between the
parents. -/
theorem C48_spread (xl xu eta y1 y2 s t : ℝ) (he : 0 ≤ eta) (h0 : 0 ≤ s) (hst : s ≤ t) (h1 : t < 1) (hy : y1 < y2) (hl : xl ≤ y1)
    (hu : y2 ≤ xu) :
    (sbxSpread xl xu eta t y1 y2).1 ≤ (sbxSpread xl xu eta s y1 y2).1 ∧
    (sbxSpread xl xu eta s y1 y2).2 ≤ (sbxSpread xl xu eta t y1 y2).2 ∧
    sbxSpread xl xu eta 0 y1 y2 = ((y1 + y2) / 2, (y1 + y2) / 2) ∧
    (s ≤ 1 / 2 → y1 ≤ (sbxSpread xl xu eta s y1 y2).1 ∧ (sbxSpread xl xu eta s y1 y2).2 ≤ y2) := by
  have hd : 0 < y2 - y1 := by linarith
  have b1 : 1 ≤ 1 + 2 * (y1 - xl) / (y2 - y1) := by
    have : 0 ≤ 2 * (y1 - xl) / (y2 - y1) := div_nonneg (by linarith) hd.le
    linarith
  have b2 : 1 ≤ 1 + 2 * (xu - y2) / (y2 - y1) := by
    have : 0 ≤ 2 * (xu - y2) / (y2 - y1) := div_nonneg (by linarith) hd.le
    linarith
  have m1 := mul_le_mul_of_nonneg_right (sbx_betaq_mono eta _ s t he b1 h0 hst h1) hd.le
  have m2 := mul_le_mul_of_nonneg_right (sbx_betaq_mono eta _ s t he b2 h0 hst h1) hd.le
  have hz : ∀ beta, 1 ≤ beta → sbxBetaq eta 0 beta = 0 := by
    intro beta hb
    obtain ⟨hp, hle⟩ := sbx_alpha eta beta he hb
    simp only [sbxBetaq]
    rw [if_pos (by apply le_of_lt; apply one_div_pos.2; linarith)]
    rw [zero_mul, Real.zero_rpow]
    have : 0 < 1 / (eta + 1) := by positivity
    exact this.ne'
  have hone : ∀ beta, 1 ≤ beta → s ≤ 1 / 2 → sbxBetaq eta s beta ≤ 1 := by
    intro beta hb hs
    obtain ⟨hp, hle⟩ := sbx_alpha eta beta he hb
    have ha : 0 < 2 - beta ^ (-(eta + 1)) := by linarith
    have hle2 : s * (2 - beta ^ (-(eta + 1))) ≤ 1 := by nlinarith
    simp only [sbxBetaq]
    rw [if_pos (by rw [le_div_iff₀ ha]; exact hle2)]
    exact Real.rpow_le_one (by positivity) hle2 (by positivity)
  simp only [sbxSpread]
  refine ⟨by linarith, by linarith, ?_, ?_⟩
  · rw [hz _ b1, hz _ b2]
    simp only [zero_mul, sub_zero, add_zero, Prod.mk.injEq]
    constructor <;> ring
  · intro hs
    have o1 := mul_le_mul_of_nonneg_right (hone _ b1 hs) hd.le
    have o2 := mul_le_mul_of_nonneg_right (hone _ b2 hs) hd.le
    constructor <;> linarith

/-- **C48** (position). Contrary to the comment in the code ("assign children based on parent position"), without exchange
(`prob_bin = 0`) the first child always gets the lower value, even if the first parent has the larger value: the second child
is then the one near the first parent. -/
theorem C48_position_not_kept (xl xu eta rand p1 p2 : ℝ) (h : p2 < p1) :
    sbxEntry xl xu eta rand false p1 p2 = sbxSpread xl xu eta rand p2 p1 := by
  rw [sbxEntry_eq _ _ _ _ _ _ _ h.ne']
  simp [min_eq_right h.le, max_eq_left h.le]

/-- **C48** (operator). `SimulatedBinaryCrossover` returns one or two children per mating, all within the bounds; a single child
is one of the two children. -/
theorem C48_operator (X : Fin 2 → Fin r → Fin n → ℝ) (xl xu : Fin n → ℝ) (eta probVar probExch probBin : Fin r → ℝ) (eps : ℝ)
    (v : Fin r → ℝ) (u rand w : Fin r → Fin n → ℝ) (h : SbxOk X xl xu eta eps rand) (one : Option (Fin r → Bool)) :
    (sbxDo X xl xu eta probVar probExch probBin eps v u rand w one).length = (if one.isSome then 1 else 2) ∧
    (∀ Q ∈ sbxDo X xl xu eta probVar probExch probBin eps v u rand w one, ∀ i j, xl j ≤ Q i j ∧ Q i j ≤ xu j) ∧
    ∀ coin, one = some coin → ∀ Q ∈ sbxDo X xl xu eta probVar probExch probBin eps v u rand w one, ∀ i,
      ∃ Q' ∈ sbxDo X xl xu eta probVar probExch probBin eps v u rand w none, Q i = Q' i := by
  have hb := C48_in_bounds X xl xu eta probVar (fun i => if probExch i < v i then 0 else probBin i) eps u rand w h
  refine ⟨?_, ?_, ?_⟩
  · cases one <;> simp [sbxDo]
  · intro Q hQ i j
    cases one with
    | none =>
      simp only [sbxDo, List.mem_cons, List.not_mem_nil, or_false] at hQ
      rcases hQ with rfl | rfl
      · exact ⟨(hb 0 i j).1, (hb 0 i j).2.1⟩
      · exact ⟨(hb 1 i j).1, (hb 1 i j).2.1⟩
    | some coin =>
      simp only [sbxDo, List.mem_cons, List.not_mem_nil, or_false] at hQ
      subst hQ
      simp only
      split
      · exact ⟨(hb 1 i j).1, (hb 1 i j).2.1⟩
      · exact ⟨(hb 0 i j).1, (hb 0 i j).2.1⟩
  · rintro coin rfl Q hQ i
    simp only [sbxDo, List.mem_cons, List.not_mem_nil, or_false] at hQ
    subst hQ
    by_cases hcoin : coin i
    · exact ⟨_, by simp only [sbxDo, List.mem_cons]; exact .inr (.inl rfl), by simp [hcoin]⟩
    · exact ⟨_, by simp only [sbxDo, List.mem_cons]; exact .inl rfl, by simp [hcoin]⟩

/-- The hypotheses are met, with a crossed variable: parents 1 and 3 in `[0, 4]`, `eta = 15`. -/
example : ∃ (X : Fin 2 → Fin 1 → Fin 1 → ℝ) (xl xu : Fin 1 → ℝ) (eta : Fin 1 → ℝ) (rand : Fin 1 → Fin 1 → ℝ),
    SbxOk X xl xu eta (1 / 10 ^ 14) rand ∧ (1 / 10 ^ 14 : ℝ) < |X 0 0 0 - X 1 0 0| ∧ xl 0 ≠ xu 0 := by
  refine ⟨fun k _ _ => if k = 0 then 1 else 3, fun _ => 0, fun _ => 4, fun _ => 15, fun _ _ => 1 / 2, ⟨?_, ?_, ?_, ?_⟩, ?_, ?_⟩
  · intro k i j
    have hk : k = 0 ∨ k = 1 := by omega
    rcases hk with rfl | rfl <;> norm_num
  · intro i; norm_num
  · positivity
  · intro i j; norm_num
  · norm_num
  · norm_num

end Props
