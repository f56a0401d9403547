import Verif.Model.RealOperators
import Verif.Props.Repair
import Mathlib.Tactic.Linarith
import Mathlib.Tactic.Positivity
import Mathlib.Tactic.Ring
import Mathlib.Tactic.NormNum
import Mathlib.Data.Fin.VecNotation

/-!
# C50: differential evolution operators
-/

set_option linter.unusedSimpArgs false
set_option linter.unusedVariables false
set_option linter.unusedSectionVars false

namespace Props

open Model

section
variable {K : Type*} [Field K] [LinearOrder K] [IsStrictOrderedRing K] {r n : ℕ}

/-- **C50** (differential). Without dither and jitter the donor is the base vector plus `F` times the sum of the differences of
the pairs, for any number of pairs. -/
theorem C50_differential (gamma F : K) (base : Fin n → K) (pairs : List ((Fin n → K) × (Fin n → K) × K × K)) (j : Fin n) :
    deDifferential false false gamma base pairs F j = base j + F * (pairs.map fun p => p.1 j - p.2.1 j).sum := by
  have : ∀ pairs : List ((Fin n → K) × (Fin n → K) × K × K), deDiffs false false gamma pairs F j = F * (pairs.map fun p => p.1 j - p.2.1 j).sum := by
    intro pairs
    induction pairs with
    | nil => simp [deDiffs]
    | cons p rest ih =>
      obtain ⟨a, b, ud, uj⟩ := p
      simp only [deDiffs, List.map_cons, List.sum_cons, Bool.false_eq_true, if_false, ih]
      ring
  rw [deDifferential, this]

example : deDifferential false false (1 : ℚ) (fun _ : Fin 1 => 1) [(fun _ => 5, fun _ => 3, 0, 0), (fun _ => 1, fun _ => 4, 0, 0)] (1 / 2) 0 =
    1 / 2 := by decide +kernel

/-- **C50** (jitter). With jitter the factor of the first difference stays within `gamma / 2` (relative) of `F`; with dither the
factor is between `F` and 1. -/
theorem C50_factor (gamma F ud uj : K) (base a b : Fin n → K) (hg : 0 ≤ gamma) (hF : 0 ≤ F) (hF1 : F ≤ 1) (hud : 0 ≤ ud ∧ ud ≤ 1)
    (huj : 0 ≤ uj ∧ uj ≤ 1) :
    (∃ G, F * (1 - gamma / 2) ≤ G ∧ G ≤ F * (1 + gamma / 2) ∧
      ∀ j, deDifferential false true gamma base [(a, b, ud, uj)] F j = base j + G * (a j - b j)) ∧
    ∃ G, F ≤ G ∧ G ≤ 1 ∧ ∀ j, deDifferential true false gamma base [(a, b, ud, uj)] F j = base j + G * (a j - b j) := by
  constructor
  · refine ⟨F * (1 + gamma * (uj - 1 / 2)), ?_, ?_, fun j => by simp [deDifferential, deDiffs]⟩
    · apply mul_le_mul_of_nonneg_left _ hF
      have := mul_nonneg hg huj.1
      nlinarith
    · apply mul_le_mul_of_nonneg_left _ hF
      have := mul_nonneg hg (sub_nonneg.2 huj.2)
      nlinarith
  · refine ⟨F + ud * (1 - F), ?_, ?_, fun j => by simp [deDifferential, deDiffs]⟩
    · have := mul_nonneg hud.1 (sub_nonneg.2 hF1); linarith
    · have := mul_nonneg (sub_nonneg.2 hud.2) (sub_nonneg.2 hF1); nlinarith

/-- Row `i` of a matrix is inside the bounds. -/
def RowIn (X : Fin r → Fin n → K) (xl xu : Fin n → K) (i : Fin r) : Prop := ∀ j, xl j ≤ X i j ∧ X i j ≤ xu j

theorem rowOut_iff (X : Fin r → Fin n → K) (xl xu : Fin n → K) (i : Fin r) :
    ((List.finRange n).any fun j => decide (X i j < xl j) || decide (xu j < X i j)) = true ↔ ¬ RowIn X xl xu i := by
  simp only [List.any_eq_true, List.mem_finRange, true_and, Bool.or_eq_true, decide_eq_true_eq, RowIn, not_forall, not_and_or, not_le]

/-- Rows inside the bounds are not touched by further rounds. -/
theorem dexRetry_in (gamma : K) (base : Fin r → Fin n → K) (pairs : Fin r → List ((Fin n → K) × (Fin n → K))) (xl xu : Fin n → K)
    (draws : List (Fin r → DexDraw K)) : ∀ (Xp : Fin r → Fin n → K) (i : Fin r), RowIn Xp xl xu i →
    dexRetry gamma base pairs xl xu draws Xp i = Xp i := by
  induction draws with
  | nil => intro Xp i h; rfl
  | cons d ds ih =>
    intro Xp i h
    simp only [dexRetry]
    have hstep : (if ((List.finRange n).any fun j => decide (Xp i j < xl j) || decide (xu j < Xp i j)) = true
        then dexDonor gamma (base i) (pairs i) (d i).F (d i) else Xp i) = Xp i := by
      rw [if_neg]
      rw [rowOut_iff]
      exact not_not.2 h
    rw [ih _ i (by
      intro j
      simp only [hstep]
      exact h j)]
    exact hstep

/-- Rounds act on each row separately. -/
theorem dexRetry_row (gamma : K) (base : Fin r → Fin n → K) (pairs : Fin r → List ((Fin n → K) × (Fin n → K))) (xl xu : Fin n → K)
    (draws : List (Fin r → DexDraw K)) : ∀ (Xp Yp : Fin r → Fin n → K) (i : Fin r), Xp i = Yp i →
    dexRetry gamma base pairs xl xu draws Xp i = dexRetry gamma base pairs xl xu draws Yp i := by
  induction draws with
  | nil => intro Xp Yp i h; exact h
  | cons d ds ih =>
    intro Xp Yp i h
    simp only [dexRetry]
    apply ih
    simp only [h]

/-- **C50** (DEX, bounds). If the target vectors are inside the bounds, so is every offspring, for every `F`, every number of
rounds, every mask and all random numbers; a variable outside the mask is inherited from the target. -/
theorem C50_dex_in_bounds (cfg : DexCfg K) (gamma : K) (base : Fin r → Fin n → K) (pairs : Fin r → List ((Fin n → K) × (Fin n → K)))
    (xl xu : Fin n → K) (first : Fin r → DexDraw K) (draws : List (Fin r → DexDraw K)) (u1 u2 : Fin r → Fin n → K)
    (M : Fin r → Fin n → Bool) (hb : ∀ i j, xl j ≤ base i j ∧ base i j ≤ xu j) (hu1 : ∀ i j, 0 ≤ u1 i j ∧ u1 i j ≤ 1)
    (hu2 : ∀ i j, 0 ≤ u2 i j ∧ u2 i j ≤ 1) (i : Fin r) (j : Fin n) :
    let y := dexDo cfg gamma base pairs (some (xl, xu)) first draws u1 u2 M i j
    xl j ≤ y ∧ y ≤ xu j ∧ (M i j = false → y = base i j) := by
  simp only [dexDo]
  obtain ⟨h1, h2, -, -, -⟩ := C24_random_init (dexRetry gamma base pairs xl xu draws fun i =>
    dexDonor gamma (base i) (pairs i) (cfg.F.getD (first i).F) (first i)) base xl xu u1 u2 hu1 hu2 hb i j
  by_cases hM : M i j = true
  · simp only [setWhere, hM, if_true]
    exact ⟨h1, h2, by simp⟩
  · simp only [setWhere, hM]
    exact ⟨(hb i j).1, (hb i j).2, by simp⟩

/-- **C50** (DEX, donor). If the first donor (with the `F` given by the user) is inside the bounds, it is the one used. -/
theorem C50_dex_first_donor (cfg : DexCfg K) (gamma : K) (base : Fin r → Fin n → K) (pairs : Fin r → List ((Fin n → K) × (Fin n → K)))
    (xl xu : Fin n → K) (first : Fin r → DexDraw K) (draws : List (Fin r → DexDraw K)) (u1 u2 : Fin r → Fin n → K)
    (M : Fin r → Fin n → Bool) (i : Fin r) (hin : RowIn (fun i => dexDonor gamma (base i) (pairs i) (cfg.F.getD (first i).F) (first i)) xl xu i)
    (j : Fin n) (hM : M i j = true) :
    dexDo cfg gamma base pairs (some (xl, xu)) first draws u1 u2 M i j =
      dexDonor gamma (base i) (pairs i) (cfg.F.getD (first i).F) (first i) j ∧
    dexDo cfg gamma base pairs none first draws u1 u2 M i j =
      dexDonor gamma (base i) (pairs i) (cfg.F.getD (first i).F) (first i) j := by
  constructor
  · have hr := dexRetry_in gamma base pairs xl xu draws _ i hin
    simp only [dexDo, setWhere, hM, if_true, repairRandomInit, below, above, hr, decide_eq_true_eq]
    have h1 : ¬ dexDonor gamma (base i) (pairs i) (cfg.F.getD (first i).F) (first i) j < xl j := not_lt.2 (hin j).1
    have h2 : ¬ xu j < dexDonor gamma (base i) (pairs i) (cfg.F.getD (first i).F) (first i) j := not_lt.2 (hin j).2
    simp [h1, h2]
  · simp [dexDo, setWhere, hM]

/-- **C50** (DEX, user `F`). If the first donor is outside the bounds and there is at least one more round, the `F` given by the
user has no influence on the offspring: the new donor is computed with a random `F`. -/
theorem C50_dex_user_F_dropped (cfg cfg' : DexCfg K) (gamma : K) (base : Fin r → Fin n → K)
    (pairs : Fin r → List ((Fin n → K) × (Fin n → K))) (xl xu : Fin n → K) (first : Fin r → DexDraw K) (d : Fin r → DexDraw K)
    (draws : List (Fin r → DexDraw K)) (u1 u2 : Fin r → Fin n → K) (M : Fin r → Fin n → Bool) (i : Fin r)
    (hout : ¬ RowIn (fun i => dexDonor gamma (base i) (pairs i) (cfg.F.getD (first i).F) (first i)) xl xu i)
    (hout' : ¬ RowIn (fun i => dexDonor gamma (base i) (pairs i) (cfg'.F.getD (first i).F) (first i)) xl xu i) (j : Fin n) :
    dexDo cfg gamma base pairs (some (xl, xu)) first (d :: draws) u1 u2 M i j =
      dexDo cfg' gamma base pairs (some (xl, xu)) first (d :: draws) u1 u2 M i j := by
  have key : dexRetry gamma base pairs xl xu (d :: draws) (fun i => dexDonor gamma (base i) (pairs i) (cfg.F.getD (first i).F) (first i)) i =
      dexRetry gamma base pairs xl xu (d :: draws) (fun i => dexDonor gamma (base i) (pairs i) (cfg'.F.getD (first i).F) (first i)) i := by
    simp only [dexRetry]
    apply dexRetry_row
    rw [if_pos ((rowOut_iff _ _ _ _).2 hout), if_pos ((rowOut_iff _ _ _ _).2 hout')]
  have hrep : ∀ Z Z' : Fin r → Fin n → K, Z i j = Z' i j →
      repairRandomInit Z base xl xu u1 u2 i j = repairRandomInit Z' base xl xu u1 u2 i j := by
    intro Z Z' h
    simp only [repairRandomInit, setWhere, below, above, h, decide_eq_true_eq]
  have := hrep _ _ (congrFun key j)
  simp only [dexDo, setWhere]
  by_cases hM : M i j = true
  · rw [if_pos hM, if_pos hM]; exact this
  · rw [if_neg hM, if_neg hM]

/-- **C50** (DEX, settings ignored). `jitter=False` is not respected: with one pair, `F = 1/2` and no bounds the offspring is not
the base vector plus `F` times the difference. The setting `dither` has no effect either. -/
theorem C50_dex_settings_ignored :
    (∃ (first : Fin 1 → DexDraw ℚ), dexDo ⟨some (1 / 2), false, false⟩ (1 / 10000) (fun _ (_ : Fin 1) => 0) (fun _ => [(fun _ => 1, fun _ => 0)])
      none first [] (fun _ _ => 0) (fun _ _ => 0) (fun _ _ => true) 0 0 ≠ 1 / 2) ∧
    ∀ (F : Option K) (d d' jt jt' : Bool) (gamma : K) (base : Fin r → Fin n → K) (pairs : Fin r → List ((Fin n → K) × (Fin n → K)))
      (bounds : Option ((Fin n → K) × (Fin n → K))) (first : Fin r → DexDraw K) (draws : List (Fin r → DexDraw K))
      (u1 u2 : Fin r → Fin n → K) (M : Fin r → Fin n → Bool),
      dexDo ⟨F, d, jt⟩ gamma base pairs bounds first draws u1 u2 M = dexDo ⟨F, d', jt'⟩ gamma base pairs bounds first draws u1 u2 M := by
  constructor
  · exact ⟨fun _ => ⟨0, [(0, 0)]⟩, by decide +kernel⟩
  · intros; rfl

/-- The donor with `F = 2` from base 1 is outside `[0, 2]`; a new donor with `F = 1/2` is inside. -/
example : dexDo (⟨some 2, false, false⟩ : DexCfg ℚ) 0 (fun (_ : Fin 1) (_ : Fin 1) => 1) (fun _ => [(fun _ => 1, fun _ => 0)])
    (some (fun _ => 0, fun _ => 2)) (fun _ => ⟨0, [(0, 0)]⟩) [fun _ => ⟨1 / 2, [(0, 0)]⟩] (fun _ _ => 0) (fun _ _ => 0) (fun _ _ => true) 0 0 =
    3 / 2 := by decide +kernel

/-- **C50** (DE trial vectors). In the DE algorithm every trial vector of targets and base vectors inside the bounds is inside
the bounds, for all four recombinations, all scale factors and all random numbers; with a mask every variable comes from the
target or the (repaired) donor. -/
theorem C50_de_in_bounds (target base : Fin r → Fin n → K) (diffs : Fin r → List ((Fin n → K) × (Fin n → K) × (Fin n → K))) (F CR : Fin r → K)
    (xl xu : Fin n → K) (u1 u2 : Fin r → Fin n → K) (cross : Fin r → DeCross K n)
    (ht : ∀ i j, xl j ≤ target i j ∧ target i j ≤ xu j) (hb : ∀ i j, xl j ≤ base i j ∧ base i j ≤ xu j)
    (hu1 : ∀ i j, 0 ≤ u1 i j ∧ u1 i j ≤ 1) (hu2 : ∀ i j, 0 ≤ u2 i j ∧ u2 i j ≤ 1) (hCR : ∀ i, 0 ≤ CR i ∧ CR i ≤ 1)
    (hw : ∀ i, (∀ w, cross i = .line w → 0 ≤ w ∧ w ≤ 1) ∧ ∀ w, cross i = .hypercube w → ∀ j, 0 ≤ w j ∧ w j ≤ 1) (i : Fin r) (j : Fin n) :
    let y := deVariant target base diffs F CR (some (xl, xu)) u1 u2 cross i j
    let donor := repairRandomInit (fun i j => base i j + deSum (diffs i) (F i) j) base xl xu u1 u2
    xl j ≤ y ∧ y ≤ xu j ∧ min (target i j) (donor i j) ≤ y ∧ y ≤ max (target i j) (donor i j) ∧
    ∀ M, cross i = .mask M → y = if M j then donor i j else target i j := by
  obtain ⟨h1, h2, -, -, -⟩ := C24_random_init (fun i j => base i j + deSum (diffs i) (F i) j) base xl xu u1 u2 hu1 hu2 hb i j
  have ht' := ht i j
  simp only [deVariant]
  generalize repairRandomInit (fun i j => base i j + deSum (diffs i) (F i) j) base xl xu u1 u2 = donor at *
  have between : ∀ w, 0 ≤ w → w ≤ 1 → min (target i j) (donor i j) ≤ target i j + w * (donor i j - target i j) ∧
      target i j + w * (donor i j - target i j) ≤ max (target i j) (donor i j) := by
    intro w w0 w1
    rcases le_total (target i j) (donor i j) with h | h
    · rw [min_eq_left h, max_eq_right h]
      have a := mul_nonneg w0 (sub_nonneg.2 h)
      have b := mul_nonneg (sub_nonneg.2 w1) (sub_nonneg.2 h)
      constructor <;> nlinarith
    · rw [min_eq_right h, max_eq_left h]
      have a := mul_nonneg w0 (sub_nonneg.2 h)
      have b := mul_nonneg (sub_nonneg.2 w1) (sub_nonneg.2 h)
      constructor <;> nlinarith
  have hmain : min (target i j) (donor i j) ≤ deTrial (CR i) (target i) (donor i) (cross i) j ∧
      deTrial (CR i) (target i) (donor i) (cross i) j ≤ max (target i j) (donor i j) := by
    have prodle : ∀ w, 0 ≤ w → w ≤ 1 → 0 ≤ w * CR i ∧ w * CR i ≤ 1 := by
      intro w w0 w1
      exact ⟨mul_nonneg w0 (hCR i).1, mul_le_one₀ w1 (hCR i).1 (hCR i).2⟩
    cases hc : cross i with
    | mask M =>
      simp only [deTrial]
      split
      · exact ⟨min_le_right _ _, le_max_right _ _⟩
      · exact ⟨min_le_left _ _, le_max_left _ _⟩
    | line w =>
      have := (hw i).1 w hc
      exact between _ (prodle w this.1 this.2).1 (prodle w this.1 this.2).2
    | hypercube w =>
      have := (hw i).2 w hc j
      exact between _ (prodle (w j) this.1 this.2).1 (prodle (w j) this.1 this.2).2
  refine ⟨le_trans (le_min ht'.1 h1) hmain.1, le_trans hmain.2 (max_le ht'.2 h2), hmain.1, hmain.2, ?_⟩
  intro M hM
  simp [deTrial, hM]

example : deVariant (fun (_ : Fin 1) (_ : Fin 1) => (1 / 2 : ℚ)) (fun _ _ => 1) (fun _ => [(fun _ => 1, fun _ => 0, fun _ => 1)])
    (fun _ => 1) (fun _ => 1) (some (fun _ => 0, fun _ => 1)) (fun _ _ => 1 / 2) (fun _ _ => 1 / 2) (fun _ => .line (1 / 2)) 0 0 = 3 / 4 := by
  decide +kernel

end

end Props
