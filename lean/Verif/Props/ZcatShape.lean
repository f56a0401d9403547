import Verif.Model.Zcat
import Verif.Spec.Zcat
import Mathlib.Analysis.SpecialFunctions.Trigonometric.Bounds
import Mathlib.Analysis.Real.Pi.Bounds
import Mathlib.Analysis.SpecialFunctions.Exp
import Mathlib.Tactic.Linarith
import Mathlib.Tactic.Positivity
import Mathlib.Tactic.NormNum
import Mathlib.Tactic.Ring
import Mathlib.Tactic.FieldSimp

/-!
# The shapes of the ZCAT fronts: which parameters give points that no other parameter dominates
-/

set_option linter.unusedSimpArgs false
set_option linter.unusedVariables false

namespace Props
open Model Spec

/-- What the chains need of the two functions. -/
structure ZcPair (a b : ℝ → ℝ) : Prop where
  anti : ∀ u v, 0 ≤ u → u ≤ 1 → 0 ≤ v → v ≤ 1 → b u ≤ b v → a v ≤ a u
  inj : ∀ u v, 0 ≤ u → u ≤ 1 → 0 ≤ v → v ≤ 1 → a u = a v → u = v

structure ZcPosPair (a b : ℝ → ℝ) : Prop extends ZcPair a b where
  a0 : ∀ u, 0 ≤ u → u ≤ 1 → 0 ≤ a u
  b0 : ∀ u, 0 ≤ u → u ≤ 1 → 0 ≤ b u
  ab : ∀ u, 0 ≤ u → u ≤ 1 → 0 < a u ∨ 0 < b u

/-- The first `N` entries are in the unit interval. -/
def ZcUnit (N : ℕ) (y : ℕ → ℝ) : Prop := ∀ i < N, 0 ≤ y i ∧ y i ≤ 1

theorem prod_nonneg_of {a : ℝ → ℝ} {N : ℕ} {y : ℕ → ℝ} (h0 : ∀ u, 0 ≤ u → u ≤ 1 → 0 ≤ a u) (hy : ZcUnit N y) (k : ℕ) (hk : k ≤ N) : 0 ≤ ∏ i ∈ Finset.range k, a (y i) :=
  Finset.prod_nonneg fun i hi => by
    have := hy i (by have := Finset.mem_range.1 hi; omega)
    exact h0 _ this.1 this.2

/-- The chain of products. -/
theorem prod_chain {a b : ℝ → ℝ} (hp : ZcPosPair a b) {N s : ℕ} {y y' : ℕ → ℝ} (hs : s ≤ N) (hy : ZcUnit N y) (hy' : ZcUnit N y')
    (start : ∏ i ∈ Finset.range s, a (y i) ≤ ∏ i ∈ Finset.range s, a (y' i))
    (mid : ∀ k, s ≤ k → k < N → (∏ i ∈ Finset.range k, a (y' i)) * b (y' k) ≤ (∏ i ∈ Finset.range k, a (y i)) * b (y k))
    (last : ∏ i ∈ Finset.range N, a (y' i) ≤ ∏ i ∈ Finset.range N, a (y i)) :
    ∏ i ∈ Finset.range s, a (y' i) = ∏ i ∈ Finset.range s, a (y i) ∧ ∏ i ∈ Finset.range N, a (y' i) = ∏ i ∈ Finset.range N, a (y i) ∧
    ∀ k, s ≤ k → k < N → (∏ i ∈ Finset.range k, a (y' i)) * b (y' k) = (∏ i ∈ Finset.range k, a (y i)) * b (y k) := by
  set P : ℕ → ℝ := fun k => ∏ i ∈ Finset.range k, a (y i) with hP
  set P' : ℕ → ℝ := fun k => ∏ i ∈ Finset.range k, a (y' i) with hP'
  have Ps : ∀ k, P (k + 1) = P k * a (y k) := fun k => Finset.prod_range_succ _ _
  have Ps' : ∀ k, P' (k + 1) = P' k * a (y' k) := fun k => Finset.prod_range_succ _ _
  have Pn : ∀ k ≤ N, 0 ≤ P k := fun k hk => prod_nonneg_of hp.a0 hy k hk
  have Pn' : ∀ k ≤ N, 0 ≤ P' k := fun k hk => prod_nonneg_of hp.a0 hy' k hk
  have step : ∀ k, s ≤ k → k < N → P k ≤ P' k → 0 < P k → b (y' k) ≤ b (y k) := by
    intro k h1 h2 hle hpos
    have hm := mid k h1 h2
    have hb := hp.b0 _ (hy' k h2).1 (hy' k h2).2
    have : P k * b (y' k) ≤ P k * b (y k) := le_trans (mul_le_mul_of_nonneg_right hle hb) hm
    exact le_of_mul_le_mul_left this hpos
  have fwd : ∀ d, s + d ≤ N → P (s + d) ≤ P' (s + d) := by
    intro d
    induction d with
    | zero => intro _; exact start
    | succ d ih =>
      intro hd
      have ih := ih (by omega)
      have hk : s + d < N := by omega
      rw [show s + (d + 1) = (s + d) + 1 from rfl, Ps, Ps']
      rcases (Pn (s + d) (by omega)).eq_or_lt with h0 | hpos
      · rw [← h0, zero_mul]
        exact mul_nonneg (Pn' _ (by omega)) (hp.a0 _ (hy' _ hk).1 (hy' _ hk).2)
      · have hb := step _ (by omega) hk ih hpos
        have ha := hp.anti _ _ (hy' _ hk).1 (hy' _ hk).2 (hy _ hk).1 (hy _ hk).2 hb
        exact mul_le_mul ih ha (hp.a0 _ (hy _ hk).1 (hy _ hk).2) (Pn' _ (by omega))
  have back : ∀ k, s ≤ k → k < N → P' (k + 1) = P (k + 1) → P' k = P k ∧ P' k * b (y' k) = P k * b (y k) := by
    intro k h1 h2 he
    have hle : P k ≤ P' k := by have := fwd (k - s) (by omega); rwa [show s + (k - s) = k by omega] at this
    have hm : P' k * b (y' k) ≤ P k * b (y k) := mid k h1 h2
    have hyk := hy k h2
    have hyk' := hy' k h2
    have ha0 := hp.a0 _ hyk.1 hyk.2
    have ha0' := hp.a0 _ hyk'.1 hyk'.2
    have hb0 := hp.b0 _ hyk.1 hyk.2
    have hb0' := hp.b0 _ hyk'.1 hyk'.2
    rw [Ps, Ps'] at he
    rcases (Pn k h2.le).eq_or_lt with h0 | hpos
    · rw [← h0, zero_mul] at he hm
      have hz : P' k = 0 := by
        rcases hp.ab _ hyk'.1 hyk'.2 with h | h
        · exact (mul_eq_zero.1 he).resolve_right h.ne'
        · have : P' k * b (y' k) = 0 := le_antisymm hm (mul_nonneg (Pn' k h2.le) hb0')
          exact (mul_eq_zero.1 this).resolve_right h.ne'
      rw [hz, ← h0]
      simp
    · have hb := step k h1 h2 hle hpos
      have ha := hp.anti _ _ hyk'.1 hyk'.2 hyk.1 hyk.2 hb
      have hya : a (y k) = a (y' k) := by
        refine le_antisymm ha ?_
        have : P k * a (y' k) ≤ P k * a (y k) := by rw [← he]; exact mul_le_mul_of_nonneg_right hle ha0'
        exact le_of_mul_le_mul_left this hpos
      have hyy := hp.inj _ _ hyk.1 hyk.2 hyk'.1 hyk'.2 hya
      have hPP : P' k = P k := by
        refine le_antisymm ?_ hle
        rw [← hyy] at he hm
        rcases hp.ab _ hyk.1 hyk.2 with h | h
        · exact le_of_mul_le_mul_right he.le h
        · exact le_of_mul_le_mul_right hm h
      exact ⟨hPP, by rw [hPP, hyy]⟩
  have hN : P' N = P N := by
    have := fwd (N - s) (by omega)
    rw [show s + (N - s) = N by omega] at this
    exact le_antisymm last this
  have all : ∀ d, d ≤ N - s → P' (N - d) = P (N - d) := by
    intro d
    induction d with
    | zero => intro _; exact hN
    | succ d ih =>
      intro hd
      have ih := ih (by omega)
      have := back (N - (d + 1)) (by omega) (by omega) (by rw [show N - (d + 1) + 1 = N - d by omega]; exact ih)
      exact this.1
  refine ⟨?_, hN, ?_⟩
  · have := all (N - s) le_rfl
    rwa [show N - (N - s) = s by omega] at this
  · intro k h1 h2
    have := all (N - (k + 1)) (by omega)
    rw [show N - (N - (k + 1)) = k + 1 by omega] at this
    exact (back k h1 h2 this).2

/-- The chain of sums. -/
theorem sum_chain {a b : ℝ → ℝ} (hp : ZcPair a b) {N s : ℕ} {y y' : ℕ → ℝ} (hs : s ≤ N) (hy : ZcUnit N y) (hy' : ZcUnit N y')
    (start : ∑ i ∈ Finset.range s, a (y i) ≤ ∑ i ∈ Finset.range s, a (y' i))
    (mid : ∀ k, s ≤ k → k < N → (∑ i ∈ Finset.range k, a (y' i)) + b (y' k) ≤ (∑ i ∈ Finset.range k, a (y i)) + b (y k))
    (last : ∑ i ∈ Finset.range N, a (y' i) ≤ ∑ i ∈ Finset.range N, a (y i)) :
    ∑ i ∈ Finset.range s, a (y' i) = ∑ i ∈ Finset.range s, a (y i) ∧ ∑ i ∈ Finset.range N, a (y' i) = ∑ i ∈ Finset.range N, a (y i) ∧
    ∀ k, s ≤ k → k < N → (∑ i ∈ Finset.range k, a (y' i)) + b (y' k) = (∑ i ∈ Finset.range k, a (y i)) + b (y k) := by
  set P : ℕ → ℝ := fun k => ∑ i ∈ Finset.range k, a (y i) with hP
  set P' : ℕ → ℝ := fun k => ∑ i ∈ Finset.range k, a (y' i) with hP'
  have Ps : ∀ k, P (k + 1) = P k + a (y k) := fun k => Finset.sum_range_succ _ _
  have Ps' : ∀ k, P' (k + 1) = P' k + a (y' k) := fun k => Finset.sum_range_succ _ _
  have step : ∀ k, s ≤ k → k < N → P k ≤ P' k → a (y k) ≤ a (y' k) := by
    intro k h1 h2 hle
    have hm : P' k + b (y' k) ≤ P k + b (y k) := mid k h1 h2
    exact hp.anti _ _ (hy' k h2).1 (hy' k h2).2 (hy k h2).1 (hy k h2).2 (by linarith)
  have fwd : ∀ d, s + d ≤ N → P (s + d) ≤ P' (s + d) := by
    intro d
    induction d with
    | zero => intro _; exact start
    | succ d ih =>
      intro hd
      have ih := ih (by omega)
      rw [show s + (d + 1) = (s + d) + 1 from rfl, Ps, Ps']
      have := step _ (by omega) (by omega) ih
      linarith
  have hN : P' N = P N := by
    have := fwd (N - s) (by omega)
    rw [show s + (N - s) = N by omega] at this
    exact le_antisymm last this
  have back : ∀ k, s ≤ k → k < N → P' (k + 1) = P (k + 1) → P' k = P k ∧ P' k + b (y' k) = P k + b (y k) := by
    intro k h1 h2 he
    have hle : P k ≤ P' k := by have := fwd (k - s) (by omega); rwa [show s + (k - s) = k by omega] at this
    have ha := step k h1 h2 hle
    rw [Ps, Ps'] at he
    have hyy := hp.inj _ _ (hy k h2).1 (hy k h2).2 (hy' k h2).1 (hy' k h2).2 (by linarith)
    have hPP : P' k = P k := by rw [← hyy] at he; linarith
    exact ⟨hPP, by rw [hPP, hyy]⟩
  have all : ∀ d, d ≤ N - s → P' (N - d) = P (N - d) := by
    intro d
    induction d with
    | zero => intro _; exact hN
    | succ d ih =>
      intro hd
      have ih := ih (by omega)
      have := back (N - (d + 1)) (by omega) (by omega) (by rw [show N - (d + 1) + 1 = N - d by omega]; exact ih)
      exact this.1
  refine ⟨?_, hN, ?_⟩
  · have := all (N - s) le_rfl
    rwa [show N - (N - s) = s by omega] at this
  · intro k h1 h2
    have := all (N - (k + 1)) (by omega)
    rw [show N - (N - (k + 1)) = k + 1 by omega] at this
    exact (back k h1 h2 this).2

/-! ### The two functions of the shapes -/

theorem zcSin_mem {v : ℝ} (h0 : 0 ≤ v) (h1 : v ≤ 1) : 0 ≤ zcSin v ∧ zcSin v ≤ 1 := by
  have hp := Real.pi_pos
  exact ⟨Real.sin_nonneg_of_nonneg_of_le_pi (by positivity) (by nlinarith), Real.sin_le_one _⟩

theorem zcCos_mem {v : ℝ} (h0 : 0 ≤ v) (h1 : v ≤ 1) : 0 ≤ zcCos v ∧ zcCos v ≤ 1 := by
  have hp := Real.pi_pos
  refine ⟨Real.cos_nonneg_of_neg_pi_div_two_le_of_le ?_ ?_, Real.cos_le_one _⟩
  · have : 0 ≤ v * Real.pi / 2 := by positivity
    linarith
  · nlinarith

theorem zcSin_lt {u v : ℝ} (h0 : 0 ≤ u) (h : u < v) (h1 : v ≤ 1) : zcSin u < zcSin v := by
  have hp := Real.pi_pos
  refine Real.sin_lt_sin_of_lt_of_le_pi_div_two ?_ ?_ ?_
  · have : 0 ≤ u * Real.pi / 2 := by positivity
    linarith
  · nlinarith
  · nlinarith

theorem zcCos_lt {u v : ℝ} (h0 : 0 ≤ u) (h : u < v) (h1 : v ≤ 1) : zcCos v < zcCos u := by
  have hp := Real.pi_pos
  refine Real.cos_lt_cos_of_nonneg_of_le_pi ?_ ?_ ?_
  · positivity
  · nlinarith
  · nlinarith

theorem zcSinCos_sq (v : ℝ) : zcSin v ^ 2 + zcCos v ^ 2 = 1 := Real.sin_sq_add_cos_sq _

/-- A pair from a strictly increasing and a strictly decreasing function. -/
theorem pair_of_strict {a b : ℝ → ℝ} (ha : ∀ u v, 0 ≤ u → u < v → v ≤ 1 → a u < a v) (hb : ∀ u v, 0 ≤ u → u < v → v ≤ 1 → b v < b u) : ZcPair a b where
  anti u v u0 u1 v0 v1 h := by
    rcases lt_trichotomy u v with hlt | rfl | hlt
    · exact absurd h (not_le.2 (hb u v u0 hlt v1))
    · exact le_rfl
    · exact (ha v u v0 hlt u1).le
  inj u v u0 u1 v0 v1 h := by
    rcases lt_trichotomy u v with hlt | rfl | hlt
    · exact absurd h (ha u v u0 hlt v1).ne
    · rfl
    · exact absurd h (ha v u v0 hlt u1).ne'

/-- A pair from a strictly decreasing and a strictly increasing function. -/
theorem pair_of_strict' {a b : ℝ → ℝ} (ha : ∀ u v, 0 ≤ u → u < v → v ≤ 1 → a v < a u) (hb : ∀ u v, 0 ≤ u → u < v → v ≤ 1 → b u < b v) : ZcPair a b where
  anti u v u0 u1 v0 v1 h := by
    rcases lt_trichotomy u v with hlt | rfl | hlt
    · exact (ha u v u0 hlt v1).le
    · exact le_rfl
    · exact absurd h (not_le.2 (hb v u v0 hlt u1))
  inj u v u0 u1 v0 v1 h := by
    rcases lt_trichotomy u v with hlt | rfl | hlt
    · exact absurd h (ha u v u0 hlt v1).ne'
    · rfl
    · exact absurd h (ha v u v0 hlt u1).ne

theorem pair_sincos : ZcPosPair zcSin zcCos where
  toZcPair := pair_of_strict (fun _ _ => zcSin_lt) (fun _ _ => zcCos_lt)
  a0 u h0 h1 := (zcSin_mem h0 h1).1
  b0 u h0 h1 := (zcCos_mem h0 h1).1
  ab u h0 h1 := by
    have := zcSinCos_sq u
    rcases (zcSin_mem h0 h1).1.eq_or_lt with h | h
    · right
      rcases (zcCos_mem h0 h1).1.eq_or_lt with h' | h'
      · rw [← h, ← h'] at this; norm_num at this
      · exact h'
    · exact Or.inl h

theorem zc_not_both_one (u : ℝ) : zcCos u < 1 ∨ zcSin u < 1 := by
  have := zcSinCos_sq u
  by_contra hc
  simp only [not_or, not_lt] at hc
  nlinarith

theorem pair_f2 : ZcPosPair (fun v => 1 - zcCos v) (fun v => 1 - zcSin v) where
  toZcPair := pair_of_strict (fun u v h0 h h1 => by have := zcCos_lt h0 h h1; linarith) (fun u v h0 h h1 => by have := zcSin_lt h0 h h1; linarith)
  a0 u h0 h1 := by have := (zcCos_mem h0 h1).2; linarith
  b0 u h0 h1 := by have := (zcSin_mem h0 h1).2; linarith
  ab u h0 h1 := by rcases zc_not_both_one u with h | h; exacts [Or.inl (by linarith), Or.inr (by linarith)]

theorem pair_f8 : ZcPosPair (fun v => 1 - zcSin v) (fun v => 1 - zcCos v) where
  toZcPair := pair_of_strict' (fun u v h0 h h1 => by have := zcSin_lt h0 h h1; linarith) (fun u v h0 h h1 => by have := zcCos_lt h0 h h1; linarith)
  a0 u h0 h1 := by have := (zcSin_mem h0 h1).2; linarith
  b0 u h0 h1 := by have := (zcCos_mem h0 h1).2; linarith
  ab u h0 h1 := by rcases zc_not_both_one u with h | h; exacts [Or.inr (by linarith), Or.inl (by linarith)]

theorem pair_f12 : ZcPosPair (fun v => 1 - v) (fun v => v) where
  toZcPair := pair_of_strict' (fun u v h0 h h1 => by linarith) (fun u v h0 h h1 => h)
  a0 u h0 h1 := by linarith
  b0 u h0 h1 := h0
  ab u h0 h1 := by rcases h0.eq_or_lt with h | h; exacts [Or.inl (by linarith), Or.inr h]

theorem pair_f3 : ZcPair (fun v => v) (fun v => 1 - v) := pair_of_strict (fun u v h0 h h1 => h) (fun u v h0 h h1 => by linarith)

/-! ### From the objectives to the chains -/

/-- The objective vector of the shape. -/
noncomputable def zcS (id M : ℕ) (y : ℕ → ℝ) (k : Fin M) : ℝ := (zcF id M y (k + 1)).getD 0

/-- The objectives before the last one are the ends of the chain. -/
theorem zcProd_at {a b : ℝ → ℝ} {M : ℕ} (hM : 2 ≤ M) (y : ℕ → ℝ) :
    zcProd a b M y 1 = ∏ i ∈ Finset.range (M - 1), a (y i) ∧ ∀ k, 1 ≤ k → k < M - 1 → zcProd a b M y (M - k) = (∏ i ∈ Finset.range k, a (y i)) * b (y k) := by
  refine ⟨by simp [zcProd], fun k h1 h2 => ?_⟩
  simp only [zcProd]
  rw [if_neg (by omega), show M - (M - k) = k by omega]

theorem zcMean_at {a b : ℝ → ℝ} {M : ℕ} (hM : 2 ≤ M) (y : ℕ → ℝ) :
    zcMean a b M y 1 = (∑ i ∈ Finset.range (M - 1), a (y i)) / ((M : ℝ) - 1) ∧
    ∀ k, 1 ≤ k → k < M - 1 → zcMean a b M y (M - k) = ((∑ i ∈ Finset.range k, a (y i)) + b (y k)) / ((k : ℝ) + 1) := by
  refine ⟨by simp [zcMean], fun k h1 h2 => ?_⟩
  simp only [zcMean]
  rw [if_neg (by omega), show M - (M - k) = k by omega, Nat.cast_sub (by omega)]
  congr 1; ring

/-- The objectives before the last one as chains: order. -/
theorem zcProd_le {a b : ℝ → ℝ} {M : ℕ} (hM : 2 ≤ M) {y y' : ℕ → ℝ} (h : ∀ j, 1 ≤ j → j < M → zcProd a b M y' j ≤ zcProd a b M y j) :
    (∏ i ∈ Finset.range (M - 1), a (y' i) ≤ ∏ i ∈ Finset.range (M - 1), a (y i)) ∧
    ∀ k, 1 ≤ k → k < M - 1 → (∏ i ∈ Finset.range k, a (y' i)) * b (y' k) ≤ (∏ i ∈ Finset.range k, a (y i)) * b (y k) := by
  refine ⟨?_, fun k h1 h2 => ?_⟩
  · have := h 1 le_rfl (by omega)
    rwa [(zcProd_at hM y).1, (zcProd_at hM y').1] at this
  · have := h (M - k) (by omega) (by omega)
    rwa [(zcProd_at hM y).2 k h1 h2, (zcProd_at hM y').2 k h1 h2] at this

theorem zcProd_eq {a b : ℝ → ℝ} {M : ℕ} (hM : 2 ≤ M) {y y' : ℕ → ℝ}
    (h1 : ∏ i ∈ Finset.range (M - 1), a (y' i) = ∏ i ∈ Finset.range (M - 1), a (y i))
    (h2 : ∀ k, 1 ≤ k → k < M - 1 → (∏ i ∈ Finset.range k, a (y' i)) * b (y' k) = (∏ i ∈ Finset.range k, a (y i)) * b (y k)) :
    ∀ j, 1 ≤ j → j < M → zcProd a b M y' j = zcProd a b M y j := by
  intro j hj hjM
  by_cases hj1 : j = 1
  · rw [hj1, (zcProd_at hM y).1, (zcProd_at hM y').1, h1]
  · have e : j = M - (M - j) := by omega
    rw [e, (zcProd_at hM y).2 _ (by omega) (by omega), (zcProd_at hM y').2 _ (by omega) (by omega), h2 _ (by omega) (by omega)]

theorem zc_mpos {M : ℕ} (hM : 2 ≤ M) : (0 : ℝ) < (M : ℝ) - 1 := by
  have : (2 : ℝ) ≤ M := by exact_mod_cast hM
  linarith

theorem zcMean_le {a b : ℝ → ℝ} {M : ℕ} (hM : 2 ≤ M) {y y' : ℕ → ℝ} (h : ∀ j, 1 ≤ j → j < M → zcMean a b M y' j ≤ zcMean a b M y j) :
    (∑ i ∈ Finset.range (M - 1), a (y' i) ≤ ∑ i ∈ Finset.range (M - 1), a (y i)) ∧
    ∀ k, 1 ≤ k → k < M - 1 → (∑ i ∈ Finset.range k, a (y' i)) + b (y' k) ≤ (∑ i ∈ Finset.range k, a (y i)) + b (y k) := by
  refine ⟨?_, fun k h1 h2 => ?_⟩
  · have := h 1 le_rfl (by omega)
    rw [(zcMean_at hM y).1, (zcMean_at hM y').1] at this
    exact (div_le_div_iff_of_pos_right (zc_mpos hM)).1 this
  · have := h (M - k) (by omega) (by omega)
    rw [(zcMean_at hM y).2 k h1 h2, (zcMean_at hM y').2 k h1 h2] at this
    exact (div_le_div_iff_of_pos_right (by positivity)).1 this

theorem zcMean_eq {a b : ℝ → ℝ} {M : ℕ} (hM : 2 ≤ M) {y y' : ℕ → ℝ}
    (h1 : ∑ i ∈ Finset.range (M - 1), a (y' i) = ∑ i ∈ Finset.range (M - 1), a (y i))
    (h2 : ∀ k, 1 ≤ k → k < M - 1 → (∑ i ∈ Finset.range k, a (y' i)) + b (y' k) = (∑ i ∈ Finset.range k, a (y i)) + b (y k)) :
    ∀ j, 1 ≤ j → j < M → zcMean a b M y' j = zcMean a b M y j := by
  intro j hj hjM
  by_cases hj1 : j = 1
  · rw [hj1, (zcMean_at hM y).1, (zcMean_at hM y').1, h1]
  · have e : j = M - (M - j) := by omega
    rw [e, (zcMean_at hM y).2 _ (by omega) (by omega), (zcMean_at hM y').2 _ (by omega) (by omega), h2 _ (by omega) (by omega)]

/-- Objectives as functions of `j`. -/
theorem zc_objs {M : ℕ} (hM : 2 ≤ M) {G G' : ℕ → ℝ} (h : ∀ k : Fin M, G' (k + 1) ≤ G (k + 1)) : G' M ≤ G M ∧ ∀ j, 1 ≤ j → j < M → G' j ≤ G j := by
  refine ⟨?_, fun j h1 h2 => ?_⟩
  · have := h ⟨M - 1, by omega⟩
    simpa [show M - 1 + 1 = M by omega] using this
  · have := h ⟨j - 1, by omega⟩
    simpa [show j - 1 + 1 = j by omega] using this

theorem zc_objs_eq {M : ℕ} {G G' : ℕ → ℝ} (hl : G' M = G M) (h : ∀ j, 1 ≤ j → j < M → G' j = G j) (k : Fin M) : G' (k + 1) = G (k + 1) := by
  by_cases hk : (k : ℕ) + 1 = M
  · rw [hk, hl]
  · exact h _ (by omega) (by have := k.2; omega)

end Props
