import Verif.Props.RVEA
import Mathlib.Data.Nat.Totient
import Mathlib.Algebra.Order.Floor.Ring
import Mathlib.Data.Rat.Floor

/-!
# C77: when the reference vectors are adapted
-/

namespace Props
open Model

/-- C77. In a run of `N` generations with the frequency `freq > 0`, the vectors are adapted after the generations that are multiples
of `⌈N freq⌉`: `N / ⌈N freq⌉` times, at most `1 / freq` times, and at least once if `freq ≤ 1`. -/
theorem C77_adapt_times (N : ℕ) (hN : 0 < N) (freq : ℚ) (hf : 0 < freq) :
    (∀ n, rveaAdaptNow ⌈(N : ℚ) * freq⌉₊ n = true ↔ ⌈(N : ℚ) * freq⌉₊ ∣ n) ∧
    ((Finset.Ioc 0 N).filter fun n => rveaAdaptNow ⌈(N : ℚ) * freq⌉₊ n = true).card = N / ⌈(N : ℚ) * freq⌉₊ ∧
    (((Finset.Ioc 0 N).filter fun n => rveaAdaptNow ⌈(N : ℚ) * freq⌉₊ n = true).card : ℚ) ≤ 1 / freq ∧
    (freq ≤ 1 → 1 ≤ ((Finset.Ioc 0 N).filter fun n => rveaAdaptNow ⌈(N : ℚ) * freq⌉₊ n = true).card) := by
  have hNq : (0 : ℚ) < N := by exact_mod_cast hN
  have hle := Nat.le_ceil ((N : ℚ) * freq)
  have hpos : 0 < ⌈(N : ℚ) * freq⌉₊ := Nat.ceil_pos.2 (mul_pos hNq hf)
  set p := ⌈(N : ℚ) * freq⌉₊ with hp
  have h1 : ∀ n, rveaAdaptNow p n = true ↔ p ∣ n := by
    intro n
    simp only [rveaAdaptNow, decide_eq_true_eq]
    rw [Nat.dvd_iff_mod_eq_zero]
    exact ⟨fun h => h.2, fun h => ⟨by omega, h⟩⟩
  have h2 : ((Finset.Ioc 0 N).filter fun n => rveaAdaptNow p n = true).card = N / p := by
    rw [← Nat.Ioc_filter_dvd_card_eq_div N p]
    congr 1
    ext n
    simp only [Finset.mem_filter, h1]
  refine ⟨h1, h2, ?_, fun hf1 => ?_⟩
  · rw [h2, le_div_iff₀ hf]
    have a1 : ((N / p : ℕ) : ℚ) ≤ N / p := Nat.cast_div_le
    have hpq : (0 : ℚ) < p := by exact_mod_cast hpos
    rw [le_div_iff₀ hpq] at a1
    have a2 : ((N / p : ℕ) : ℚ) * ((N : ℚ) * freq) ≤ ((N / p : ℕ) : ℚ) * p := mul_le_mul_of_nonneg_left hle (Nat.cast_nonneg _)
    have : (N : ℚ) * (((N / p : ℕ) : ℚ) * freq) ≤ N * 1 := by linarith
    exact le_of_mul_le_mul_left this hNq
  · rw [h2]
    have : p ≤ N := Nat.ceil_le.2 (by nlinarith)
    exact (Nat.one_le_div_iff hpos).2 this

/-- The default, `adapt_freq = 0.1`, with 400 generations: the generations 40, 80, …. -/
example : (0 : ℕ) < 400 ∧ (0 : ℚ) < 1 / 10 ∧ rveaAdaptNow 40 80 = true ∧ rveaAdaptNow 40 81 = false := by
  refine ⟨by norm_num, by norm_num, by decide, by decide⟩

/-- C77. With a frequency of zero, the vectors are never adapted. -/
theorem C77_adapt_zero (n : ℕ) : rveaAdaptNow 0 n = false := by simp [rveaAdaptNow]

end Props
