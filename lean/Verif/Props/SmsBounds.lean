import Mathlib.Data.Finset.Card
import Mathlib.Data.Finset.Range
import Verif.Props.FrontSurvivals
import Verif.Props.Sampling

/-!
# C75 and C57, continued: the bounds of SMS-EMOA and the binary sampling
-/

namespace Props
open Model

/-- C75. The bounds that SMS-EMOA takes from the current population scale every individual of it into `[0, 1)`, so that all of them are strictly better than the reference point `1 + eps`; the smallest value of every
objective becomes zero. -/
theorem C75_advance_bounds {K : Type*} [Field K] [LinearOrder K] [IsStrictOrderedRing K] {m : ℕ} (tiny : K) (ht : 0 < tiny) (pop : List (Fin m → K)) (hp : pop ≠ []) :
    ∃ b, smsBounds tiny pop = some b ∧ (∀ f ∈ pop, ∀ j, 0 ≤ smsNormalize b.1 b.2 f j ∧ smsNormalize b.1 b.2 f j < 1) ∧ ∀ j, ∃ f ∈ pop, smsNormalize b.1 b.2 f j = 0 := by
  obtain ⟨b, hb, h1, h2⟩ := C75_bounds pop hp
  refine ⟨(b.1, fun j => b.2 j + tiny), by simp [smsBounds, hb], fun f hf j => ?_, fun j => ?_⟩
  · have l := (h1 j).1 f hf
    have u := (h2 j).1 f hf
    have hne : b.1 j ≠ b.2 j + tiny := by intro h; linarith
    have hd : 0 < b.2 j + tiny - b.1 j := by linarith
    simp only [smsNormalize, if_neg hne]
    exact ⟨div_nonneg (by linarith) hd.le, by rw [div_lt_one hd]; linarith⟩
  · obtain ⟨f, hf, e⟩ := (h1 j).2
    refine ⟨f, hf, ?_⟩
    simp only [smsNormalize, e, sub_self, zero_div, ite_self]

/-- Not vacuous: two points, and without the small number the worst would be one. -/
example : smsBounds (1 / 10 : ℚ) [![0, 2], ![1, 1]] = some (![0, 1], ![11 / 10, 21 / 10]) := by
  simp only [smsBounds, colMinMax, List.foldl, Option.map_some, Option.some.injEq, Prod.mk.injEq]
  constructor <;> (funext j; fin_cases j <;> norm_num)

/-- C57 (binary). With a generator of the `2q` equally likely numbers `k / (2q)` (`q = 2⁵²` for numpy) a bit is set for exactly half of them. -/
theorem C57_binary {n m : ℕ} (q : ℕ) (hq : 0 < q) (i : Fin n) (j : Fin m) :
    ((Finset.range (2 * q)).filter fun k : ℕ => binarySampling (fun _ _ => (k : ℚ) / (2 * q)) i j = true).card = q := by
  have e : ((Finset.range (2 * q)).filter fun k : ℕ => binarySampling (fun (_ : Fin n) (_ : Fin m) => (k : ℚ) / (2 * q)) i j = true) = Finset.range q := by
    ext k
    have hq' : (0 : ℚ) < 2 * q := by positivity
    simp only [binarySampling, decide_eq_true_eq, Finset.mem_filter, Finset.mem_range]
    rw [div_lt_iff₀ hq', show (1 / 2 * (2 * (q : ℚ))) = q by ring, Nat.cast_lt]
    omega
  rw [e, Finset.card_range]

end Props
