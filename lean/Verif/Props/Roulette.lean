import Verif.Model.Roulette
import Mathlib.Tactic.Linarith
import Mathlib.Tactic.FieldSimp
import Mathlib.Tactic.Positivity
import Mathlib.Data.List.MinMax
import Mathlib.Algebra.Order.Field.Rat
import Mathlib.Algebra.Order.BigOperators.Group.List

/-!
# C37: roulette wheel selection
-/

namespace Props

open Model

/-- The index `i` is the segment of the wheel (segment lengths `w`, laid side by side and scaled to total length 1) hit by `x`. -/
def Hits (w : List ℚ) (x : ℚ) (i : ℕ) : Prop :=
  i < w.length ∧ (w.take i).sum ≤ x * w.sum ∧ x * w.sum < (w.take (i + 1)).sum

theorem take_sum_mono (w : List ℚ) (h : ∀ v ∈ w, 0 ≤ v) (i j : ℕ) (hij : i ≤ j) : (w.take i).sum ≤ (w.take j).sum := by
  have : w.take j = w.take i ++ (w.drop i).take (j - i) := by
    have : j = i + (j - i) := by omega
    rw [this, List.take_add]; simp
  rw [this, List.sum_append]
  have : 0 ≤ ((w.drop i).take (j - i)).sum :=
    List.sum_nonneg fun v hv => h v (List.mem_of_mem_drop (List.mem_of_mem_take hv))
  linarith

/-- In a list of naturals `0..n-1` with a downward closed test, the number of hits is the first miss. -/
theorem count_initial (p : ℕ → Bool) (hp : ∀ i j, i ≤ j → p j = true → p i = true) (n : ℕ) :
    (∀ k < ((List.range n).filter p).length, p k = true) ∧ (((List.range n).filter p).length < n →
      p ((List.range n).filter p).length = false) ∧ ((List.range n).filter p).length ≤ n := by
  induction n with
  | zero => simp
  | succ n ih =>
    obtain ⟨h1, h2, h3⟩ := ih
    rw [List.range_succ, List.filter_append]
    by_cases hn : p n = true
    · have hall : ((List.range n).filter p).length = n := by
        by_contra hne
        have := h2 (by omega)
        rw [hp _ n h3 hn] at this
        cases this
      have : (List.filter p (List.range n) ++ List.filter p [n]).length = n + 1 := by simp [hn, hall]
      rw [this]
      refine ⟨fun k hk => hp k n (by omega) hn, by omega, le_refl _⟩
    · have : (List.filter p (List.range n) ++ List.filter p [n]).length = ((List.range n).filter p).length := by simp [hn]
      rw [this]
      refine ⟨h1, fun hlt => ?_, by omega⟩
      rcases Nat.lt_or_ge ((List.range n).filter p).length n with h | h
      · exact h2 h
      · have : ((List.range n).filter p).length = n := by omega
        rw [this]; simpa using hn

/-- **C37**. For non-negative values that are not all zero and a random number in `[0, 1)`, the index is valid and it is the
segment hit by the number. -/
theorem C37_index (w : List ℚ) (hw : ∀ v ∈ w, 0 ≤ v) (htot : 0 < w.sum) (x : ℚ) (hx0 : 0 ≤ x) (hx1 : x < 1) :
    Hits w x (rouletteIndex w x) := by
  have hlen : 0 < w.length := by
    cases w with
    | nil => simp at htot
    | cons => simp
  have hp : ∀ k, rouletteGe x ((w.take (k + 1)).sum) w.sum = true ↔ (w.take (k + 1)).sum ≤ x * w.sum := by
    intro k
    simp only [rouletteGe, if_neg htot.ne', decide_eq_true_eq]
    rw [div_le_iff₀ htot]
  obtain ⟨h1, h2, h3⟩ := count_initial (fun k => rouletteGe x ((w.take (k + 1)).sum) w.sum)
    (fun i j hij hj => (hp i).2 (le_trans (take_sum_mono w hw _ _ (by omega)) ((hp j).1 hj))) (w.length - 1)
  change (∀ k < rouletteIndex w x, _) at h1
  change (rouletteIndex w x < _ → rouletteGe x ((w.take (rouletteIndex w x + 1)).sum) w.sum = false) at h2
  change rouletteIndex w x ≤ _ at h3
  refine ⟨by omega, ?_, ?_⟩
  · cases hi : rouletteIndex w x with
    | zero => simp; positivity
    | succ k => exact (hp k).1 (h1 k (by omega))
  · rcases Nat.lt_or_ge (rouletteIndex w x) (w.length - 1) with h | h
    · by_contra hc
      have := h2 h
      rw [(hp _).2 (not_lt.1 hc)] at this
      cases this
    · have : w.take (rouletteIndex w x + 1) = w := List.take_of_length_le (by omega)
      rw [this]
      nlinarith

example : rouletteIndex [1, 0, 3] (1 / 4) = 2 := by decide +kernel
example : Hits [1, 0, 3] (1 / 4) (rouletteIndex [1, 0, 3] (1 / 4)) := C37_index [1, 0, 3] (by decide +kernel) (by decide +kernel) (1 / 4) (by decide +kernel) (by decide +kernel)

/-- **C37** (uniqueness). The segment hit by a number is unique, so the index returned is the only one it could be, and its
segment is not empty: a value of zero is never selected. -/
theorem C37_unique (w : List ℚ) (hw : ∀ v ∈ w, 0 ≤ v) (x : ℚ) (i j : ℕ) (hi : Hits w x i) (hj : Hits w x j) :
    i = j ∧ ∃ v, w[i]? = some v ∧ 0 < v := by
  constructor
  · rcases Nat.lt_trichotomy i j with h | h | h
    · have := take_sum_mono w hw (i + 1) j (by omega)
      linarith [hi.2.2, hj.2.1]
    · exact h
    · have := take_sum_mono w hw (j + 1) i (by omega)
      linarith [hj.2.2, hi.2.1]
  · have hlt : i < w.length := hi.1
    refine ⟨w[i]'hlt, by simp [hlt], ?_⟩
    have : w.take (i + 1) = w.take i ++ [w[i]'hlt] := by rw [List.take_add_one]; simp [hlt]
    have h2 := hi.2.2
    rw [this, List.sum_append] at h2
    simp only [List.sum_cons, List.sum_nil, add_zero] at h2
    linarith [hi.2.1]

example : Hits [1, 0, 3] (1 / 4) 2 ∧ ¬ Hits [1, 0, 3] (1 / 4) 1 := by
  simp only [Hits]; decide +kernel

theorem max?_spec (val : List ℚ) (hne : val ≠ []) : ∃ m, val.max? = some m ∧ m ∈ val ∧ ∀ v ∈ val, v ≤ m := by
  cases h : val.max? with
  | none => simp [List.max?_eq_none_iff] at h; exact absurd h hne
  | some m => exact ⟨m, rfl, (List.max?_eq_some_iff.1 h).1, fun v hv => (List.max?_eq_some_iff.1 h).2 v hv⟩

/-- **C37** (the wheel). With `larger_is_better` the segments are the values; without it, a value gets the distance to the
largest value: in both cases a better value has a longer or equal segment, and segments are non-negative (for non-negative
values in the first case, for all values in the second). Each random number gives one index, the segment it hits. -/
theorem C37_wheel (val : List ℚ) (b : Bool) (hne : val ≠ []) (hpos : b = true → ∀ v ∈ val, 0 ≤ v) :
    (rouletteWeights val b).length = val.length ∧ (∀ w ∈ rouletteWeights val b, 0 ≤ w) ∧
    (∀ (i j : ℕ) (a c : ℚ), val[i]? = some a → val[j]? = some c → (if b then a ≤ c else c ≤ a) →
      ∃ s t, (rouletteWeights val b)[i]? = some s ∧ (rouletteWeights val b)[j]? = some t ∧ s ≤ t ∧ (a ≠ c → s < t)) ∧
    ∀ xs : List ℚ, 0 < (rouletteWeights val b).sum → (∀ x ∈ xs, 0 ≤ x ∧ x < 1) →
      (rouletteNext val b xs).length = xs.length ∧ ∀ (k : ℕ) (x : ℚ), xs[k]? = some x →
        ∃ i, (rouletteNext val b xs)[k]? = some i ∧ i < val.length ∧ Hits (rouletteWeights val b) x i := by
  obtain ⟨m, hm, hm1, hm2⟩ := max?_spec val hne
  have hlen : (rouletteWeights val b).length = val.length := by cases b <;> simp [rouletteWeights]
  have hnn : ∀ w ∈ rouletteWeights val b, 0 ≤ w := by
    intro w hw
    cases b with
    | true => exact hpos rfl w (by simpa [rouletteWeights] using hw)
    | false =>
      simp only [rouletteWeights, hm, Option.getD_some, Bool.false_eq_true, if_false, List.mem_map] at hw
      obtain ⟨v, hv, rfl⟩ := hw
      linarith [hm2 v hv]
  refine ⟨hlen, hnn, ?_, ?_⟩
  · intro i j a c hi hj hac
    cases b with
    | true =>
      refine ⟨a, c, by simpa [rouletteWeights] using hi, by simpa [rouletteWeights] using hj, by simpa using hac, ?_⟩
      intro hne; exact lt_of_le_of_ne (by simpa using hac) hne
    | false =>
      refine ⟨m - a, m - c, by simp [rouletteWeights, hm, hi], by simp [rouletteWeights, hm, hj], ?_, ?_⟩
      · have : c ≤ a := by simpa using hac
        linarith
      · intro hne
        have : c < a := lt_of_le_of_ne (by simpa using hac) (Ne.symm hne)
        linarith
  · intro xs htot hxs
    refine ⟨by simp [rouletteNext], fun k x hk => ?_⟩
    have hx := hxs x (List.mem_of_getElem? hk)
    have hh := C37_index _ hnn htot x hx.1 hx.2
    exact ⟨_, by simp [rouletteNext, hk], hlen ▸ hh.1, hh⟩

example : rouletteNext [3, 1, 2] false [0, 1 / 2, 9 / 10] = [1, 1, 2] := by decide +kernel

/-- **C37** (limit). If all values are equal and smaller is better, all segments are empty and the first index is always
returned, whatever the random number. -/
theorem C37_all_equal_first (n : ℕ) (c x : ℚ) : rouletteIndex (rouletteWeights (List.replicate n c) false) x = 0 := by
  have hw : rouletteWeights (List.replicate n c) false = List.replicate n 0 := by
    cases n with
    | zero => simp [rouletteWeights]
    | succ n =>
      obtain ⟨m, hm, hm1, -⟩ := max?_spec (List.replicate (n + 1) c) (by simp)
      have : m = c := List.eq_of_mem_replicate hm1
      subst this
      simp only [rouletteWeights, hm]
      simp
  rw [hw]
  simp [rouletteIndex, rouletteGe, List.take_replicate]

end Props
