import Verif.Model.Sampling
import Mathlib.Algebra.Order.Field.Rat
import Mathlib.Data.Rat.Cast.Order
import Mathlib.Algebra.Order.Ring.Cast
import Mathlib.Tactic.Linarith
import Mathlib.Tactic.Positivity
import Mathlib.Tactic.FieldSimp
import Mathlib.Tactic.Ring
import Mathlib.Tactic.NormNum
import Mathlib.Data.Fin.VecNotation

/-!
# C57: sampling
-/

set_option linter.unusedSimpArgs false
set_option linter.unusedVariables false
set_option linter.unusedSectionVars false

namespace Props

open Model

section
variable {K : Type*} [Field K] [LinearOrder K] [IsStrictOrderedRing K] {n m : ℕ}

/-- **C57** (float). Random samples are inside the bounds; crossing bounds raise. -/
theorem C57_float (xl xu : Fin m → K) (u : Fin n → Fin m → K) (hu : ∀ i j, 0 ≤ u i j ∧ u i j < 1) :
    ((∀ j, xl j ≤ xu j) → ∃ X, floatSampling (some (xl, xu)) u = some X ∧ ∀ i j, xl j ≤ X i j ∧ X i j ≤ xu j ∧ (xl j < xu j → X i j < xu j)) ∧
    ((∃ j, xu j < xl j) → floatSampling (some (xl, xu)) u = none) ∧ floatSampling none u = some u := by
  refine ⟨?_, ?_, rfl⟩
  · intro h
    refine ⟨fun i j => xl j + (xu j - xl j) * u i j, by simp [floatSampling, h], ?_⟩
    intro i j
    obtain ⟨h0, h1⟩ := hu i j
    have hd : 0 ≤ xu j - xl j := sub_nonneg.2 (h j)
    have a := mul_nonneg hd h0
    have b := mul_le_mul_of_nonneg_left h1.le hd
    refine ⟨by linarith, by linarith, ?_⟩
    intro hlt
    have c := mul_lt_mul_of_pos_left h1 (sub_pos.2 hlt)
    linarith
  · rintro ⟨j, hj⟩
    simp only [floatSampling]
    rw [if_neg]
    simp only [List.all_eq_true, List.mem_finRange, decide_eq_true_eq, true_implies, not_forall, not_le]
    exact ⟨j, hj⟩

/-- **C57** (integers). With `random_state.integers(lo, hi)` in `[lo, hi)`, integer samples are inside the bounds, and both bounds
can be drawn. -/
theorem C57_integer (xl xu : Fin m → ℤ) (draw : Fin n → Fin m → ℤ → ℤ → ℤ)
    (hdraw : ∀ i j lo hi, lo < hi → lo ≤ draw i j lo hi ∧ draw i j lo hi < hi) (hb : ∀ j, xl j ≤ xu j) (i : Fin n) (j : Fin m) :
    (xl j ≤ integerSampling xl xu draw i j ∧ integerSampling xl xu draw i j ≤ xu j) ∧
    integerSampling xl xu (fun _ _ _ hi => hi - 1) i j = xu j := by
  obtain ⟨h1, h2⟩ := hdraw i j (xl j) (xu j + 1) (by have := hb j; omega)
  exact ⟨⟨h1, Int.lt_add_one_iff.1 h2⟩, by simp [integerSampling]⟩

/-- **C57** (permutations). Every row of a permutation sample contains every number below the number of variables exactly once. -/
theorem C57_permutation (perm : Fin n → Equiv.Perm (Fin m)) (i : Fin n) (v : ℕ) (hv : v < m) :
    ∃! j, permutationSampling perm i j = v := by
  refine ⟨(perm i).symm ⟨v, hv⟩, by simp [permutationSampling], ?_⟩
  intro j hj
  rw [Equiv.eq_symm_apply]
  exact Fin.ext hj

/-- **C57** (Latin hypercube, one sample). In every variable each of the `n` intervals of equal length contains exactly one of the `n`
samples; without smoothing the sample is the middle of the interval. -/
theorem C57_lhs_unit (perm : Fin m → Equiv.Perm (Fin n)) (u : Option (Fin n → Fin m → K))
    (hu : ∀ w, u = some w → ∀ i j, 0 ≤ w i j ∧ w i j < 1) (j : Fin m) (k : Fin n) :
    (∃! i, ((k : ℕ) : K) / n < lhsUnit perm u i j ∧ lhsUnit perm u i j ≤ (((k : ℕ) : K) + 1) / n) ∧
    (u = none → ∃ i, lhsUnit perm u i j = (((k : ℕ) : K) + 1 / 2) / n) := by
  have hn : (0 : K) < n := by
    have : 0 < n := lt_of_le_of_lt (Nat.zero_le _) k.2
    exact_mod_cast this
  have hr : ∀ i, ∃ r, lhsUnit perm u i j = (((perm j i : ℕ) : K) + 1 - r) / n ∧ 0 ≤ r ∧ r < 1 := by
    intro i
    cases u with
    | none => exact ⟨1 / 2, rfl, by norm_num, by norm_num⟩
    | some w => exact ⟨w i j, rfl, hu w rfl i j⟩
  constructor
  · refine ⟨(perm j).symm k, ?_, ?_⟩
    · obtain ⟨r, e, r0, r1⟩ := hr ((perm j).symm k)
      simp only [e, Equiv.apply_symm_apply]
      constructor
      · apply div_lt_div_of_pos_right _ hn; linarith
      · apply div_le_div_of_nonneg_right _ hn.le; linarith
    · rintro i ⟨h1, h2⟩
      obtain ⟨r, e, r0, r1⟩ := hr i
      rw [e] at h1 h2
      have h1' := (div_lt_div_iff_of_pos_right hn).1 h1
      have h2' := (div_le_div_iff_of_pos_right hn).1 h2
      have a : ((k : ℕ) : K) < ((perm j i : ℕ) : K) + 1 := by linarith
      have b : ((perm j i : ℕ) : K) < ((k : ℕ) : K) + 1 := by linarith
      have a' : (k : ℕ) < (perm j i : ℕ) + 1 := by exact_mod_cast a
      have b' : (perm j i : ℕ) < (k : ℕ) + 1 := by exact_mod_cast b
      have : perm j i = k := Fin.ext (by omega)
      rw [← this]; simp
  · rintro rfl
    refine ⟨(perm j).symm k, ?_⟩
    simp only [lhsUnit, Equiv.apply_symm_apply]
    congr 1
    ring

theorem lhsLoop_spec {A S : Type*} [LinearOrder S] (score : A → S) (l : List A) (X : A) :
    (lhsLoop score l X = X ∨ lhsLoop score l X ∈ l) ∧ score X ≤ score (lhsLoop score l X) ∧ ∀ Y ∈ l, score Y ≤ score (lhsLoop score l X) := by
  induction l generalizing X with
  | nil => simp [lhsLoop]
  | cons Y l ih =>
    simp only [lhsLoop]
    split
    · rename_i h
      obtain ⟨h1, h2, h3⟩ := ih Y
      refine ⟨Or.inr ?_, le_trans h.le h2, ?_⟩
      · rcases h1 with h1 | h1
        · rw [h1]; exact List.mem_cons_self ..
        · exact List.mem_cons_of_mem _ h1
      · intro Z hZ
        rcases List.mem_cons.1 hZ with rfl | hZ
        · exact h2
        · exact h3 Z hZ
    · rename_i h
      obtain ⟨h1, h2, h3⟩ := ih X
      refine ⟨?_, h2, ?_⟩
      · rcases h1 with h1 | h1
        · exact Or.inl h1
        · exact Or.inr (List.mem_cons_of_mem _ h1)
      · intro Z hZ
        rcases List.mem_cons.1 hZ with rfl | hZ
        · exact le_trans (not_lt.1 h) h2
        · exact h3 Z hZ

/-- **C57** (Latin hypercube). With any criterion and any number of iterations, the returned samples are one of the candidates, scaled
to the bounds; no candidate has a better score; every sample is inside the bounds, and each of the `n` equal parts of each variable's
range contains exactly one sample. -/
theorem C57_lhs {S : Type*} [LinearOrder S] (xl xu : Fin m → K) (criterion : Option ((Fin n → Fin m → K) → S))
    (draws : List ((Fin m → Equiv.Perm (Fin n)) × Option (Fin n → Fin m → K))) (d : (Fin m → Equiv.Perm (Fin n)) × Option (Fin n → Fin m → K))
    (hu : ∀ e ∈ d :: draws, ∀ w, e.2 = some w → ∀ i j, 0 ≤ w i j ∧ w i j < 1) (hb : ∀ j, xl j < xu j) :
    let X := samplingLhs xl xu criterion (lhsUnit d.1 d.2) (draws.map fun e => lhsUnit e.1 e.2)
    (∃ e ∈ d :: draws, (∀ i j, X i j = xl j + lhsUnit e.1 e.2 i j * (xu j - xl j)) ∧
      (∀ score, criterion = some score → ∀ e' ∈ d :: draws, score (lhsUnit e'.1 e'.2) ≤ score (lhsUnit e.1 e.2)) ∧
      (criterion = none → e = d)) ∧
    (∀ i j, xl j ≤ X i j ∧ X i j ≤ xu j) ∧
    ∀ (j : Fin m) (k : Fin n), ∃! i, xl j + (xu j - xl j) * ((k : ℕ) : K) / n < X i j ∧ X i j ≤ xl j + (xu j - xl j) * (((k : ℕ) : K) + 1) / n := by
  intro X
  have hsel : ∃ e ∈ d :: draws, (∀ i j, X i j = xl j + lhsUnit e.1 e.2 i j * (xu j - xl j)) ∧
      (∀ score, criterion = some score → ∀ e' ∈ d :: draws, score (lhsUnit e'.1 e'.2) ≤ score (lhsUnit e.1 e.2)) ∧
      (criterion = none → e = d) := by
    cases hc : criterion with
    | none => exact ⟨d, List.mem_cons_self .., fun i j => by simp [X, samplingLhs, hc], by simp, fun _ => rfl⟩
    | some score =>
      obtain ⟨h1, h2, h3⟩ := lhsLoop_spec score (draws.map fun e => lhsUnit e.1 e.2) (lhsUnit d.1 d.2)
      have hX : ∀ e : (Fin m → Equiv.Perm (Fin n)) × Option (Fin n → Fin m → K),
          lhsLoop score (draws.map fun e => lhsUnit e.1 e.2) (lhsUnit d.1 d.2) = lhsUnit e.1 e.2 →
          (∀ i j, X i j = xl j + lhsUnit e.1 e.2 i j * (xu j - xl j)) ∧
          (∀ score', some score = some score' → ∀ e' ∈ d :: draws, score' (lhsUnit e'.1 e'.2) ≤ score' (lhsUnit e.1 e.2)) := by
        intro e he
        refine ⟨fun i j => by simp [X, samplingLhs, hc, he], ?_⟩
        intro score' hs e' he'
        obtain rfl := Option.some.inj hs
        rw [he] at h2 h3
        rcases List.mem_cons.1 he' with rfl | he'
        · exact h2
        · exact h3 _ (List.mem_map_of_mem he')
      rcases h1 with h1 | h1
      · obtain ⟨a, b⟩ := hX d h1
        exact ⟨d, List.mem_cons_self .., a, b, by simp⟩
      · obtain ⟨e, he, hee⟩ := List.mem_map.1 h1
        obtain ⟨a, b⟩ := hX e hee.symm
        exact ⟨e, List.mem_cons_of_mem _ he, a, b, by simp⟩
  refine ⟨hsel, ?_⟩
  obtain ⟨e, he, hX, -, -⟩ := hsel
  have key : ∀ j k, ∃! i, xl j + (xu j - xl j) * ((k : Fin n) : ℕ) / n < X i j ∧ X i j ≤ xl j + (xu j - xl j) * (((k : Fin n) : ℕ) + 1) / n := by
    intro j k
    have hd : 0 < xu j - xl j := sub_pos.2 (hb j)
    have iff : ∀ i, (xl j + (xu j - xl j) * ((k : Fin n) : ℕ) / n < X i j ∧ X i j ≤ xl j + (xu j - xl j) * (((k : Fin n) : ℕ) + 1) / n) ↔
        (((k : ℕ) : K) / n < lhsUnit e.1 e.2 i j ∧ lhsUnit e.1 e.2 i j ≤ (((k : ℕ) : K) + 1) / n) := by
      intro i
      rw [hX]
      rw [mul_div_assoc, mul_div_assoc, mul_comm (lhsUnit e.1 e.2 i j)]
      rw [add_lt_add_iff_left, add_le_add_iff_left, mul_lt_mul_iff_right₀ hd, mul_le_mul_iff_right₀ hd]
    obtain ⟨i, hi, huniq⟩ := (C57_lhs_unit e.1 e.2 (hu e he) j k).1
    exact ⟨i, (iff i).2 hi, fun i' hi' => huniq i' ((iff i').1 hi')⟩
  refine ⟨?_, key⟩
  intro i j
  have hn : (0 : K) < n := by
    have : 0 < n := lt_of_le_of_lt (Nat.zero_le _) i.2
    exact_mod_cast this
  have hd : 0 < xu j - xl j := sub_pos.2 (hb j)
  have hr : ∃ r, lhsUnit e.1 e.2 i j = (((e.1 j i : ℕ) : K) + 1 - r) / n ∧ 0 ≤ r ∧ r < 1 := by
    cases h2 : e.2 with
    | none => exact ⟨1 / 2, rfl, by norm_num, by norm_num⟩
    | some w => exact ⟨w i j, rfl, hu e he w h2 i j⟩
  obtain ⟨r, hr, r0, r1⟩ := hr
  have hlt : ((e.1 j i : ℕ) : K) + 1 ≤ n := by exact_mod_cast (e.1 j i).2
  have h0 : (0 : K) ≤ ((e.1 j i : ℕ) : K) := Nat.cast_nonneg _
  have a0 : 0 ≤ lhsUnit e.1 e.2 i j := by rw [hr]; apply div_nonneg _ hn.le; linarith
  have a1 : lhsUnit e.1 e.2 i j ≤ 1 := by rw [hr, div_le_one hn]; linarith
  rw [hX]
  have b0 := mul_nonneg a0 hd.le
  have b1 := mul_le_mul_of_nonneg_right a1 hd.le
  constructor <;> linarith

/-- Two candidates for three samples of one variable in `[0, 6]`; the score is the first entry. -/
example : let swap : Fin 1 → Equiv.Perm (Fin 3) := fun _ => Equiv.swap 0 2
    let id : Fin 1 → Equiv.Perm (Fin 3) := fun _ => Equiv.refl _
    let X := samplingLhs (K := ℚ) (fun _ : Fin 1 => 0) (fun _ => 6) (some fun Y : Fin 3 → Fin 1 → ℚ => Y 0 0) (lhsUnit id none) [lhsUnit swap none]
    (X 0 0, X 1 0, X 2 0) = (5, 3, 1) := by decide +kernel

end

/-- **C57** (choice mutation). Selected entries become sampled values, all other entries are unchanged. -/
theorem C57_choice {n m : ℕ} {A : Type*} (X : Fin n → Fin m → A) (sel : Fin n → Fin m → Bool) (sampled : Fin n → Fin m → A)
    (options : Fin m → List A) (hX : ∀ i j, X i j ∈ options j) (hs : ∀ i j, sampled i j ∈ options j) (i : Fin n) (j : Fin m) :
    choiceMutation X sel sampled i j ∈ options j ∧ (sel i j = false → choiceMutation X sel sampled i j = X i j) := by
  cases h : sel i j <;> simp [choiceMutation, h, hX, hs]

example : choiceMutation (n := 1) (m := 2) (fun _ => ![1, 2]) (fun _ => ![true, false]) (fun _ => ![7, 8]) 0 = ![7, 2] := by decide

end Props
