import Verif.Spec.Sorting
import Verif.Lemmas.Optimum
import Mathlib.Data.Fintype.Card
import Mathlib.Data.Rat.Defs
import Mathlib.Algebra.Order.Ring.Rat

/-! # A computable Pareto rank: it meets the contract of moocore's `pareto_rank`, so the theorems that assume the contract are not vacuous, and examples can be evaluated -/

namespace Lemmas
open Spec

variable {n m : ℕ}

/-- Decidable dominance of rational vectors. -/
def domB (a b : Fin m → ℚ) : Bool := decide (∀ i, a i ≤ b i) && decide (∃ i, a i < b i)

theorem domB_iff (a b : Fin m → ℚ) : domB a b = true ↔ Dominates a b := by
  unfold domB
  rw [Bool.and_eq_true, decide_eq_true_iff, decide_eq_true_iff]
  exact Iff.rfl

/-- The length of the longest chain of dominators, cut at `k`. -/
def chain (F : Fin n → Fin m → ℚ) : ℕ → Fin n → ℕ
  | 0, _ => 0
  | k + 1, i => (((List.finRange n).filter fun j => domB (F j) (F i)).map fun j => chain F k j + 1).foldl max 0

/-- The Pareto rank. -/
def chainRank (n : ℕ) (F : Fin n → Fin m → ℚ) : Fin n → ℕ := chain F n

theorem foldl_max_spec (l : List ℕ) (a : ℕ) : a ≤ l.foldl max a ∧ (∀ x ∈ l, x ≤ l.foldl max a) ∧ (l.foldl max a = a ∨ l.foldl max a ∈ l) := by
  induction l generalizing a with
  | nil => simp
  | cons b l ih =>
    rw [List.foldl_cons]
    obtain ⟨h1, h2, h3⟩ := ih (max a b)
    refine ⟨(le_max_left _ _).trans h1, ?_, ?_⟩
    · intro x hx
      rcases List.mem_cons.1 hx with rfl | hx
      · exact (le_max_right _ _).trans h1
      · exact h2 x hx
    · rcases h3 with h3 | h3
      · rcases max_choice a b with h | h
        · left; rw [h3, h]
        · right; rw [h3, h]; simp
      · right; simp [h3]

/-- The dominators of `i`. -/
def dominators (F : Fin n → Fin m → ℚ) (i : Fin n) : Finset (Fin n) := Finset.univ.filter fun j => domB (F j) (F i) = true

theorem dominators_card {F : Fin n → Fin m → ℚ} {i j : Fin n} (h : domB (F j) (F i) = true) : (dominators F j).card < (dominators F i).card := by
  refine Finset.card_lt_card ⟨fun x hx => ?_, fun hsub => ?_⟩
  · simp only [dominators, Finset.mem_filter, Finset.mem_univ, true_and, domB_iff] at hx h ⊢
    exact dominates_strictPO.trans _ _ _ hx h
  · have := hsub (show j ∈ dominators F i by simpa [dominators] using h)
    simp only [dominators, Finset.mem_filter, Finset.mem_univ, true_and, domB_iff] at this
    exact dominates_strictPO.irrefl _ this

theorem chain_stable (F : Fin n → Fin m → ℚ) (c : ℕ) : ∀ i, (dominators F i).card ≤ c → ∀ k, c ≤ k → chain F k i = chain F (k + 1) i := by
  induction c with
  | zero =>
    intro i hi k _
    have h0 : (List.finRange n).filter (fun j => domB (F j) (F i)) = [] := by
      rw [List.filter_eq_nil_iff]
      intro j _ hj
      have h1 : dominators F i = ∅ := Finset.card_eq_zero.1 (Nat.le_zero.1 hi)
      have : j ∈ dominators F i := by simpa [dominators] using hj
      rw [h1] at this; simp at this
    have h1 : ∀ k, chain F (k + 1) i = 0 := by intro k; rw [chain, h0]; rfl
    cases k with
    | zero => rw [h1]; rfl
    | succ k => rw [h1, h1]
  | succ c ih =>
    intro i hi k hk
    cases k with
    | zero => omega
    | succ k =>
      rw [chain, chain]
      congr 1
      refine List.map_congr_left fun j hj => ?_
      rw [ih j (by have := dominators_card (List.mem_filter.1 hj).2; omega) k (by omega)]

/-- The contract of `pareto_rank`. -/
theorem chainRank_ok (n : ℕ) (F : Fin n → Fin m → ℚ) : IsParetoRank (fun i j => Dominates (F i) (F j)) (chainRank n F) := by
  have hcard : ∀ i, (dominators F i).card ≤ n - 1 := by
    intro i
    have h1 : dominators F i ⊆ Finset.univ.erase i := by
      intro x hx
      refine Finset.mem_erase.2 ⟨?_, Finset.mem_univ _⟩
      rintro rfl
      simp only [dominators, Finset.mem_filter, Finset.mem_univ, true_and, domB_iff] at hx
      exact dominates_strictPO.irrefl _ hx
    have := Finset.card_le_card h1
    rwa [Finset.card_erase_of_mem (Finset.mem_univ _), Finset.card_univ, Fintype.card_fin] at this
  have hstep : ∀ i, chainRank n F i = (((List.finRange n).filter fun j => domB (F j) (F i)).map fun j => chainRank n F j + 1).foldl max 0 := by
    intro i
    have := chain_stable F (n - 1) i (hcard i) n (by omega)
    rw [chainRank, this, chain]
  constructor
  · intro i j hd
    rw [hstep i]
    have := (foldl_max_spec (((List.finRange n).filter fun j => domB (F j) (F i)).map fun j => chainRank n F j + 1) 0).2.1 (chainRank n F j + 1)
      (List.mem_map.2 ⟨j, List.mem_filter.2 ⟨List.mem_finRange j, (domB_iff _ _).2 hd⟩, rfl⟩)
    omega
  · intro i k hk
    rw [hstep i] at hk
    rcases (foldl_max_spec (((List.finRange n).filter fun j => domB (F j) (F i)).map fun j => chainRank n F j + 1) 0).2.2 with h | h
    · rw [hk] at h; omega
    · rw [hk] at h
      obtain ⟨j, hj, hjk⟩ := List.mem_map.1 h
      exact ⟨j, (domB_iff _ _).1 (List.mem_filter.1 hj).2, by omega⟩

end Lemmas
