import Verif.Lemmas.Sorting
import Mathlib.Data.Fin.VecNotation
import Mathlib.Data.List.Sort

/-! # C38 (randomised argsort), C27 (stochastic ranking) -/

set_option linter.unusedSectionVars false

namespace Props
open Model Lemmas
variable {α : Type*} [LinearOrder α]

/-- C38, method `quicksort`: for every vector and every stream of random pivots the call terminates with a
permutation of the indices along which the values ascend (descend, for `order="descending"`). -/
theorem C38_quicksort (A : ℕ → α) (n : ℕ) (pick : ℕ → ℕ → ℕ)
    (hpick : ∀ l r, l < r → l ≤ pick l r ∧ pick l r ≤ r) :
    (∃ I, randomizedArgsortQuick A n pick "ascending" = some I ∧ I.Perm (List.range n) ∧
      I.Pairwise (fun a b => A a ≤ A b)) ∧
    (∃ I, randomizedArgsortQuick A n pick "descending" = some I ∧ I.Perm (List.range n) ∧
      I.Pairwise (fun a b => A b ≤ A a)) := by
  obtain ⟨I, h1, h2, h3⟩ := quicksort_spec A n pick hpick
  refine ⟨⟨I, by simp [randomizedArgsortQuick, h1, applyOrder], h2, h3⟩,
    ⟨I.reverse, by simp [randomizedArgsortQuick, h1, applyOrder], (List.reverse_perm I).trans h2, ?_⟩⟩
  rw [List.pairwise_reverse]
  exact h3

example : (∀ l r, l < r → l ≤ (l + r) / 2 ∧ (l + r) / 2 ≤ r) ∧
    randomizedArgsortQuick (fun i => ([3, 1, 2, 1].getD i 0 : ℕ)) 4 (fun l r => (l + r) / 2) "ascending" =
      some [3, 1, 2, 0] := ⟨by intro l r h; omega, by decide⟩

/-- C38, method `numpy`: whatever the random permutation and however numpy's sort breaks ties. -/
theorem C38_numpy {k : ℕ} (argsort : (Fin k → α) → List (Fin k))
    (hsort : ∀ A, (argsort A).Perm (List.finRange k) ∧ (argsort A).Pairwise (fun a b => A a ≤ A b))
    (P : Fin k → Fin k) (hP : Function.Bijective P) (A : Fin k → α) :
    (∃ I, randomizedArgsort argsort P "ascending" A = some I ∧ I.Perm (List.finRange k) ∧
      I.Pairwise (fun a b => A a ≤ A b)) ∧
    (∃ I, randomizedArgsort argsort P "descending" A = some I ∧ I.Perm (List.finRange k) ∧
      I.Pairwise (fun a b => A b ≤ A a)) := by
  obtain ⟨h1, h2⟩ := hsort (fun i => A (P i))
  have hperm : ((argsort fun i => A (P i)).map P).Perm (List.finRange k) := by
    refine (h1.map P).trans ?_
    rw [List.perm_ext_iff_of_nodup ((List.nodup_finRange k).map hP.1) (List.nodup_finRange k)]
    intro a
    simp only [List.mem_map, List.mem_finRange, true_and, iff_true]
    exact hP.2 a
  have hs : ((argsort fun i => A (P i)).map P).Pairwise (fun a b => A a ≤ A b) := List.pairwise_map.2 h2
  exact ⟨⟨_, rfl, hperm, hs⟩, ⟨_, rfl, (List.reverse_perm _).trans hperm, by
    rw [List.pairwise_reverse]; exact hs⟩⟩

/-- The contract of the sort is met by insertion sort, for instance. -/
example (A : Fin 3 → ℕ) : ((List.finRange 3).insertionSort (fun a b => A a ≤ A b)).Perm (List.finRange 3) :=
  List.perm_insertionSort _ _
example : randomizedArgsort (fun A : Fin 3 → ℕ => (List.finRange 3).insertionSort (fun a b => A a ≤ A b))
    ![2, 0, 1] "descending" ![5, 7, 5] = some [1, 0, 2] := by decide

/-- C38. An unknown `order` is rejected. -/
theorem C38_unknown_order {k : ℕ} (argsort : (Fin k → α) → List (Fin k)) (P : Fin k → Fin k) (A : Fin k → α)
    (order : String) (h1 : order ≠ "ascending") (h2 : order ≠ "descending") :
    randomizedArgsort argsort P order A = none := by simp [randomizedArgsort, applyOrder, h1, h2]

example : randomizedArgsort (fun _ => [0, 1]) id "up" (![3, 4] : Fin 2 → ℕ) = none := by decide

section
variable {ι β : Type*} [LinearOrder β] [Zero β]

/-- C27. Whatever the random numbers, the result is a rearrangement of the given indices. -/
theorem C27_permutation (f : ι → α) (phi : ι → β) (coin : ℕ → ℕ → Bool) (I : List ι) :
    (stochasticRanking f phi coin I).Perm I := srLoop_perm _ _ _ _

/-- C27. If every comparison is by violation unless both are feasible (`pr = 0`), the result is sorted: a point
that comes earlier has smaller violation, or the same violation, and if both are feasible its objective is not
larger. (Violations are never negative.) -/
theorem C27_pr_zero (f : ι → α) (phi : ι → β) (hphi : ∀ i, 0 ≤ phi i) (coin : ℕ → ℕ → Bool)
    (hc : ∀ i j, coin i j = false) (I : List ι) :
    (stochasticRanking f phi coin I).Pairwise
      (fun a b => phi a ≤ phi b ∧ (phi a = 0 → phi b = 0 → f a ≤ f b)) := by
  have := srLoop_sorted (fun i j => srSwap f phi (coin i j))
    (fun a b => phi a ≤ phi b ∧ (phi a = 0 → phi b = 0 → f a ≤ f b)) ?_ ?_ ?_ I.length 0 I [] le_rfl
    List.Pairwise.nil (by simp)
  · rwa [List.append_nil] at this
  · intro a b
    rcases lt_trichotomy (phi a) (phi b) with h | h | h
    · exact .inl ⟨h.le, fun ha hb => by rw [ha, hb] at h; exact absurd h (lt_irrefl _)⟩
    · rcases le_total (f a) (f b) with h' | h'
      · exact .inl ⟨h.le, fun _ _ => h'⟩
      · exact .inr ⟨h.ge, fun _ _ => h'⟩
    · exact .inr ⟨h.le, fun ha hb => by rw [ha, hb] at h; exact absurd h (lt_irrefl _)⟩
  · rintro a b c ⟨h1, h2⟩ ⟨h3, h4⟩
    refine ⟨h1.trans h3, fun ha hc => ?_⟩
    have hb : phi b = 0 := le_antisymm (h3.trans hc.le) (hphi b)
    exact (h2 ha hb).trans (h4 hb hc)
  · intro i j a b
    simp only [srSwap, hc, Bool.false_eq_true, false_or]
    by_cases h : phi a = 0 ∧ phi b = 0
    · simp [h]
    · rw [if_neg h]
      simp only [decide_eq_true_eq, gt_iff_lt]
      constructor
      · intro h1 h2; exact absurd h2.1 (not_le.2 h1)
      · intro h1
        by_contra h2
        exact h1 ⟨not_lt.1 h2, fun ha hb => absurd ⟨ha, hb⟩ h⟩

example : (∀ i, 0 ≤ (fun i => [2, 0, 1, 0].getD i 0 : ℕ → ℕ) i) ∧ stochasticRanking (ι := ℕ)
    (fun i => [1, 9, 4, 3].getD i 0) (fun i => [2, 0, 1, 0].getD i 0) (fun _ _ => false) [0, 1, 2, 3] =
      [3, 1, 2, 0] := ⟨fun _ => Nat.zero_le _, by decide +kernel⟩

/-- C27. If every comparison is by objective (`pr = 1`), the result is sorted by objective. -/
theorem C27_pr_one (f : ι → α) (phi : ι → β) (coin : ℕ → ℕ → Bool) (hc : ∀ i j, coin i j = true) (I : List ι) :
    (stochasticRanking f phi coin I).Pairwise (fun a b => f a ≤ f b) := by
  have := srLoop_sorted (fun i j => srSwap f phi (coin i j)) (fun a b => f a ≤ f b) (fun a b => le_total _ _)
    (fun a b c => le_trans) ?_ I.length 0 I [] le_rfl List.Pairwise.nil (by simp)
  · rwa [List.append_nil] at this
  · intro i j a b
    simp [srSwap, hc]

example : stochasticRanking (ι := ℕ) (fun i => [1, 9, 4, 3].getD i 0) (fun i => [2, 0, 1, 0].getD i 0)
    (fun _ _ => true) [0, 1, 2, 3] = [0, 3, 2, 1] := by decide +kernel

end

end Props
