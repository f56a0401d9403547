import Verif.Lemmas.FastNDS
import Verif.Props.Dominator

/-! # C03: fast non-dominated sorting -/

namespace Props
open Model Spec Lemmas
variable {α : Type*} [LinearOrder α] {m n : ℕ}

/-- C03, for every dominance matrix a dominator may supply (skew-symmetric, and "M i j = 1" a strict partial
order): the sorting terminates within `n` rounds of its `while` loop and returns the canonical fronts. -/
theorem C03_fast_sort_matrix (M : Fin n → Fin n → ℤ) (hM : ∀ a b, M b a = - M a b)
    (hpo : StrictPO (fun a b => M a b = 1)) (fuel : ℕ) (hf : n ≤ fuel) :
    ∃ fronts, fastFromMatrix fuel M = some fronts ∧ CanonicalFronts (fun a b => M a b = 1) fronts :=
  fastFromMatrix_spec M hM hpo fuel hf

/-- C03, for every matrix at all: only the entries above the diagonal are read (`upper`), and if in every set of points some point is dominated by
none of the set, the sorting terminates within `n` rounds and returns the canonical fronts of that relation (which need not be transitive). -/
theorem C03_any_matrix (M : Fin n → Fin n → ℤ) (hmin : HasMinimal (fun a b => upper M a b = 1)) (fuel : ℕ) (hf : n ≤ fuel) :
    ∃ fronts, fastFromMatrix fuel M = some fronts ∧ CanonicalFronts (fun a b => upper M a b = 1) fronts := by
  rw [fastFromMatrix_upper]
  exact fastFromMatrix_founded (upper M) (upper_skew M) hmin fuel hf

/-- A matrix that is not skew-symmetric: what is below the diagonal is not seen. -/
example : let M : Fin 2 → Fin 2 → ℤ := ![![0, 0], ![-1, 0]]
    fastFromMatrix 2 M = some [[0, 1]] ∧ upper M 0 1 = 0 := by decide

example : let M : Fin 3 → Fin 3 → ℤ := ![![0, 1, 1], ![-1, 0, 0], ![-1, 0, 0]]
    (∀ a b, M b a = - M a b) ∧ (∀ i, ¬ M i i = 1) ∧ (∀ i j k, M i j = 1 → M j k = 1 → M i k = 1) ∧
    fastFromMatrix 3 M = some [[0], [1, 2]] := by decide

/-- C03, for objective matrices with at least one objective: the sorting terminates and returns the
canonical Pareto fronts. -/
theorem C03_fast_sort [AddCommGroup α] (F : Fin n → Fin m → α) (hm : 0 < m) (fuel : ℕ) (hf : n ≤ fuel) :
    ∃ fronts, fastNonDominatedSort fuel F = some fronts ∧
      CanonicalFronts (fun i j => Dominates (F i) (F j)) fronts := by
  have hdom : ∀ i j, dominationMatrix F F 0 i j = 1 ↔ Dominates (F i) (F j) := by
    intro i j
    rw [C02_matrix_eq_relation, (C01_get_relation _ _ _ _).1]; rfl
  have hdom' : (fun i j => dominationMatrix F F 0 i j = 1) = fun i j => Dominates (F i) (F j) := by
    funext i j; exact propext (hdom i j)
  have hskew : ∀ a b, dominationMatrix F F 0 b a = - dominationMatrix F F 0 a b := by
    intro a b; rw [C02_matrix_eq_relation, C02_matrix_eq_relation, C01_antisymmetric]
  have hpo : StrictPO (fun i j => Dominates (F i) (F j)) :=
    ⟨fun i => dominates_strictPO.irrefl _, fun i j k => dominates_strictPO.trans _ _ _⟩
  unfold fastNonDominatedSort
  by_cases h0 : n * m = 0
  · rw [if_pos h0]
    have hn : n = 0 := by
      rcases Nat.mul_eq_zero.1 h0 with h | h
      · exact h
      · omega
    subst hn
    exact ⟨[], rfl, ⟨by simp, fun i => i.elim0, by simp, by simp⟩⟩
  · rw [if_neg h0]
    by_cases h1 : n ≤ 1
    · have hn : n = 1 := by
        rcases Nat.eq_zero_or_pos n with h | h
        · simp [h] at h0
        · omega
      subst hn
      refine ⟨[List.finRange 1], by simp, ⟨by simpa using List.nodup_finRange 1, by simp, by simp, ?_⟩⟩
      intro k hk i
      have : k = 0 := by simpa using hk
      subst this
      have hi := hpo.irrefl i
      simp only [List.getElem_cons_zero, List.mem_finRange, List.take_zero, List.flatten_nil,
        List.not_mem_nil, not_false_eq_true, true_and, true_iff]
      intro j hj
      have : j = i := Subsingleton.elim _ _
      exact hi (this ▸ hj)
    · rw [if_neg h1, ← hdom']
      exact fastFromMatrix_spec _ hskew (by rw [hdom']; exact hpo) fuel hf

example : fastNonDominatedSort 4 ![![1, 5], ![(2:ℤ), 2], ![3, 3], ![2, 6]] = some [[0, 1], [2, 3]] := by decide
example : fastNonDominatedSort 1 ![![1, (5:ℤ)]] = some [[0]] := by decide

/-- C03. The first front is exactly the set of non-dominated points. -/
theorem C03_first_front [AddCommGroup α] (F : Fin n → Fin m → α) (hm : 0 < m) (hn : 0 < n) (fuel : ℕ)
    (hf : n ≤ fuel) : ∃ first rest, fastNonDominatedSort fuel F = some (first :: rest) ∧
      ∀ i, i ∈ first ↔ ∀ j, ¬ Dominates (F j) (F i) := by
  obtain ⟨fronts, h1, h2⟩ := C03_fast_sort F hm fuel hf
  cases fronts with
  | nil => exact absurd (h2.complete ⟨0, hn⟩) (by simp)
  | cons first rest =>
    refine ⟨first, rest, h1, fun i => ?_⟩
    have := h2.level 0 (by simp) i
    rw [List.getElem_cons_zero] at this
    simpa using this

/-- C03. Rank structure: a dominator always lies in a strictly earlier front, and every member of front
`k+1` is dominated by some member of front `k`. -/
theorem C03_rank_structure [AddCommGroup α] (F : Fin n → Fin m → α) (hm : 0 < m) (fuel : ℕ) (hf : n ≤ fuel)
    (fronts : List (List (Fin n))) (h : fastNonDominatedSort fuel F = some fronts) :
    (∀ k l (hk : k < fronts.length) (hl : l < fronts.length) i j, i ∈ fronts[k] → j ∈ fronts[l] →
      Dominates (F j) (F i) → l < k) ∧
    (∀ k (hk : k + 1 < fronts.length) i, i ∈ fronts[k + 1] → ∃ j ∈ fronts[k], Dominates (F j) (F i)) := by
  obtain ⟨fronts', h1, h2⟩ := C03_fast_sort F hm fuel hf
  rw [h] at h1
  obtain rfl : fronts = fronts' := by simpa using h1
  exact ⟨fun k l hk hl i j hi hj hd => canonical_dom_lt h2 hk hl hi hj hd,
    fun k hk i hi => canonical_pred h2 hk hi⟩

example : ∃ fronts, fastNonDominatedSort 3 ![![1], ![(2:ℤ)], ![3]] = some fronts ∧ fronts.length = 3 :=
  ⟨[[0], [1], [2]], by decide, rfl⟩

/-- The specification determines the fronts: two sortings that both meet it return the same fronts up to the
order inside a front. (So all algorithms proved canonical agree with each other.) -/
theorem C03_fronts_unique {ι : Type*} {dom : ι → ι → Prop} {f g : List (List ι)} (hf : CanonicalFronts dom f)
    (hg : CanonicalFronts dom g) : f.length = g.length ∧
    ∀ k (h1 : k < f.length) (h2 : k < g.length), (f[k]).Perm g[k] := canonical_unique hf hg

end Props
