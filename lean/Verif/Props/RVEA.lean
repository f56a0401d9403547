import Verif.Model.RVEA
import Verif.Props.Optimum
import Mathlib.Analysis.InnerProductSpace.Basic
import Mathlib.Algebra.Order.Chebyshev
import Mathlib.Tactic.Linarith
import Mathlib.Tactic.Positivity
import Mathlib.Tactic.FieldSimp
import Mathlib.Tactic.NormNum
import Mathlib.Data.Fin.VecNotation

/-! # C77: RVEA's survival; C79: the result object -/

set_option linter.unusedSimpArgs false
set_option linter.unusedVariables false
set_option linter.unusedSectionVars false

namespace Props
open Model Spec Lemmas

variable {N L m : ℕ}

section Select
variable {K : Type*} [LinearOrder K]

theorem rveaSelect_mem (niche : Fin N → Option (Fin L)) (apd : Fin L → Fin N → K) (s : Fin N) :
    s ∈ rveaSelect niche apd ↔ ∃ k, npArgmin (apd k) ((List.finRange N).filter fun i => decide (niche i = some k)) = some s := by
  unfold rveaSelect
  rw [List.mem_filterMap]
  simp

/-- A survivor is in the niche whose best it is. -/
theorem rvea_argmin {niche : Fin N → Option (Fin L)} {apd : Fin L → Fin N → K} {k : Fin L} {s : Fin N}
    (h : npArgmin (apd k) ((List.finRange N).filter fun i => decide (niche i = some k)) = some s) :
    niche s = some k ∧ ∀ i, niche i = some k → apd k s ≤ apd k i := by
  obtain ⟨h1, h2⟩ := (npArgmin_spec (apd k) ((List.finRange N).filter fun i => decide (niche i = some k))).2 s h
  rw [List.mem_filter, decide_eq_true_iff] at h1
  exact ⟨h1.2, fun i hi => h2 i (by rw [List.mem_filter, decide_eq_true_iff]; exact ⟨List.mem_finRange i, hi⟩)⟩

/-- C77. One survivor per occupied niche: the survivors are different, no two of them belong to the same niche, there are at most as many as reference vectors, and for each individual there is a
survivor in its niche whose angle-penalised distance is not larger. -/
theorem C77_selection (niche : Fin N → Option (Fin L)) (apd : Fin L → Fin N → K) :
    (rveaSelect niche apd).Nodup ∧ (rveaSelect niche apd).length ≤ L ∧
    (∀ s ∈ rveaSelect niche apd, ∀ s' ∈ rveaSelect niche apd, niche s = niche s' → s = s') ∧
    (∀ s ∈ rveaSelect niche apd, ∃ k, niche s = some k ∧ ∀ i, niche i = some k → apd k s ≤ apd k i) ∧
    (∀ i k, niche i = some k → ∃ s ∈ rveaSelect niche apd, niche s = some k ∧ apd k s ≤ apd k i) := by
  refine ⟨?_, ?_, ?_, ?_, ?_⟩
  · unfold rveaSelect
    refine List.Nodup.filterMap ?_ (List.nodup_finRange L)
    intro k k' s h1 h2
    have a := (rvea_argmin h1).1
    have b := (rvea_argmin h2).1
    rw [a] at b
    exact Option.some.inj b
  · unfold rveaSelect
    exact (List.length_filterMap_le _ _).trans (by simp)
  · intro s hs s' hs' he
    obtain ⟨k, hk⟩ := (rveaSelect_mem niche apd s).1 hs
    obtain ⟨k', hk'⟩ := (rveaSelect_mem niche apd s').1 hs'
    have a := (rvea_argmin hk).1
    have b := (rvea_argmin hk').1
    rw [a, b] at he
    cases he
    rw [hk] at hk'
    exact Option.some.inj hk'
  · intro s hs
    obtain ⟨k, hk⟩ := (rveaSelect_mem niche apd s).1 hs
    exact ⟨k, rvea_argmin hk⟩
  · intro i k hi
    obtain ⟨h1, h2⟩ := npArgmin_spec (apd k) ((List.finRange N).filter fun i => decide (niche i = some k))
    have him : i ∈ (List.finRange N).filter fun i => decide (niche i = some k) := by
      rw [List.mem_filter, decide_eq_true_iff]; exact ⟨List.mem_finRange i, hi⟩
    cases hk : npArgmin (apd k) ((List.finRange N).filter fun i => decide (niche i = some k)) with
    | none => rw [h1.1 hk] at him; simp at him
    | some s =>
      obtain ⟨a, b⟩ := rvea_argmin hk
      exact ⟨s, (rveaSelect_mem niche apd s).2 ⟨k, hk⟩, a, b i hi⟩

end Select

theorem rveaNiche_some (hL : 0 < L) {K : Type*} [LinearOrder K] (angle : Fin N → Fin L → K) (i : Fin N) :
    ∃ k, rveaNiche angle i = some k ∧ ∀ l, angle i k ≤ angle i l := by
  unfold rveaNiche
  obtain ⟨h1, h2⟩ := npArgmin_spec (angle i) (List.finRange L)
  cases hk : npArgmin (angle i) (List.finRange L) with
  | none =>
    have := congrArg List.length (h1.1 hk)
    simp at this; omega
  | some k => exact ⟨k, rfl, fun l => (h2 k hk).2 l (List.mem_finRange l)⟩

/-- C77. The ideal point is the componentwise minimum of everything seen. -/
theorem C77_ideal (ideal : Option (Fin m → ℝ)) (F : List (Fin m → ℝ)) (h : ideal.isSome = true ∨ F ≠ []) :
    ∃ z, rveaIdeal ideal F = some z ∧ (∀ f ∈ F, ∀ j, z j ≤ f j) ∧ (∀ o ∈ ideal, ∀ j, z j ≤ o j) ∧
      ∀ j, (∃ f ∈ F, z j = f j) ∨ ∃ o ∈ ideal, z j = o j := by
  induction F generalizing ideal with
  | nil =>
    rcases h with h | h
    · obtain ⟨o, ho⟩ := Option.isSome_iff_exists.1 h
      subst ho
      exact ⟨o, rfl, by simp, by simp, fun j => Or.inr ⟨o, rfl, rfl⟩⟩
    · exact absurd rfl h
  | cons f F ih =>
    unfold rveaIdeal at ih ⊢
    rw [List.foldl_cons]
    obtain ⟨z, h1, h2, h3, h4⟩ := ih (some (minWith ideal f)) (Or.inl rfl)
    have h3 := h3 _ rfl
    refine ⟨z, h1, ?_, ?_, ?_⟩
    · intro g hg j
      rcases List.mem_cons.1 hg with rfl | hg
      · refine (h3 j).trans ?_
        cases ideal with
        | none => exact le_refl _
        | some o => exact min_le_left _ _
      · exact h2 g hg j
    · intro o ho j
      cases ho
      exact (h3 j).trans (min_le_right _ _)
    · intro j
      rcases h4 j with ⟨g, hg, he⟩ | ⟨o, ho, he⟩
      · exact Or.inl ⟨g, List.mem_cons_of_mem _ hg, he⟩
      · cases ho
        cases ideal with
        | none => exact Or.inl ⟨f, List.mem_cons_self, he⟩
        | some o =>
          change z j = min (f j) (o j) at he
          rcases min_choice (f j) (o j) with hc | hc
          · exact Or.inl ⟨f, List.mem_cons_self, he.trans hc⟩
          · exact Or.inr ⟨o, rfl, he.trans hc⟩

theorem rveaDist_pos (ideal f : Fin m → ℝ) : 0 < rveaDist ideal f := by
  unfold rveaDist
  simp only []
  split_ifs with h
  · positivity
  · exact lt_of_lt_of_le (by positivity) (not_lt.1 h)

/-- C77. The distance is the Euclidean distance to the ideal point (at least `1e-64`), so shifting everything changes nothing. -/
theorem C77_distance (ideal f : Fin m → ℝ) :
    rveaDist ideal f = max (1 / 10 ^ 64) (√(∑ j, (f j - ideal j) ^ 2)) := by
  unfold rveaDist
  simp only []
  split_ifs with h
  · rw [max_eq_left h.le]
  · rw [max_eq_right (not_lt.1 h)]

/-- C77. The angle is the angle between the reference vector (of length one) and the direction from the ideal point to the objectives. -/
theorem C77_angle (ideal f v : Fin m → ℝ) (hv : ∑ j, v j ^ 2 = 1) (hd : 1 / 10 ^ 64 ≤ √(∑ j, (f j - ideal j) ^ 2)) :
    (0 ≤ rveaAngle ideal f v ∧ rveaAngle ideal f v ≤ Real.pi) ∧
    Real.cos (rveaAngle ideal f v) * √(∑ j, (f j - ideal j) ^ 2) = ∑ j, (f j - ideal j) * v j := by
  have hD := C77_distance ideal f
  rw [max_eq_right hd] at hD
  have hpos : 0 < √(∑ j, (f j - ideal j) ^ 2) := lt_of_lt_of_le (by positivity) hd
  have hsum : ∑ j, (f j - ideal j) / rveaDist ideal f * v j = (∑ j, (f j - ideal j) * v j) / √(∑ j, (f j - ideal j) ^ 2) := by
    rw [hD, Finset.sum_div]
    exact Finset.sum_congr rfl fun j _ => by ring
  have hcs : |∑ j, (f j - ideal j) * v j| ≤ √(∑ j, (f j - ideal j) ^ 2) := by
    apply Real.abs_le_sqrt
    have := Finset.sum_mul_sq_le_sq_mul_sq Finset.univ (fun j => f j - ideal j) v
    rwa [hv, mul_one] at this
  obtain ⟨h1, h2⟩ := abs_le.1 hcs
  unfold rveaAngle
  refine ⟨⟨Real.arccos_nonneg _, Real.arccos_le_pi _⟩, ?_⟩
  rw [hsum, Real.cos_arccos, div_mul_cancel₀ _ hpos.ne']
  · rw [le_div_iff₀ hpos]; linarith
  · rw [div_le_one hpos]; exact h2

/-- C77. Seen from the ideal point and with non-negative reference vectors, all angles are acute. -/
theorem C77_acute (ideal f v : Fin m → ℝ) (hf : ∀ j, ideal j ≤ f j) (hv : ∀ j, 0 ≤ v j) : 0 ≤ rveaAngle ideal f v ∧ rveaAngle ideal f v ≤ Real.pi / 2 := by
  unfold rveaAngle
  refine ⟨Real.arccos_nonneg _, ?_⟩
  rw [Real.arccos_le_pi_div_two]
  exact Finset.sum_nonneg fun j _ => mul_nonneg (div_nonneg (sub_nonneg.2 (hf j)) (rveaDist_pos ideal f).le) (hv j)

/-- C77. The angle-penalised distance: with equal angles the individual closer to the ideal point is better, and the one with the smaller angle among equally distant ones. -/
theorem C77_apd_mono (t alpha gamma d d' th th' : ℝ) (ht : 0 ≤ t) (hg : 0 < gamma) (hd : 0 ≤ d) (hdd : d ≤ d') (hth : 0 ≤ th) (htt : th ≤ th') :
    apdValue m t alpha gamma d th ≤ apdValue m t alpha gamma d' th' := by
  unfold apdValue
  have hM : (0 : ℝ) ≤ if 2 < m then (m : ℝ) else 1 := by split_ifs <;> positivity
  have h1 : (if 2 < m then (m : ℝ) else 1) * t ^ alpha * (th / gamma) ≤ (if 2 < m then (m : ℝ) else 1) * t ^ alpha * (th' / gamma) :=
    mul_le_mul_of_nonneg_left (div_le_div_of_nonneg_right htt hg.le) (mul_nonneg hM (Real.rpow_nonneg ht _))
  have h0 : 0 ≤ (if 2 < m then (m : ℝ) else 1) * t ^ alpha * (th / gamma) := mul_nonneg (mul_nonneg hM (Real.rpow_nonneg ht _)) (div_nonneg hth hg.le)
  exact mul_le_mul hdd (by linarith) (by linarith) (by linarith)

/-- C77. In the first generation (`n_gen = 0`) there is no penalty: only the distance counts. In the last one (`n_gen = n_max_gen`) the full penalty `M * theta / gamma` is applied. -/
theorem C77_schedule (alpha gamma d th : ℝ) (ha : alpha ≠ 0) :
    apdValue m 0 alpha gamma d th = d ∧ apdValue m 1 alpha gamma d th = d * (1 + (if 2 < m then (m : ℝ) else 1) * (th / gamma)) := by
  unfold apdValue
  rw [Real.zero_rpow ha, Real.one_rpow]
  constructor <;> ring

/-- C77. The complete survival: for each individual `i` and its nearest reference vector `k` there is exactly one survivor belonging to `k`, with the least angle-penalised distance of all
individuals nearest to `k`; survivors are different and at most as many as there are reference vectors, and at least one. -/
theorem C77_survival (V : Fin L → Fin m → ℝ) (gamma : Fin L → ℝ) (t alpha : ℝ) (ideal : Option (Fin m → ℝ)) (F : Fin N → Fin m → ℝ) (hN : 0 < N) (hL : 0 < L) :
    ∃ S z, apdSurvival V gamma t alpha ideal F = some (S, z) ∧
      ((∀ i j, z j ≤ F i j) ∧ (∀ o ∈ ideal, ∀ j, z j ≤ o j) ∧ ∀ j, (∃ i, z j = F i j) ∨ ∃ o ∈ ideal, z j = o j) ∧
      S.Nodup ∧ 0 < S.length ∧ S.length ≤ L ∧
      ∀ i, ∃ k, (∀ l, rveaAngle z (F i) (V k) ≤ rveaAngle z (F i) (V l)) ∧
        ∃ s ∈ S, (∀ l, rveaAngle z (F s) (V k) ≤ rveaAngle z (F s) (V l)) ∧
          apdValue m t alpha (gamma k) (rveaDist z (F s)) (rveaAngle z (F s) (V k)) ≤ apdValue m t alpha (gamma k) (rveaDist z (F i)) (rveaAngle z (F i) (V k)) ∧
          ∀ s' ∈ S, rveaNiche (fun i k => rveaAngle z (F i) (V k)) s' = rveaNiche (fun i k => rveaAngle z (F i) (V k)) i → s' = s := by
  obtain ⟨z, z1, z2, z3, z4⟩ := C77_ideal ideal ((List.finRange N).map F) (Or.inr (by
    intro h
    have := congrArg List.length h
    simp at this; omega))
  unfold apdSurvival
  rw [if_neg (by omega), z1, Option.map_some]
  obtain ⟨s1, s2, s3, s4, s5⟩ := C77_selection (rveaNiche fun i k => rveaAngle z (F i) (V k)) (fun k i => apdValue m t alpha (gamma k) (rveaDist z (F i)) (rveaAngle z (F i) (V k)))
  have key : ∀ i : Fin N, ∃ k, (∀ l, rveaAngle z (F i) (V k) ≤ rveaAngle z (F i) (V l)) ∧
      ∃ s ∈ rveaSelect (rveaNiche fun i k => rveaAngle z (F i) (V k)) (fun k i => apdValue m t alpha (gamma k) (rveaDist z (F i)) (rveaAngle z (F i) (V k))),
        (∀ l, rveaAngle z (F s) (V k) ≤ rveaAngle z (F s) (V l)) ∧
        apdValue m t alpha (gamma k) (rveaDist z (F s)) (rveaAngle z (F s) (V k)) ≤ apdValue m t alpha (gamma k) (rveaDist z (F i)) (rveaAngle z (F i) (V k)) ∧
        ∀ s' ∈ rveaSelect (rveaNiche fun i k => rveaAngle z (F i) (V k)) (fun k i => apdValue m t alpha (gamma k) (rveaDist z (F i)) (rveaAngle z (F i) (V k))),
          rveaNiche (fun i k => rveaAngle z (F i) (V k)) s' = rveaNiche (fun i k => rveaAngle z (F i) (V k)) i → s' = s := by
    intro i
    obtain ⟨k, k1, k2⟩ := rveaNiche_some hL (fun i k => rveaAngle z (F i) (V k)) i
    obtain ⟨s, hs, hn, hle⟩ := s5 i k k1
    refine ⟨k, k2, s, hs, ?_, hle, ?_⟩
    · obtain ⟨k', k1', k2'⟩ := rveaNiche_some hL (fun i k => rveaAngle z (F i) (V k)) s
      rw [hn] at k1'
      cases k1'
      exact k2'
    · intro s' hs' he
      exact s3 s' hs' s hs (he.trans (k1.trans hn.symm))
  refine ⟨_, z, rfl, ⟨?_, z3, ?_⟩, s1, ?_, s2, key⟩
  · intro i j
    exact z2 (F i) (List.mem_map_of_mem (List.mem_finRange i)) j
  · intro j
    rcases z4 j with ⟨f, hf, he⟩ | h
    · obtain ⟨i, -, rfl⟩ := List.mem_map.1 hf
      exact Or.inl ⟨i, he⟩
    · exact Or.inr h
  · obtain ⟨k, -, s, hs, -⟩ := key ⟨0, hN⟩
    exact List.length_pos_of_mem hs


/-- C77. The survival raises exactly for an empty population or without reference vectors. -/
theorem C77_raises (V : Fin L → Fin m → ℝ) (gamma : Fin L → ℝ) (t alpha : ℝ) (ideal : Option (Fin m → ℝ)) (F : Fin N → Fin m → ℝ) :
    apdSurvival V gamma t alpha ideal F = none ↔ N = 0 ∨ L = 0 := by
  constructor
  · intro h
    by_contra hc
    obtain ⟨S, z, e, -⟩ := C77_survival V gamma t alpha ideal F (by omega) (by omega)
    rw [h] at e
    simp at e
  · intro h
    unfold apdSurvival
    rw [if_pos h]

/-- C77. Reference vectors are scaled to length one. -/
theorem C77_unit (r : Fin m → ℝ) (hr : r ≠ 0) : ∑ j, calcV r j ^ 2 = 1 := by
  unfold calcV
  have hpos : 0 < ∑ i, r i ^ 2 := by
    obtain ⟨i, hi⟩ := Function.ne_iff.1 hr
    have hi' : r i ≠ 0 := hi
    exact lt_of_lt_of_le (by positivity : 0 < r i ^ 2) (Finset.single_le_sum (f := fun i => r i ^ 2) (fun j _ => sq_nonneg _) (Finset.mem_univ i))
  simp only [div_pow, Real.sq_sqrt hpos.le]
  rw [← Finset.sum_div]
  exact div_self hpos.ne'

/-- C77. `gamma` of a vector is its smallest angle to another vector (at least `1e-64`), for vectors of length one. -/
theorem C77_gamma (V : Fin L → Fin m → ℝ) (hV : ∀ k, ∑ j, V k j ^ 2 = 1) (hL : 2 ≤ L) (k : Fin L) :
    ∃ g, calcGamma V k = some g ∧ 0 < g ∧ (∀ l ≠ k, g ≤ max (Real.arccos (∑ j, V k j * V l j)) (1 / 10 ^ 64)) ∧
      ∃ l ≠ k, g = max (Real.arccos (∑ j, V k j * V l j)) (1 / 10 ^ 64) := by
  set c : Fin L → ℝ := fun l => ∑ j, V k j * V l j with hc
  have hself : c k = 1 := by
    rw [hc]
    simp only [← pow_two]
    exact hV k
  have hle : ∀ l, c l ≤ 1 := by
    intro l
    have h1 := Finset.sum_mul_sq_le_sq_mul_sq Finset.univ (V k) (V l)
    rw [hV k, hV l] at h1
    have h2 : c l ^ 2 ≤ 1 := by simpa using h1
    nlinarith [sq_nonneg (c l - 1)]
  set others := (((List.finRange L).filter fun l => decide (l ≠ k)).map c).insertionSort (· ≥ ·) with ho
  have htot : Std.Total (α := ℝ) (· ≥ ·) := ⟨fun a b => le_total b a⟩
  have htr : IsTrans ℝ (· ≥ ·) := ⟨fun a b c h1 h2 => le_trans h2 h1⟩
  have hsorted : ((List.finRange L).map c).insertionSort (· ≥ ·) = 1 :: others := by
    refine List.Perm.eq_of_pairwise (le := (· ≥ ·)) (fun a b _ _ h1 h2 => le_antisymm h2 h1) (List.pairwise_insertionSort _ _) ?_ ?_
    · refine List.pairwise_cons.2 ⟨?_, List.pairwise_insertionSort _ _⟩
      intro a ha
      rw [ho, (List.perm_insertionSort _ _).mem_iff] at ha
      obtain ⟨l, -, rfl⟩ := List.mem_map.1 ha
      exact hle l
    · refine (List.perm_insertionSort _ _).trans ?_
      have h1 : (List.finRange L).Perm (k :: (List.finRange L).filter fun l => decide (l ≠ k)) := by
        rw [List.perm_ext_iff_of_nodup (List.nodup_finRange L)]
        · intro a; by_cases h : a = k <;> simp [h]
        · exact List.nodup_cons.2 ⟨by simp, (List.nodup_finRange L).filter _⟩
      refine (h1.map c).trans ?_
      rw [List.map_cons, hself]
      exact List.Perm.cons _ (List.perm_insertionSort _ _).symm
  unfold calcGamma
  rw [hsorted]
  have hne : others ≠ [] := by
    intro h
    have h2 : ((List.finRange L).filter fun l => decide (l ≠ k)) = [] := by
      have := (List.perm_insertionSort (· ≥ ·) (((List.finRange L).filter fun l => decide (l ≠ k)).map c)).length_eq
      rw [← ho, h] at this
      simpa using this.symm
    rw [List.filter_eq_nil_iff] at h2
    obtain ⟨l, hl⟩ : ∃ l : Fin L, l ≠ k := by
      by_cases h0 : k.val = 0
      · exact ⟨⟨1, by omega⟩, fun h => by rw [← h] at h0; simp at h0⟩
      · exact ⟨⟨0, by omega⟩, fun h => h0 (by rw [← h])⟩
    exact h2 l (List.mem_finRange l) (by simpa using hl)
  obtain ⟨a, rst, har⟩ := List.exists_cons_of_ne_nil hne
  have hpw : others.Pairwise (· ≥ ·) := List.pairwise_insertionSort _ _
  refine ⟨max (Real.arccos a) (1 / 10 ^ 64), by rw [har]; rfl, lt_of_lt_of_le (by positivity) (le_max_right _ _), ?_, ?_⟩
  · intro l hl
    apply max_le_max_right
    apply Real.antitone_arccos
    have : c l ∈ others := by
      rw [ho, (List.perm_insertionSort _ _).mem_iff]
      exact List.mem_map_of_mem (by rw [List.mem_filter]; exact ⟨List.mem_finRange l, by simpa using hl⟩)
    rw [har] at this hpw
    rcases List.mem_cons.1 this with h | h
    · exact h.le
    · exact (List.pairwise_cons.1 hpw).1 _ h
  · have : a ∈ others := by rw [har]; exact List.mem_cons_self
    rw [ho, (List.perm_insertionSort _ _).mem_iff] at this
    obtain ⟨l, hl, rfl⟩ := List.mem_map.1 this
    rw [List.mem_filter, decide_eq_true_iff] at hl
    exact ⟨l, hl.2, rfl⟩

/-- C77. A single reference vector has no neighbour: an exception. -/
theorem C77_single_vector (V : Fin 1 → Fin m → ℝ) (k : Fin 1) : calcGamma V k = none := by
  simp [calcGamma, List.finRange_succ]

/-- C77. Adapting the vectors keeps them of length one, as long as `nadir - ideal` is not zero where the vector is positive. -/
theorem C77_adapt (V ref : Fin L → Fin m → ℝ) (z nadir : Fin m → ℝ) (k : Fin L) (h : ∃ j, ref k j ≠ 0 ∧ nadir j ≠ z j) :
    ∑ j, rveaAdapt V ref (some (z, nadir)) k j ^ 2 = 1 ∧ rveaAdapt V ref none = V := by
  refine ⟨?_, rfl⟩
  apply C77_unit
  obtain ⟨j, h1, h2⟩ := h
  intro h0
  have h3 := congrFun h0 j
  simp only [Pi.zero_apply, mul_eq_zero] at h3
  rcases h3 with h3 | h3
  · have hr : ref k ≠ 0 := fun hh => h1 (congrFun hh j)
    have hpos : 0 < ∑ i, ref k i ^ 2 := lt_of_lt_of_le (by positivity : 0 < ref k j ^ 2) (Finset.single_le_sum (f := fun i => ref k i ^ 2) (fun j _ => sq_nonneg _) (Finset.mem_univ j))
    unfold calcV at h3
    rw [div_eq_zero_iff] at h3
    rcases h3 with h3 | h3
    · exact h1 h3
    · exact absurd h3 (Real.sqrt_pos.2 hpos).ne'
  · exact h2 (sub_eq_zero.1 h3)

/-- C77. The reported optimum: if nobody is feasible, one individual with the least violation. -/
theorem C77_optimum {ι β : Type*} [LinearOrder β] (feas : ι → Bool) (cv : ι → β) (pop : List ι) (hne : pop ≠ []) :
    ((∀ x ∈ pop, feas x = false) → ∃ x ∈ pop, rveaOpt feas cv pop = some [x] ∧ ∀ y ∈ pop, cv x ≤ cv y) ∧
    ((∃ x ∈ pop, feas x = true) → rveaOpt feas cv pop = some pop) := by
  unfold rveaOpt
  constructor
  · intro h
    rw [if_neg (by rw [List.any_eq_true]; rintro ⟨x, hx, hf⟩; rw [h x hx] at hf; cases hf)]
    obtain ⟨h1, h2⟩ := npArgmin_spec cv pop
    cases hx : npArgmin cv pop with
    | none => exact absurd (h1.1 hx) hne
    | some x => exact ⟨x, (h2 x hx).1, rfl, (h2 x hx).2⟩
  · rintro ⟨x, hx, hf⟩
    rw [if_pos (List.any_eq_true.2 ⟨x, hx, hf⟩)]

/-- C77, refuted: as the survival returns fewer individuals than asked for, `Survival.do` fills up with infeasible individuals while feasible ones are dropped; and all of them, the infeasible
ones too, are reported as the optimum. Individuals 0 and 1 are feasible and share the only niche, individual 2 is infeasible. -/
theorem C77_infeasible_refuted :
    let op : List ℕ → ℕ → List ℕ := fun sub _ => (rveaSelect (N := sub.length) (L := 1) (K := ℕ) (fun _ => some 0) (fun _ i => i.val)).map sub.get
    let feas : ℕ → Bool := fun i => decide (i < 2)
    survivalDo true op feas [0, 1, 2] id (some 2) = [0, 2] ∧ rveaOpt feas (fun i : ℕ => i) (survivalDo true op feas [0, 1, 2] id (some 2)) = some [0, 2] := by
  decide +kernel

/-- Three vectors, five individuals: the second niche is empty. -/
example : rveaSelect (K := ℤ) (fun i : Fin 5 => some ((![0, 2, 2, 0, 2] : Fin 5 → Fin 3) i)) (fun _ i => (![5, 7, 3, 4, 3] : Fin 5 → ℤ) i) = [3, 2] := by decide +kernel

example : (apdSurvival (L := 2) (N := 3) (m := 2) (fun k => calcV (![![1, 0], ![0, 1]] k)) (fun _ => 1) 0 2 none (fun i => ![![1, 2], ![2, 1], ![3, 0]] i)).isSome = true := by
  obtain ⟨S, z, h, -⟩ := C77_survival (L := 2) (N := 3) (m := 2) (fun k => calcV (![![1, 0], ![0, 1]] k)) (fun _ => 1) 0 2 none (fun i => ![![1, 2], ![2, 1], ![3, 0]] i) (by omega) (by omega)
  rw [h]; rfl

/-! ### The result -/

section Result
variable {ι α β : Type*} [LinearOrder α] [AddCommGroup α] [IsOrderedAddMonoid α] [LinearOrder β]

/-- `filter_optimum(·, least_infeasible=True)`. -/
def leastOf (pr : ∀ n, (Fin n → Fin m → α) → Fin n → ℕ) (at' : Attrs ι α β m) (l : List ι) : Option (List ι) := (filterOptimum pr at' true (some l)).getD none

/-- C79. `success` holds exactly when the algorithm's optimum contains a feasible individual; then it is reported entirely. Otherwise nothing is reported, except the least infeasible
individual if that was asked for. The message says which. -/
theorem C79_result (pr : ∀ n, (Fin n → Fin m → α) → Fin n → ℕ) (at' : Attrs ι α β m) (returnLeast : Bool) (opt : Option (List ι)) :
    let res := algResult at'.feas (leastOf pr at') returnLeast m opt
    (res.success = true ↔ ∃ x ∈ opt.getD [], at'.feas x = true) ∧
    (res.success = true → res.opt = opt ∧ res.vals = opt ∧ res.message = .done) ∧
    (opt.getD [] = [] → res.opt = none ∧ res.vals = none ∧ res.message = .empty) ∧
    (opt.getD [] ≠ [] → res.success = false → returnLeast = false → res.opt = none ∧ res.vals = none ∧ res.message = .noFeasible) ∧
    (opt.getD [] ≠ [] → res.success = false → returnLeast = true → res.message = .leastInfeasible ∧ res.vals = opt ∧
      ∃ x ∈ opt.getD [], res.opt = some [x] ∧ ∀ y ∈ opt.getD [], at'.cv x ≤ at'.cv y) ∧
    (res.oneDim = true ↔ m = 1 ∧ ∃ x, res.vals = some [x]) := by
  intro res
  have hone : res.oneDim = true ↔ m = 1 ∧ ∃ x, res.vals = some [x] := by
    change decide (m = 1 ∧ ∃ v ∈ res.vals, v.length = 1) = true ↔ _
    rw [decide_eq_true_iff]
    refine and_congr Iff.rfl ?_
    constructor
    · rintro ⟨v, hv, hl⟩
      obtain ⟨x, rfl⟩ := List.length_eq_one_iff.1 hl
      exact ⟨x, hv⟩
    · rintro ⟨x, hx⟩
      exact ⟨[x], hx, rfl⟩
  have hopt : opt.getD [] ≠ [] → some (opt.getD []) = opt := by
    cases opt with
    | none => intro h; exact absurd rfl h
    | some l => intro _; rfl
  by_cases h0 : opt.getD [] = []
  · have hres : res.success = false ∧ res.opt = none ∧ res.vals = none ∧ res.message = .empty := by
      simp only [res, algResult, h0, List.length_nil, if_true]
      simp
    refine ⟨?_, ?_, fun _ => ⟨hres.2.1, hres.2.2.1, hres.2.2.2⟩, fun h => absurd h0 h, fun h => absurd h0 h, hone⟩
    · rw [hres.1, h0]; simp
    · intro h; rw [hres.1] at h; cases h
  · have hlen : ¬ (opt.getD []).length = 0 := fun h => h0 (List.length_eq_zero_iff.1 h)
    by_cases hany : (opt.getD []).any at'.feas = true
    · have hres : res.success = true ∧ res.opt = some (opt.getD []) ∧ res.vals = some (opt.getD []) ∧ res.message = .done := by
        simp only [res, algResult, if_neg hlen, if_pos hany]
        simp
      refine ⟨⟨fun _ => List.any_eq_true.1 hany, fun _ => hres.1⟩, fun _ => ⟨hres.2.1.trans (hopt h0), hres.2.2.1.trans (hopt h0), hres.2.2.2⟩, fun h => absurd h h0, ?_, ?_, hone⟩
      · intro _ h; rw [hres.1] at h; cases h
      · intro _ h; rw [hres.1] at h; cases h
    · have hnf : ∀ x ∈ opt.getD [], at'.feas x = false := by
        intro x hx
        cases hf : at'.feas x with
        | false => rfl
        | true => exact absurd (List.any_eq_true.2 ⟨x, hx, hf⟩) hany
      have hno : ¬ ∃ x ∈ opt.getD [], at'.feas x = true := by
        rintro ⟨x, hx, hf⟩; rw [hnf x hx] at hf; cases hf
      cases returnLeast with
      | false =>
        have hres : res.success = false ∧ res.opt = none ∧ res.vals = none ∧ res.message = .noFeasible := by
          simp only [res, algResult, if_neg hlen, if_neg hany]
          simp
        refine ⟨by rw [hres.1]; simpa using hnf, fun h => (by rw [hres.1] at h; cases h), fun h => absurd h h0, fun _ _ _ => hres.2, fun _ _ h => (by cases h), hone⟩
      | true =>
        obtain ⟨-, x, x1, x2, x3⟩ := C21_no_feasible (paretoRank := pr) (at' := at') (opt.getD []) h0 hnf
        have hl : leastOf pr at' (opt.getD []) = some [x] := by unfold leastOf; rw [x1]; rfl
        have hres : res.success = false ∧ res.opt = some [x] ∧ res.vals = some (opt.getD []) ∧ res.message = .leastInfeasible := by
          simp only [res, algResult, if_neg hlen, if_neg hany, if_true, hl]
          simp
        refine ⟨by rw [hres.1]; simpa using hnf, fun h => (by rw [hres.1] at h; cases h), fun h => absurd h h0, fun _ _ h => (by cases h), fun _ _ _ => ⟨hres.2.2.2, hres.2.2.1.trans (hopt h0), x, x2, hres.2.1, x3⟩, hone⟩

/-- C79, refuted: the values `X, F, CV, G, H` are those of the reported optimum. With several infeasible individuals in the algorithm's optimum and `return_least_infeasible`, the optimum is one
individual, but the values are those of all of them. -/
theorem C79_values_refuted : ∃ (at' : Attrs ℕ ℤ ℤ 1) (opt : List ℕ), let res := algResult at'.feas (leastOf (fun _ _ _ => 0) at') true 1 (some opt)
    res.opt = some [1] ∧ res.vals = some [0, 1] ∧ res.oneDim = false := by
  refine ⟨⟨fun _ _ => 0, fun _ => false, fun i => if i = 1 then 1 else 2⟩, [0, 1], ?_⟩
  decide +kernel

/-- C79. When the algorithm's optimum has at most one infeasible individual (as the default `_set_optimum` guarantees), the values are those of the reported optimum. -/
theorem C79_values_partial (pr : ∀ n, (Fin n → Fin m → α) → Fin n → ℕ) (at' : Attrs ι α β m) (returnLeast : Bool) (opt : Option (List ι))
    (h : (∃ x ∈ opt.getD [], at'.feas x = true) ∨ (opt.getD []).length ≤ 1) :
    let res := algResult at'.feas (leastOf pr at') returnLeast m opt
    res.vals = res.opt := by
  intro res
  obtain ⟨h1, h2, h3, h4, h5, -⟩ := C79_result pr at' returnLeast opt
  by_cases h0 : opt.getD [] = []
  · obtain ⟨a, b, -⟩ := h3 h0
    exact b.trans a.symm
  · by_cases hs : res.success = true
    · obtain ⟨a, b, -⟩ := h2 hs
      exact b.trans a.symm
    · have hs' : res.success = false := by simpa using hs
      rcases h with h | h
      · exact absurd (h1.2 h) hs
      · cases returnLeast with
        | false =>
          obtain ⟨a, b, -⟩ := h4 h0 hs' rfl
          exact b.trans a.symm
        | true =>
          obtain ⟨-, b, x, hx, a, -⟩ := h5 h0 hs' rfl
          have : opt.getD [] = [x] := by
            cases hl : opt.getD [] with
            | nil => exact absurd hl h0
            | cons y l =>
              rw [hl] at h hx
              have : l = [] := by
                cases l with
                | nil => rfl
                | cons _ _ => simp at h
              subst this
              rw [List.mem_singleton] at hx
              rw [hx]
          have ho : opt = some [x] := by
            cases opt with
            | none => cases this
            | some l => exact congrArg some this
          exact b.trans (ho.trans a.symm)

end Result

end Props
