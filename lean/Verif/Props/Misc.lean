import Verif.Model.Misc
import Mathlib.Algebra.Order.BigOperators.Ring.Finset
import Mathlib.Algebra.Order.BigOperators.Group.List
import Mathlib.Data.List.Nodup
import Mathlib.Data.Nat.Choose.Sum
import Mathlib.Data.Fin.VecNotation
import Mathlib.Tactic.Ring
import Mathlib.Tactic.Linarith
import Mathlib.Tactic.FieldSimp
import Mathlib.Tactic.NormNum

/-!
# C128: helper functions
-/

set_option linter.unusedSimpArgs false
set_option linter.unusedVariables false
set_option linter.unusedSectionVars false

namespace Props
open Model Finset

/-! ### Arrays -/

/-- C128, refuted: `swap` of two rows of a matrix. Row `a` becomes row `b`, row `b` stays, so that row `a` is lost; the result is an exchange only if the rows were equal. -/
theorem C128_swap_refuted {α : Type*} (M : List α) (a b : ℕ) (ha : a < M.length) (hb : b < M.length) :
    ∃ M', swapRows M a b = some M' ∧ M'[a]? = M[b]? ∧ M'[b]? = M[b]? ∧ (∀ c, c ≠ a → c ≠ b → M'[c]? = M[c]?) ∧ (M'[b]? = M[a]? ↔ M[a]? = M[b]?) := by
  have h : swapRows M a b = some ((M.set a M[b]).set b M[b]) := by
    unfold swapRows
    rw [List.getElem?_eq_getElem hb, Option.bind_some, if_pos ha]
    simp only
    rw [List.getElem?_set_self ha, Option.map_some]
  refine ⟨_, h, ?_, ?_, fun c hca hcb => ?_, ?_⟩
  · by_cases hab : a = b
    · subst hab; rw [List.getElem?_set_self (by simpa using ha), List.getElem?_eq_getElem]
    · rw [List.getElem?_set_ne (Ne.symm hab), List.getElem?_set_self ha, List.getElem?_eq_getElem]
  · rw [List.getElem?_set_self (by simpa using hb), List.getElem?_eq_getElem]
  · rw [List.getElem?_set_ne (Ne.symm hcb), List.getElem?_set_ne (Ne.symm hca)]
  · rw [List.getElem?_set_self (by simpa using hb), ← List.getElem?_eq_getElem hb]; exact eq_comm

example : swapRows [[1, 2], [3, 4]] 0 1 = some [[3, 4], [3, 4]] := by decide

/-- C128: the grid of two one-dimensional arrays: every pair, in the order of the first array, then of the second. -/
theorem C128_grid {α : Type*} (A b : List α) : allCombinations A (.one b) = some (A.flatMap fun x => b.map fun y => [x, y]) := by
  unfold allCombinations
  simp only
  have hl : (A.flatMap fun x => List.replicate b.length x).length = ((List.replicate A.length b).flatten).length := by
    rw [List.length_flatMap, List.length_flatten, List.map_replicate]; simp
  rw [if_pos hl]
  congr 1
  clear hl
  induction A with
  | nil => simp
  | cons x A ih =>
    rw [List.flatMap_cons, List.flatMap_cons, List.length_cons, List.replicate_succ, List.flatten_cons, List.zipWith_append (by simp), ih]
    congr 1
    clear ih
    induction b with
    | nil => rfl
    | cons y b ih => rw [List.length_cons, List.replicate_succ, List.zipWith_cons_cons, ih]; rfl

/-- C128, refuted: for the rows of a two-dimensional second array, as documented, there is an exception unless the first array has one entry. -/
theorem C128_grid_refuted {α : Type*} (A : List α) (rows : List (List α)) (hr : rows ≠ []) (hA : A.length ≠ 1) : allCombinations A (.two rows) = none := by
  unfold allCombinations
  simp only
  rw [if_neg]
  rw [List.length_flatMap, List.length_map]
  simp only [List.length_replicate, List.map_const', List.sum_replicate, smul_eq_mul]
  intro h
  have hp : 0 < rows.length := List.length_pos_iff.2 hr
  have : A.length * rows.length = 1 * rows.length := by omega
  exact hA (Nat.eq_of_mul_eq_mul_right hp this)

/-- C128: the closest other point. -/
theorem C128_closest {K : Type*} [LinearOrder K] (D : ℕ → ℕ → K) (n i : ℕ) (hi : i < n) :
    (2 ≤ n → ∃ j < n, j ≠ i ∧ closestOther D n i = (j, some (D i j)) ∧ ∀ k < n, k ≠ i → D i j ≤ D i k) ∧ (n = 1 → (closestOther D n i).2 = none) := by
  constructor
  · intro hn
    have hfold : ∀ (l : List ℕ) (a : ℕ), let b := l.foldl (fun best j => if D i j < D i best then j else best) a; b ∈ a :: l ∧ ∀ y ∈ a :: l, D i b ≤ D i y := by
      intro l
      induction l with
      | nil => intro a; simp
      | cons c l ih =>
        intro a
        simp only [List.foldl_cons]
        by_cases h : D i c < D i a
        · rw [if_pos h]
          obtain ⟨h1, h2⟩ := ih c
          refine ⟨List.mem_cons_of_mem _ h1, fun y hy => ?_⟩
          rcases List.mem_cons.1 hy with rfl | hy
          · exact (h2 c (by simp)).trans h.le
          · exact h2 y hy
        · rw [if_neg h]
          obtain ⟨h1, h2⟩ := ih a
          refine ⟨?_, fun y hy => ?_⟩
          · rcases List.mem_cons.1 h1 with h1 | h1
            · rw [h1]; simp
            · simp [h1]
          · rcases List.mem_cons.1 hy with rfl | hy
            · exact h2 y (by simp)
            · rcases List.mem_cons.1 hy with rfl | hy
              · exact (h2 a (by simp)).trans (not_lt.1 h)
              · exact h2 y (by simp [hy])
    have hmem : ∀ j, j ∈ (List.range n).filter (fun j => decide (j ≠ i)) ↔ j < n ∧ j ≠ i := by intro j; simp [List.mem_filter]
    unfold closestOther
    cases h : (List.range n).filter (fun j => decide (j ≠ i)) with
    | nil =>
      exfalso
      have h0 := (hmem (if i = 0 then 1 else 0)).2 (by split_ifs <;> omega)
      rw [h] at h0; simp at h0
    | cons a l =>
      obtain ⟨h1, h2⟩ := hfold l a
      rw [h] at hmem
      obtain ⟨h3, h4⟩ := (hmem _).1 h1
      exact ⟨_, h3, h4, rfl, fun k hk hki => h2 k ((hmem k).2 ⟨hk, hki⟩)⟩
  · rintro rfl
    have : i = 0 := by omega
    subst this
    rfl

/-- C128: conversion to integers: a nearest integer, integers stay. -/
theorem C128_integer (x : ℚ) : |(convertInt x : ℚ) - x| ≤ 1 / 2 ∧ (∀ z : ℤ, convertInt (z : ℚ) = z) ∧ (Int.fract x = 1 / 2 → 2 ∣ convertInt x) := by
  refine ⟨?_, fun z => ?_, fun h => ?_⟩
  · unfold convertInt
    split_ifs with h h2
    · have := Int.floor_add_fract x
      rw [h] at this
      rw [abs_le]; constructor <;> linarith
    · have := Int.floor_add_fract x
      rw [h] at this
      push_cast
      rw [abs_le]; constructor <;> linarith
    · rw [abs_sub_comm]; exact abs_sub_round x
  · unfold convertInt
    rw [Int.fract_intCast, if_neg (by norm_num), round_intCast]
  · unfold convertInt
    rw [if_pos h]
    split_ifs with h2
    · exact h2
    · omega

/-- C128, refuted: conversion to booleans turns zero into `True` and one into `False`, and ignores where the range starts. -/
theorem C128_boolean_refuted : convertBool 0 1 0 = true ∧ convertBool 0 1 1 = false ∧ ∀ x, 10 ≤ x → convertBool 10 11 x = false := by
  refine ⟨by decide +kernel, by decide +kernel, fun x hx => ?_⟩
  unfold convertBool
  rw [decide_eq_false_iff_not, not_lt]
  linarith

/-- C128, refuted: `evaluate_if_not_done_yet` never evaluates anything, whichever individuals have no objectives. -/
theorem C128_evaluate_refuted {ι : Type*} (eval : ι → ι) (missing : ι → Bool) (pop : List ι) : evaluateIfNotDone eval missing pop = pop := by
  unfold evaluateIfNotDone
  simp

/-! ### Normalised distances -/

section Dist
variable {K : Type*} [Field K] [LinearOrder K] [IsStrictOrderedRing K] {n : ℕ}

theorem normDiff_some (xl xu a b : Fin n → K) (h : ∀ k, xl k < xu k) : normDiff xl xu a b = some fun k => (a k - b k) / (xu k - xl k) := by
  unfold normDiff
  rw [if_pos fun k => (sub_pos.2 (h k)).ne']

/-- The largest of the entries. -/
theorem normCheb_spec (xl xu a b : Fin n → K) (h : ∀ k, xl k < xu k) (hn : 0 < n) :
    ∃ c, normCheb xl xu a b = some c ∧ (∃ k, c = |(a k - b k) / (xu k - xl k)|) ∧ ∀ k, |(a k - b k) / (xu k - xl k)| ≤ c := by
  unfold normCheb
  rw [normDiff_some xl xu a b h, Option.bind_some]
  have hne : ((List.finRange n).map fun k => |(a k - b k) / (xu k - xl k)|) ≠ [] := by
    simp only [ne_eq, List.map_eq_nil_iff]
    intro hc
    have := congrArg List.length hc
    simp at this; omega
  obtain ⟨c, hc⟩ := Option.isSome_iff_exists.1 (List.isSome_max?_of_ne_nil hne)
  refine ⟨c, hc, ?_, fun k => ?_⟩
  · have := List.max?_mem hc
    obtain ⟨k, -, hk⟩ := List.mem_map.1 this
    exact ⟨k, hk.symm⟩
  · exact (List.max?_le_iff hc).1 le_rfl _ (List.mem_map_of_mem (List.mem_finRange k))

/-- C128: the normalised distances of points (with a range of positive width in every variable) are defined, symmetric, and zero exactly for equal points; the largest difference is
at most the euclidean distance, and that is at most the sum of the differences; within the bounds every normalised difference is at most one. -/
theorem C128_distances (xl xu a b : Fin n → K) (h : ∀ k, xl k < xu k) (hn : 0 < n) :
    ∃ c e s, normCheb xl xu a b = some c ∧ normEuclSq xl xu a b = some e ∧ normManh xl xu a b = some s ∧
      normCheb xl xu b a = some c ∧ normEuclSq xl xu b a = some e ∧ normManh xl xu b a = some s ∧
      0 ≤ c ∧ c ^ 2 ≤ e ∧ 0 ≤ s ∧ e ≤ s ^ 2 ∧ (a = b → s = 0) ∧ (c = 0 → a = b) ∧
      ((∀ k, xl k ≤ a k ∧ a k ≤ xu k) → (∀ k, xl k ≤ b k ∧ b k ≤ xu k) → c ≤ 1 ∧ e ≤ n ∧ s ≤ n) := by
  obtain ⟨c, h1, ⟨k0, hk0⟩, h2⟩ := normCheb_spec xl xu a b h hn
  obtain ⟨c', g1, ⟨k1, hk1⟩, g2⟩ := normCheb_spec xl xu b a h hn
  set d : Fin n → K := fun k => (a k - b k) / (xu k - xl k) with hd
  have hsymm : ∀ k, |(b k - a k) / (xu k - xl k)| = |d k| := by
    intro k; rw [hd]; simp only; rw [← abs_neg]; congr 1; rw [← neg_div, neg_sub]
  have hcc : c' = c := by
    refine le_antisymm ?_ ?_
    · rw [hk1, hsymm]; exact h2 k1
    · rw [hk0]; have := g2 k0; rw [hsymm] at this; exact this
  have hc0 : 0 ≤ c := by rw [hk0]; exact abs_nonneg _
  have hzero : c = 0 → a = b := by
    intro hz
    funext k
    have := h2 k
    rw [hz] at this
    have h3 : (a k - b k) / (xu k - xl k) = 0 := abs_eq_zero.1 (le_antisymm this (abs_nonneg _))
    rcases div_eq_zero_iff.1 h3 with h4 | h4
    · exact sub_eq_zero.1 h4
    · exact absurd h4 (sub_pos.2 (h k)).ne'
  refine ⟨c, ∑ k, d k ^ 2, ∑ k, |d k|, h1, by unfold normEuclSq; rw [normDiff_some xl xu a b h]; rfl, by unfold normManh; rw [normDiff_some xl xu a b h]; rfl,
    by rw [g1, hcc], ?_, ?_, hc0, ?_, Finset.sum_nonneg fun k _ => abs_nonneg _, ?_, ?_, hzero, ?_⟩
  · unfold normEuclSq
    rw [normDiff_some xl xu b a h, Option.map_some, Option.some.injEq]
    exact Finset.sum_congr rfl fun k _ => by rw [← sq_abs, hsymm, sq_abs]
  · unfold normManh
    rw [normDiff_some xl xu b a h, Option.map_some, Option.some.injEq]
    exact Finset.sum_congr rfl fun k _ => hsymm k
  · rw [hk0, sq_abs]
    exact Finset.single_le_sum (f := fun k => d k ^ 2) (fun k _ => sq_nonneg _) (Finset.mem_univ k0)
  · have := Finset.sum_sq_le_sq_sum_of_nonneg (s := Finset.univ) (f := fun k => |d k|) fun k _ => abs_nonneg _
    simpa [sq_abs] using this
  · intro hab
    refine Finset.sum_eq_zero fun k _ => ?_
    rw [hd]; simp [hab]
  · intro ha hb
    have hle : ∀ k, |d k| ≤ 1 := by
      intro k
      have hw := sub_pos.2 (h k)
      rw [hd]; simp only
      rw [abs_div, abs_of_pos hw, div_le_one hw, abs_le]
      constructor <;> linarith [(ha k).1, (ha k).2, (hb k).1, (hb k).2]
    refine ⟨by rw [hk0]; exact hle k0, ?_, ?_⟩
    · refine (Finset.sum_le_card_nsmul Finset.univ (fun k => d k ^ 2) 1 fun k _ => ?_).trans (by simp)
      rw [← sq_abs]
      exact pow_le_one₀ (abs_nonneg _) (hle k)
    · exact (Finset.sum_le_card_nsmul Finset.univ (fun k => |d k|) 1 fun k _ => hle k).trans (by simp)

example : normCheb (K := ℚ) (n := 2) ![0, 0] ![2, 4] ![0, 1] ![2, 4] = some 1 ∧ normManh (K := ℚ) (n := 2) ![0, 0] ![2, 4] ![0, 1] ![2, 4] = some (7 / 4) := by decide +kernel

/-- C128, refuted for a variable whose bounds are equal: a division by zero (NaN), also for equal points. The swarm's and the niching algorithm's distances are these. -/
theorem C128_fixed_refuted (xl xu a b : Fin n → K) (k : Fin n) (h : xl k = xu k) : normCheb xl xu a b = none ∧ normEuclSq xl xu a b = none ∧ normManh xl xu a b = none := by
  have : normDiff xl xu a b = none := by
    unfold normDiff
    rw [if_neg]
    intro hc
    exact hc k (by rw [h, sub_self])
  unfold normCheb normEuclSq normManh
  rw [this]
  exact ⟨rfl, rfl, rfl⟩

end Dist

/-! ### Lists -/

/-- C128: the elements of the first list that are in the second, in their order and as often as they occur. -/
theorem C128_intersect {α : Type*} [DecidableEq α] (a b : List α) : (intersectList a b).Sublist a ∧ ∀ x, (intersectList a b).count x = if x ∈ b then a.count x else 0 := by
  refine ⟨List.filter_sublist, fun x => ?_⟩
  unfold intersectList
  by_cases h : x ∈ b
  · rw [List.count_filter (by simpa using h), if_pos h]
  · rw [if_neg h, List.count_eq_zero]; simp [h]

theorem combinations_mem {α : Type*} (k : ℕ) (l s : List α) : s ∈ combinations k l ↔ s.Sublist l ∧ s.length = k := by
  induction l generalizing k s with
  | nil =>
    cases k with
    | zero => simp [combinations]
    | succ k =>
      simp only [combinations, List.not_mem_nil, false_iff, not_and]
      intro h; rw [List.sublist_nil.1 h]; simp
  | cons x l ih =>
    cases k with
    | zero =>
      simp only [combinations, List.mem_singleton]
      constructor
      · rintro rfl; simp
      · rintro ⟨-, h⟩; exact List.length_eq_zero_iff.1 h
    | succ k =>
      rw [combinations, List.mem_append, List.mem_map, ih]
      constructor
      · rintro (⟨t, ht, rfl⟩ | ⟨h1, h2⟩)
        · obtain ⟨h1, h2⟩ := (ih k t).1 ht
          exact ⟨h1.cons_cons x, by simp [h2]⟩
        · exact ⟨h1.cons x, h2⟩
      · rintro ⟨h1, h2⟩
        rcases List.sublist_cons_iff.1 h1 with h | ⟨r, rfl, hr⟩
        · exact Or.inr ⟨h, h2⟩
        · exact Or.inl ⟨r, (ih k r).2 ⟨hr, by simpa using h2⟩, rfl⟩

theorem combinations_length {α : Type*} (k : ℕ) (l : List α) : (combinations k l).length = l.length.choose k := by
  induction l generalizing k with
  | nil => cases k <;> simp [combinations]
  | cons x l ih =>
    cases k with
    | zero => simp [combinations]
    | succ k => rw [combinations, List.length_append, List.length_map, ih, ih, List.length_cons, Nat.choose_succ_succ]

theorem combinations_nodup {α : Type*} (k : ℕ) (l : List α) (h : l.Nodup) : (combinations k l).Nodup := by
  induction l generalizing k with
  | nil => cases k <;> simp [combinations]
  | cons x l ih =>
    rw [List.nodup_cons] at h
    cases k with
    | zero => simp [combinations]
    | succ k =>
      rw [combinations, List.nodup_append]
      refine ⟨(ih k h.2).map fun a b hab => by simpa using hab, ih (k + 1) h.2, ?_⟩
      rintro a ha b hb rfl
      obtain ⟨t, -, rfl⟩ := List.mem_map.1 ha
      exact h.1 (((combinations_mem _ _ _).1 hb).1.subset (by simp))

/-- C128: every subset of a list (as a sublist) exactly once, by size. -/
theorem C128_powerset {α : Type*} (l : List α) :
    (∀ s, s ∈ powersetList l ↔ s.Sublist l) ∧ (powersetList l).length = 2 ^ l.length ∧ (l.Nodup → (powersetList l).Nodup) ∧
    (powersetList l).Pairwise fun s t => s.length ≤ t.length := by
  refine ⟨fun s => ?_, ?_, fun h => ?_, ?_⟩
  · unfold powersetList
    rw [List.mem_flatMap]
    constructor
    · rintro ⟨k, -, hs⟩; exact ((combinations_mem _ _ _).1 hs).1
    · intro h
      exact ⟨s.length, List.mem_range.2 (by have := h.length_le; omega), (combinations_mem _ _ _).2 ⟨h, rfl⟩⟩
  · unfold powersetList
    rw [List.length_flatMap]
    simp only [combinations_length]
    rw [← Nat.sum_range_choose]
    have key : ∀ (f : ℕ → ℕ) (n : ℕ), ((List.range n).map f).sum = ∑ k ∈ Finset.range n, f k := by
      intro f n
      induction n with
      | zero => rfl
      | succ n ih => rw [List.range_succ, List.map_append, List.sum_append, ih, Finset.sum_range_succ]; simp
    exact key _ _
  · unfold powersetList
    rw [List.nodup_flatMap]
    refine ⟨fun k _ => combinations_nodup k l h, ?_⟩
    refine (List.nodup_range (n := l.length + 1)).imp ?_
    intro a b hab s hs ht
    exact hab (((combinations_mem _ _ _).1 hs).2.symm.trans ((combinations_mem _ _ _).1 ht).2)
  · unfold powersetList
    rw [List.pairwise_flatMap]
    constructor
    · intro k _
      refine List.Pairwise.imp_of_mem (R := fun _ _ => True) ?_ (List.pairwise_of_forall fun _ _ => trivial)
      intro s t hs ht _
      rw [((combinations_mem _ _ _).1 hs).2, ((combinations_mem _ _ _).1 ht).2]
    · refine (List.pairwise_lt_range (n := l.length + 1)).imp ?_
      intro a b hab s hs t ht
      rw [((combinations_mem _ _ _).1 hs).2, ((combinations_mem _ _ _).1 ht).2]
      exact hab.le

/-- C128: the positions of the extreme points of the WFG problems are all vectors of zeros and ones, each once. -/
theorem C128_wfg_corners (k : ℕ) : (wfgCorners k).Nodup ∧ (wfgCorners k).length = 2 ^ k ∧ ∀ f : Fin k → ℕ, f ∈ wfgCorners k ↔ ∀ j, f j = 0 ∨ f j = 1 := by
  obtain ⟨h1, h2, h3, -⟩ := C128_powerset (List.finRange k)
  refine ⟨?_, by unfold wfgCorners; rw [List.length_map, h2, List.length_finRange], fun f => ?_⟩
  · unfold wfgCorners
    refine List.Nodup.map_on ?_ (h3 (List.nodup_finRange k))
    intro s hs t ht hst
    have hmem : ∀ j, j ∈ s ↔ j ∈ t := by
      intro j
      have := congrFun hst j
      by_cases a : j ∈ s <;> by_cases b : j ∈ t <;> simp_all
    have hs' := (h1 s).1 hs
    have ht' := (h1 t).1 ht
    have hp : s.Perm t := (List.perm_ext_iff_of_nodup (hs'.nodup (List.nodup_finRange k)) (ht'.nodup (List.nodup_finRange k))).2 hmem
    have hsort := (List.pairwise_lt_finRange k)
    exact hp.eq_of_pairwise (le := (· < ·)) (fun a b _ _ hab hba => absurd hba (lt_asymm hab)) (hsort.sublist hs') (hsort.sublist ht')
  · unfold wfgCorners
    rw [List.mem_map]
    constructor
    · rintro ⟨s, -, rfl⟩ j
      by_cases h : j ∈ s <;> simp [h]
    · intro h
      refine ⟨(List.finRange k).filter fun j => decide (f j = 0), (h1 _).2 List.filter_sublist, ?_⟩
      funext j
      rcases h j with h | h <;> simp [h]

example : powersetList [1, 2, 3] = [[], [1], [2], [3], [1, 2], [1, 3], [2, 3], [1, 2, 3]] := by decide

/-- C128: times: hours, minutes and seconds; a time of day is given by one number. -/
theorem C128_time (h m s : ℕ) : timeToInt [s] = some s ∧ timeToInt [m, s] = some (60 * m + s) ∧ timeToInt [h, m, s] = some (3600 * h + 60 * m + s) ∧
    ∀ h' m' s', m < 60 → s < 60 → m' < 60 → s' < 60 → timeToInt [h, m, s] = timeToInt [h', m', s'] → h = h' ∧ m = m' ∧ s = s' := by
  refine ⟨rfl, ?_, ?_, fun h' m' s' h1 h2 h3 h4 he => ?_⟩
  · show some (s + 60 * m) = _; rw [add_comm]
  · show some (s + 60 * m + 3600 * h) = _; congr 1; omega
  · have : s + 60 * m + 3600 * h = s' + 60 * m' + 3600 * h' := by simpa [timeToInt] using he
    omega

/-- C128, refuted for more than three fields: days are accepted and ignored. -/
theorem C128_days_refuted (d h m s : ℕ) : timeToInt [d, h, m, s] = timeToInt [h, m, s] := rfl

/-! ### Dictionaries -/

section Dict
variable {κ ν : Type*} [DecidableEq κ]

theorem mapGet_mapSet (d : List (κ × ν)) (k k' : κ) (v : ν) : mapGet (mapSet d k v) k' = if k = k' then some v else mapGet d k' := by
  induction d with
  | nil => simp [mapSet, mapGet]
  | cons e d ih =>
    obtain ⟨a, w⟩ := e
    by_cases h : a = k
    · subst h
      rw [mapSet, if_pos rfl]
      by_cases h2 : a = k'
      · simp [mapGet, h2]
      · simp [mapGet, h2]
    · rw [mapSet, if_neg h, mapGet, ih]
      by_cases h2 : a = k'
      · subst h2; rw [if_pos rfl, if_neg (Ne.symm h), mapGet, if_pos rfl]
      · rw [if_neg h2, mapGet, if_neg h2]

theorem mapSet_keys (d : List (κ × ν)) (k : κ) (v : ν) (h : (d.map (·.1)).Nodup) : ((mapSet d k v).map (·.1)).Nodup ∧ ∀ x, x ∈ (mapSet d k v).map (·.1) ↔ x ∈ d.map (·.1) ∨ x = k := by
  induction d with
  | nil => simp [mapSet]
  | cons e d ih =>
    obtain ⟨a, w⟩ := e
    rw [List.map_cons, List.nodup_cons] at h
    obtain ⟨i1, i2⟩ := ih h.2
    by_cases hk : a = k
    · subst hk
      rw [mapSet, if_pos rfl]
      refine ⟨by rw [List.map_cons, List.nodup_cons]; exact h, fun x => ?_⟩
      simp only [List.map_cons, List.mem_cons]
      tauto
    · rw [mapSet, if_neg hk]
      refine ⟨?_, fun x => ?_⟩
      · rw [List.map_cons, List.nodup_cons]
        refine ⟨fun hc => ?_, i1⟩
        rcases (i2 a).1 hc with hc | hc
        · exact h.1 hc
        · exact hk hc
      · simp only [List.map_cons, List.mem_cons, i2]
        tauto

theorem mapGet_mem (d : List (κ × ν)) (k : κ) : (mapGet d k).isSome = true ↔ k ∈ d.map (·.1) := by
  induction d with
  | nil => simp [mapGet]
  | cons e d ih =>
    obtain ⟨a, w⟩ := e
    by_cases h : a = k
    · simp [mapGet, h]
    · rw [mapGet, if_neg h, ih]; simp [Ne.symm h]

/-- C128: defaults: what was given stays (unless it is to be overwritten), a default is used for what was not given, nothing else is added. -/
theorem C128_defaults (kwargs defaults : List (κ × ν)) (hd : (defaults.map (·.1)).Nodup) (overwrite : Bool) (get : ν → ν) (k : κ) :
    mapGet (setDefaults kwargs defaults overwrite get) k =
      match mapGet kwargs k, mapGet defaults k with
      | none, some v => some (get v)
      | some w, some v => if overwrite then some (get v) else some w
      | w, none => w := by
  unfold setDefaults
  induction defaults generalizing kwargs with
  | nil => cases h : mapGet kwargs k <;> simp [mapGet, h]
  | cons e l ih =>
    obtain ⟨a, v⟩ := e
    rw [List.map_cons, List.nodup_cons] at hd
    rw [List.foldl_cons, ih _ hd.2]
    have hnone : a = k → mapGet l k = none := by
      rintro rfl
      by_contra hc
      exact hd.1 ((mapGet_mem l a).1 (Option.isSome_iff_ne_none.2 hc))
    by_cases hak : a = k
    · subst hak
      rw [hnone rfl]
      simp only [mapGet, if_true]
      cases hg : mapGet kwargs a with
      | none => simp [hg, mapGet_mapSet]
      | some w => cases overwrite <;> simp [hg, mapGet_mapSet]
    · simp only [mapGet, hak, if_false]
      have : mapGet (if overwrite || (mapGet kwargs a).isNone then mapSet kwargs a (get v) else kwargs) k = mapGet kwargs k := by
        split_ifs
        · rw [mapGet_mapSet, if_neg hak]
        · rfl
      rw [this]

example : setDefaults [(1, 10)] [(1, 5), (2, 6)] false id = [(1, 10), (2, 6)] ∧ setDefaults [(1, 10)] [(1, 5), (2, 6)] true id = [(1, 5), (2, 6)] := by decide

/-- The state of the loop of `where_is_what` after the entries before `s`. -/
theorem where_loop (x : List κ) (s : ℕ) (H : List (κ × List ℕ)) (hH : (H.map (·.1)).Nodup) :
    let R := (x.zipIdx s).foldl (fun H e =>
      let H' := if (mapGet H e.1).isNone then mapSet H e.1 [] else H
      mapSet H' e.1 (((mapGet H' e.1).getD []) ++ [e.2])) H
    (R.map (·.1)).Nodup ∧ (∀ k, k ∈ R.map (·.1) ↔ k ∈ H.map (·.1) ∨ k ∈ x) ∧
      ∀ k, mapGet R k = if k ∈ x then some ((mapGet H k).getD [] ++ ((x.zipIdx s).filter fun e => decide (e.1 = k)).map (·.2)) else mapGet H k := by
  induction x generalizing s H with
  | nil => simp [hH]
  | cons a x ih =>
    simp only [List.zipIdx_cons, List.foldl_cons]
    set H' := if (mapGet H a).isNone then mapSet H a [] else H with hH'
    have hn' : (H'.map (·.1)).Nodup := by
      rw [hH']; split_ifs
      · exact (mapSet_keys H a [] hH).1
      · exact hH
    have hg' : ∀ k, (mapGet H' k).getD [] = (mapGet H k).getD [] := by
      intro k
      rw [hH']
      split_ifs with h
      · rw [mapGet_mapSet]
        split_ifs with h2
        · subst h2; rw [Option.isNone_iff_eq_none.1 h]; rfl
        · rfl
      · rfl
    have hk' : ∀ k, k ≠ a → mapGet H' k = mapGet H k := by
      intro k hk
      rw [hH']
      split_ifs with h
      · rw [mapGet_mapSet, if_neg (Ne.symm hk)]
      · rfl
    have hmem' : ∀ k, k ∈ H'.map (·.1) ∨ k = a ↔ k ∈ H.map (·.1) ∨ k = a := by
      intro k
      rw [hH']
      split_ifs with h
      · rw [(mapSet_keys H a [] hH).2]; tauto
      · rfl
    obtain ⟨n1, n2⟩ := mapSet_keys H' a ((mapGet H' a).getD [] ++ [s]) hn'
    obtain ⟨i1, i2, i3⟩ := ih (s + 1) (mapSet H' a ((mapGet H' a).getD [] ++ [s])) n1
    refine ⟨i1, fun k => ?_, fun k => ?_⟩
    · rw [i2, n2, hmem']
      simp only [List.mem_cons]; tauto
    · rw [i3, mapGet_mapSet]
      by_cases hka : k = a
      · subst hka
        simp only [if_true, List.mem_cons, true_or, Option.getD_some, hg', decide_true, List.filter_cons_of_pos, List.map_cons]
        split_ifs with hx
        · simp
        · have : (x.zipIdx (s + 1)).filter (fun e => decide (e.1 = k)) = [] := by
            rw [List.filter_eq_nil_iff]
            intro e he hc
            simp only [decide_eq_true_eq] at hc
            exact hx (hc ▸ List.fst_mem_of_mem_zipIdx he)
          rw [this]; simp
      · rw [if_neg (Ne.symm hka), hk' k hka]
        simp only [List.mem_cons, hka, false_or]
        rw [List.filter_cons_of_neg (by simpa using Ne.symm hka)]

/-- C128: `where_is_what`: the keys are the values that occur, each once; the entry of a value lists its positions, in increasing order. -/
theorem C128_where (x : List κ) :
    ((whereIsWhat x).map (·.1)).Nodup ∧ (∀ k, k ∈ (whereIsWhat x).map (·.1) ↔ k ∈ x) ∧
    ∀ k ∈ x, ∃ I, mapGet (whereIsWhat x) k = some I ∧ I.Pairwise (· < ·) ∧ ∀ i, i ∈ I ↔ x[i]? = some k := by
  obtain ⟨h1, h2, h3⟩ := where_loop x 0 [] (by simp)
  refine ⟨h1, fun k => (h2 k).trans (by simp), fun k hk => ?_⟩
  refine ⟨((x.zipIdx 0).filter fun e => decide (e.1 = k)).map (·.2), ?_, ?_, fun i => ?_⟩
  · have := h3 k
    rw [if_pos hk] at this
    refine Eq.trans this ?_
    simp [mapGet]
  · rw [List.pairwise_map]
    refine List.Pairwise.filter _ ?_
    rw [List.pairwise_iff_getElem]
    intro i j hi hj hij
    simp only [List.getElem_zipIdx]; omega
  · rw [List.mem_map]
    constructor
    · rintro ⟨e, he, rfl⟩
      rw [List.mem_filter, decide_eq_true_iff] at he
      obtain ⟨h4, h5⟩ := he
      have := List.mem_zipIdx_iff_getElem?.1 h4
      rw [this, h5]
    · intro hi
      exact ⟨(k, i), List.mem_filter.2 ⟨List.mem_zipIdx_iff_getElem?.2 hi, by simp⟩, rfl⟩

example : whereIsWhat ['a', 'b', 'a'] = [('a', [0, 2]), ('b', [1])] := by decide

/-- C128: the values of a key in a list of dictionaries, each once — not the dictionaries, as documented. -/
theorem C128_unique [DecidableEq ν] (l : List (List (κ × ν))) (k : κ) :
    ((listOfDictsUnique l k).isSome = true ↔ ∀ e ∈ l, (mapGet e k).isSome = true) ∧
    ∀ vs, listOfDictsUnique l k = some vs → vs.Nodup ∧ ∀ v, v ∈ vs ↔ ∃ e ∈ l, mapGet e k = some v := by
  have hm : ∀ (l : List (List (κ × ν))), ((l.mapM fun e => mapGet e k).isSome = true ↔ ∀ e ∈ l, (mapGet e k).isSome = true) ∧
      ∀ ws, (l.mapM fun e => mapGet e k) = some ws → ∀ v, v ∈ ws ↔ ∃ e ∈ l, mapGet e k = some v := by
    intro l
    induction l with
    | nil => simp
    | cons a l ih =>
      rw [List.mapM_cons]
      cases ha : mapGet a k with
      | none => simp [ha]
      | some w =>
        cases hl : (l.mapM fun e => mapGet e k) with
        | none =>
          rw [hl] at ih
          refine ⟨?_, by simp⟩
          simp only [Option.isSome_none, Bool.false_eq_true, false_iff] at ih
          simp [ha]
          simpa using ih.1
        | some ws =>
          rw [hl] at ih
          refine ⟨?_, ?_⟩
          · simp only [Option.isSome_some, true_iff] at ih
            simp [ha]
            simpa using ih.1
          · intro ws' hws v
            have : ws' = w :: ws := by simpa using hws.symm
            subst this
            rw [List.mem_cons, ih.2 ws rfl]
            simp only [List.mem_cons, exists_eq_or_imp, ha, Option.some.injEq]
            constructor
            · rintro (h | h)
              exacts [Or.inl h.symm, Or.inr h]
            · rintro (h | h)
              exacts [Or.inl h.symm, Or.inr h]
  have hf : ∀ (vs : List ν) (d : List (ν × Unit)), (d.map (·.1)).Nodup → ((vs.foldl (fun d v => mapSet d v ()) d).map (·.1)).Nodup ∧
      ∀ v, v ∈ (vs.foldl (fun d v => mapSet d v ()) d).map (·.1) ↔ v ∈ d.map (·.1) ∨ v ∈ vs := by
    intro vs
    induction vs with
    | nil => intro d hd; exact ⟨hd, by simp⟩
    | cons w vs ih =>
      intro d hd
      obtain ⟨h1, h2⟩ := mapSet_keys d w () hd
      obtain ⟨h3, h4⟩ := ih _ h1
      refine ⟨h3, fun v => ?_⟩
      rw [List.foldl_cons, h4, h2, List.mem_cons]; tauto
  unfold listOfDictsUnique
  refine ⟨by rw [Option.isSome_map]; exact (hm l).1, fun vs hvs => ?_⟩
  obtain ⟨ws, h1, rfl⟩ := Option.map_eq_some_iff.1 hvs
  obtain ⟨h2, h3⟩ := hf ws [] (by simp)
  exact ⟨h2, fun v => by rw [h3, ← (hm l).2 ws h1 v]; simp⟩

example : listOfDictsUnique [[("a", 1), ("b", 2)], [("a", 1)], [("a", 3)]] "a" = some [1, 3] := by decide

end Dict

theorem prefix_split_iff (pre s : List Char) : pre.isPrefixOf s = true ↔ s = pre ++ s.drop pre.length := by
  rw [List.isPrefixOf_iff_prefix]
  constructor
  · rintro ⟨t, rfl⟩; simp
  · intro h; exact ⟨_, h.symm⟩

/-- C128: parameters with a prefix: with the prefix removed, the value of `k` is that of `prefix + k`; nothing is lost or mixed up. -/
theorem C128_prefix {ν : Type*} (params : List (List Char × ν)) (hp : (params.map (·.1)).Nodup) (pre k : List Char) :
    mapGet (filterParams params pre true) k = mapGet params (pre ++ k) ∧
    mapGet (filterParams params pre false) k = if pre.isPrefixOf k then mapGet params k else none := by
  have key : ∀ (params : List (List Char × ν)) (ret : List (List Char × ν)), (params.map (·.1)).Nodup → ∀ k,
      mapGet (params.foldl (fun ret e => if pre.isPrefixOf e.1 then mapSet ret (if true then e.1.drop pre.length else e.1) e.2 else ret) ret) k =
        (mapGet params (pre ++ k)).or (mapGet ret k) ∧
      mapGet (params.foldl (fun ret e => if pre.isPrefixOf e.1 then mapSet ret (if false then e.1.drop pre.length else e.1) e.2 else ret) ret) k =
        (if pre.isPrefixOf k then mapGet params k else none).or (mapGet ret k) := by
    intro params
    induction params with
    | nil => intro ret _ k; simp [mapGet]
    | cons e l ih =>
      intro ret hn k
      obtain ⟨a, v⟩ := e
      rw [List.map_cons, List.nodup_cons] at hn
      have hnot : ∀ b, b = a → mapGet l b = none := by
        rintro b rfl
        by_contra hc
        exact hn.1 ((mapGet_mem l b).1 (Option.isSome_iff_ne_none.2 hc))
      constructor
      · rw [List.foldl_cons, (ih _ hn.2 k).1]
        by_cases hpre : pre.isPrefixOf a = true
        · have hs := (prefix_split_iff pre a).1 hpre
          simp only [hpre, if_true]
          rw [mapGet_mapSet, mapGet]
          by_cases hk : a.drop pre.length = k
          · have ha : a = pre ++ k := by rw [← hk]; exact hs
            rw [if_pos hk, if_pos ha, hnot _ ha.symm]; rfl
          · rw [if_neg hk, if_neg]
            intro h; apply hk; rw [h]; simp
        · simp only [hpre, if_false, Bool.false_eq_true]
          rw [mapGet, if_neg]
          intro h; apply hpre; rw [prefix_split_iff, h]; simp
      · rw [List.foldl_cons, (ih _ hn.2 k).2]
        by_cases hpre : pre.isPrefixOf a = true
        · simp only [hpre, if_true, if_false, Bool.false_eq_true]
          rw [mapGet_mapSet, mapGet]
          by_cases hk : a = k
          · subst hk
            simp only [hpre, if_true]
            rw [hnot _ rfl]; rfl
          · rw [if_neg hk, if_neg hk]
        · simp only [hpre, if_false, Bool.false_eq_true]
          by_cases hk : pre.isPrefixOf k = true
          · rw [if_pos hk, if_pos hk, mapGet, if_neg]
            rintro rfl; exact hpre hk
          · rw [if_neg hk, if_neg hk]
  constructor
  · have := (key params [] hp k).1
    unfold filterParams
    rw [this]; simp [mapGet]
  · have := (key params [] hp k).2
    unfold filterParams
    rw [this]; simp [mapGet]

example : filterParams [("ax".toList, 1), ("b".toList, 2), ("ay".toList, 3)] "a".toList true = [("x".toList, 1), ("y".toList, 3)] := by decide +kernel

/-! ### The cache -/

/-- C128: what a cached method returns: with the cache on, the value of the first call for ever, whatever the arguments; without using the cache, the value for the arguments. -/
theorem C128_cache {A V : Type*} (f : A → V) (a : A) (calls : List A) :
    cacheRun f none ((a, true, true) :: calls.map fun b => (b, true, true)) = f a :: calls.map (fun _ => f a) ∧
    (∀ c, cacheRun f c (calls.map fun b => (b, false, true)) = calls.map f) ∧
    (∀ c, cacheRun f c (calls.map fun b => (b, false, false)) = calls.map f) ∧ cacheRun f none (calls.map fun b => (b, true, false)) = calls.map f := by
  have h1 : ∀ v, cacheRun f (some v) (calls.map fun b => (b, true, true)) = calls.map fun _ => v := by
    intro v
    induction calls with
    | nil => rfl
    | cons b l ih => rw [List.map_cons, cacheRun, List.map_cons]; simp only [cacheCall]; rw [ih]
  have h2 : ∀ c, cacheRun f c (calls.map fun b => (b, false, true)) = calls.map f := by
    induction calls with
    | nil => intro c; rfl
    | cons b l ih => intro c; rw [List.map_cons, cacheRun, List.map_cons]; simp only [cacheCall]; rw [ih (fun v => by simpa [cacheRun, cacheCall] using h1 v)]
  have h3 : ∀ c, cacheRun f c (calls.map fun b => (b, false, false)) = calls.map f := by
    clear h1 h2
    induction calls with
    | nil => intro c; rfl
    | cons b l ih => intro c; rw [List.map_cons, cacheRun, List.map_cons]; simp only [cacheCall]; rw [ih]
  have h4 : cacheRun f none (calls.map fun b => (b, true, false)) = calls.map f := by
    clear h1 h2 h3
    induction calls with
    | nil => rfl
    | cons b l ih => rw [List.map_cons, cacheRun, List.map_cons]; simp only [cacheCall]; exact congrArg _ ih
  refine ⟨?_, h2, h3, h4⟩
  rw [cacheRun]
  simp only [cacheCall, if_true]
  rw [h1]

/-- C128, refuted: a Pareto front asked for with other arguments (reference directions, number of points) is the one asked for first. -/
theorem C128_arguments_refuted {A V : Type*} (f : A → V) (a b : A) (h : f a ≠ f b) : cacheRun f none [(a, true, true), (b, true, true)] ≠ [f a, f b] := by
  have := (C128_cache f a [b]).1
  simp only [List.map_cons, List.map_nil] at this
  rw [this]
  simp [h]

end Props
