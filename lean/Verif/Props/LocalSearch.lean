import Verif.Model.LocalSearch
import Verif.Props.SingleObjective
import Verif.Props.Replacement
import Verif.Props.Repair
import Mathlib.Data.Fin.VecNotation
import Mathlib.Tactic.FinCases
import Mathlib.Tactic.Ring

/-!
# C70. Nelder–Mead
# C71. Pattern search
-/

set_option linter.unusedSimpArgs false
set_option linter.unusedVariables false
set_option linter.unusedSectionVars false

namespace Props
open Model

section
variable {K : Type*} [Field K] [LinearOrder K] [IsStrictOrderedRing K] {n : ℕ}

/-- Within the bounds that exist. -/
def InBox (xl xu : Option (Fin n → K)) (x : Fin n → K) : Prop :=
  (∀ l, xl = some l → ∀ j, l j ≤ x j) ∧ ∀ u, xu = some u → ∀ j, x j ≤ u j

/-- The violation is zero for feasible points and positive for the others (C19). -/
def Consistent {ι : Type*} (at' : Attrs ι K K 1) : Prop := ∀ x, 0 ≤ at'.cv x ∧ (at'.feas x = true ↔ at'.cv x = 0)

theorem isBetter_iff {ι : Type*} (at' : Attrs ι K K 1) (hc : Consistent at') (x y : ι) :
    isBetter at' x y 0 = true ↔ at'.cv x < at'.cv y ∨ (at'.cv x = 0 ∧ at'.cv y = 0 ∧ at'.F x 0 < at'.F y 0) := by
  rw [(C23_is_better at' x y).2 0]
  obtain ⟨hx0, hx⟩ := hc x
  obtain ⟨hy0, hy⟩ := hc y
  have hxf : at'.feas x = false ↔ 0 < at'.cv x := by
    rw [← Bool.not_eq_true, hx]
    exact ⟨fun h => lt_of_le_of_ne hx0 (Ne.symm h), fun h => ne_of_gt h⟩
  have hyf : at'.feas y = false ↔ 0 < at'.cv y := by
    rw [← Bool.not_eq_true, hy]
    exact ⟨fun h => lt_of_le_of_ne hy0 (Ne.symm h), fun h => ne_of_gt h⟩
  rw [hx, hy, hxf, hyf, add_zero, add_zero]
  constructor
  · rintro (⟨h1, h2⟩ | ⟨h1, h2, h3⟩ | ⟨h1, h2, h3⟩)
    · exact Or.inl (by rw [h1]; exact h2)
    · exact Or.inl h3
    · exact Or.inr ⟨h1, h2, h3⟩
  · rintro (h | h)
    · rcases hx0.lt_or_eq with h0 | h0
      · exact Or.inr (Or.inl ⟨h0, h0.trans h, h⟩)
      · exact Or.inl ⟨h0.symm, by rw [h0]; exact h⟩
    · exact Or.inr (Or.inr h)

theorem isBetter_soLe {ι : Type*} (at' : Attrs ι K K 1) (hc : Consistent at') (x y z : ι) (h : isBetter at' x y 0 = true) (h' : soLe at' y z) :
    isBetter at' x z 0 = true := by
  rw [isBetter_iff at' hc] at h ⊢
  have hz := (hc z).1
  rcases h with h | ⟨h1, h2, h3⟩
  · rcases h' with h' | ⟨h', -⟩
    · exact Or.inl (h.trans h')
    · exact Or.inl (h' ▸ h)
  · rcases h' with h' | ⟨h', h''⟩
    · exact Or.inl (by rw [h1, ← h2]; exact h')
    · exact Or.inr ⟨h1, by rw [← h', h2], h3.trans_le h''⟩

theorem isBetter_trans {ι : Type*} (at' : Attrs ι K K 1) (hc : Consistent at') (x y z : ι) (h : isBetter at' x y 0 = true) (h' : isBetter at' y z 0 = true) :
    isBetter at' x z 0 = true := by
  apply isBetter_soLe at' hc x y z h
  rw [isBetter_iff at' hc] at h'
  rcases h' with h' | ⟨h1, h2, h3⟩
  · exact Or.inl h'
  · exact Or.inr ⟨by rw [h1, h2], h3.le⟩

/-- Not being beaten is transitive. -/
theorem not_isBetter_trans {ι : Type*} (at' : Attrs ι K K 1) (hc : Consistent at') (x y z : ι) (h : isBetter at' x y 0 = false) (h' : isBetter at' y z 0 = false) :
    isBetter at' x z 0 = false := by
  rw [Bool.eq_false_iff, ne_eq, isBetter_iff at' hc] at h h' ⊢
  push Not at h h' ⊢
  refine ⟨h'.1.trans h.1, fun hx hz => ?_⟩
  have hy : at'.cv y = 0 := le_antisymm (by rw [← hx]; exact h.1) (hc y).1
  exact (h'.2 hy hz).trans (h.2 hx hy)

theorem isBetter_irrefl {ι : Type*} (at' : Attrs ι K K 1) (hc : Consistent at') (x : ι) : isBetter at' x x 0 = false := by
  rw [Bool.eq_false_iff, ne_eq, isBetter_iff at' hc]
  push Not
  exact ⟨le_rfl, fun _ _ => le_rfl⟩

theorem isBetter_asymm {ι : Type*} (at' : Attrs ι K K 1) (hc : Consistent at') (x y : ι) (h : isBetter at' x y 0 = true) : isBetter at' y x 0 = false := by
  by_contra h'
  rw [Bool.not_eq_false] at h'
  have := isBetter_trans at' hc x y x h h'
  rw [isBetter_irrefl at' hc] at this
  simp at this

/-! ### Bounds -/

theorem clipRow_eq (xl xu : Option (Fin n → K)) (x : Fin n → K) (h : InBox xl xu x) : clipRow xl xu x = x := by
  funext j
  unfold clipRow setToBounds
  cases xl with
  | none =>
    cases xu with
    | none => rfl
    | some u => simp [setWhere, above, not_lt.2 (h.2 u rfl j)]
  | some l =>
    cases xu with
    | none => simp [setWhere, below, not_lt.2 (h.1 l rfl j)]
    | some u => simp [setWhere, below, above, not_lt.2 (h.1 l rfl j), not_lt.2 (h.2 u rfl j)]

theorem clipRow_in (xl xu : Option (Fin n → K)) (x : Fin n → K) (hne : ∃ y, InBox xl xu y) : InBox xl xu (clipRow xl xu x) := by
  obtain ⟨y, hy⟩ := hne
  constructor
  · rintro l rfl j
    unfold clipRow setToBounds
    cases xu with
    | none =>
      simp only [setWhere, below, decide_eq_true_eq]
      split_ifs with h
      · exact le_rfl
      · exact not_lt.1 h
    | some u =>
      have hlu := (hy.1 l rfl j).trans (hy.2 u rfl j)
      simp only [setWhere, below, above, decide_eq_true_eq]
      split_ifs with h1 h2 h2
      all_goals first | exact hlu | exact le_rfl | exact not_lt.1 (by assumption)
  · rintro u rfl j
    unfold clipRow setToBounds
    cases xl with
    | none =>
      simp only [setWhere, above, decide_eq_true_eq]
      split_ifs with h
      · exact le_rfl
      · exact not_lt.1 h
    | some l =>
      simp only [setWhere, below, above, decide_eq_true_eq]
      split_ifs with h1 h2 h2
      all_goals first | exact le_rfl | exact not_lt.1 (by assumption)

/-- The values considered by `max_alpha`. -/
theorem maxAlpha_le (p d : Fin n → K) (xl xu : Option (Fin n → K)) (v : K) (h : maxAlpha p d xl xu = some v) (hn : 0 ≤ v) (b : Fin n → K)
    (hb : b ∈ xl.toList ++ xu.toList) (j : Fin n) (hd : d j ≠ 0) (h0 : 0 ≤ (b j - p j) / d j) : v ≤ (b j - p j) / d j := by
  unfold maxAlpha at h
  simp only [] at h
  split_ifs at h with h1
  set vals := ((xl.toList ++ xu.toList).flatMap fun b => ((List.finRange n).filter fun j => decide (d j ≠ 0)).map fun j => (b j - p j) / d j).filter
    (fun v => decide (0 ≤ v)) with hv
  have hmem : (b j - p j) / d j ∈ vals := by
    rw [hv, List.mem_filter]
    refine ⟨List.mem_flatMap.2 ⟨b, hb, List.mem_map.2 ⟨j, ?_, rfl⟩⟩, by simpa using h0⟩
    rw [List.mem_filter]
    exact ⟨List.mem_finRange j, by simpa using hd⟩
  cases hm : vals.min? with
  | none =>
    rw [List.min?_eq_none_iff] at hm
    rw [hm] at hmem
    simp at hmem
  | some m =>
    rw [hm] at h
    simp only [Option.some.injEq] at h
    subst h
    exact (List.min?_eq_some_iff.1 hm).2 _ hmem

theorem maxAlpha_nonneg (p d : Fin n → K) (xl xu : Option (Fin n → K)) (v : K) (h : maxAlpha p d xl xu = some v) : 0 ≤ v := by
  unfold maxAlpha at h
  simp only [] at h
  split_ifs at h with h1
  split at h
  · simp only [Option.some.injEq] at h; rw [← h]
  · rename_i m hm
    simp only [Option.some.injEq] at h
    subst h
    have := (List.min?_eq_some_iff.1 hm).1
    simpa using (List.mem_filter.1 this).2

/-- C70. The largest admissible step: moving by at most that much from a point within the bounds never leaves them (for any bounds that exist). -/
theorem C70_max_alpha (p d : Fin n → K) (xl xu : Option (Fin n → K)) (hp : InBox xl xu p) (t : K) (ht : 0 ≤ t)
    (hle : ∀ v, maxAlpha p d xl xu = some v → t ≤ v) : InBox xl xu fun j => p j + t * d j := by
  have hn0 : ∀ j : Fin n, (n == 0) = false := fun j => by
    have := j.2
    simp; omega
  constructor
  · rintro l rfl j
    have := hp.1 l rfl j
    rcases lt_trichotomy (d j) 0 with hd | hd | hd
    · have h0 : 0 ≤ (l j - p j) / d j := div_nonneg_of_nonpos (by linarith) hd.le
      cases hm : maxAlpha p d (some l) xu with
      | none =>
        unfold maxAlpha at hm
        simp only [] at hm
        split_ifs at hm with h1
        · simp [hn0 j] at h1
        · split at hm <;> simp at hm
      | some v =>
        have h1 := maxAlpha_le p d (some l) xu v hm (maxAlpha_nonneg _ _ _ _ _ hm) l (by simp) j hd.ne h0
        have h2 := (hle v hm).trans h1
        rw [le_div_iff_of_neg hd] at h2
        show l j ≤ p j + t * d j
        linarith
    · show l j ≤ p j + t * d j
      rw [hd, mul_zero, add_zero]; exact this
    · show l j ≤ p j + t * d j
      nlinarith
  · rintro u rfl j
    have := hp.2 u rfl j
    rcases lt_trichotomy (d j) 0 with hd | hd | hd
    · show p j + t * d j ≤ u j
      nlinarith
    · show p j + t * d j ≤ u j
      rw [hd, mul_zero, add_zero]; exact this
    · have h0 : 0 ≤ (u j - p j) / d j := div_nonneg (by linarith) hd.le
      cases hm : maxAlpha p d xl (some u) with
      | none =>
        unfold maxAlpha at hm
        simp only [] at hm
        split_ifs at hm with h1
        · simp [hn0 j] at h1
        · split at hm <;> simp at hm
      | some v =>
        have h1 := maxAlpha_le p d xl (some u) v hm (maxAlpha_nonneg _ _ _ _ _ hm) u (by simp) j hd.ne' h0
        have h2 := (hle v hm).trans h1
        rw [le_div_iff₀ hd] at h2
        show p j + t * d j ≤ u j
        linarith

example : maxAlpha (![1, 1] : Fin 2 → ℚ) ![2, -1] (some ![0, 0]) (some ![4, 4]) = some 1 := by decide +kernel

/-- C70. It cannot be larger: from a point strictly within the bounds, in a direction that is not zero, some variable reaches its bound. -/
theorem C70_max_alpha_reached (p d l u : Fin n → K) (hp : ∀ j, l j < p j ∧ p j < u j) (hd : ∃ j, d j ≠ 0) :
    ∃ v, maxAlpha p d (some l) (some u) = some v ∧ 0 < v ∧ ∃ j, p j + v * d j = l j ∨ p j + v * d j = u j := by
  obtain ⟨j0, hj0⟩ := hd
  have hn : (n == 0) = false := by have := j0.2; simp; omega
  unfold maxAlpha
  simp only [Option.toList_some, List.singleton_append, List.isEmpty_cons, hn, Bool.or_false, Bool.false_eq_true, if_false]
  set vals := ([l, u].flatMap fun b => ((List.finRange n).filter fun j => decide (d j ≠ 0)).map fun j => (b j - p j) / d j).filter
    (fun v => decide (0 ≤ v)) with hv
  have hmem : ∀ v, v ∈ vals ↔ ∃ b ∈ [l, u], ∃ j, d j ≠ 0 ∧ v = (b j - p j) / d j ∧ 0 ≤ v := by
    intro v
    rw [hv, List.mem_filter]
    constructor
    · rintro ⟨h1, h2⟩
      obtain ⟨b, hb, hj⟩ := List.mem_flatMap.1 h1
      obtain ⟨j, hj', rfl⟩ := List.mem_map.1 hj
      exact ⟨b, hb, j, by simpa using (List.mem_filter.1 hj').2, rfl, by simpa using h2⟩
    · rintro ⟨b, hb, j, hj, rfl, h0⟩
      refine ⟨List.mem_flatMap.2 ⟨b, hb, List.mem_map.2 ⟨j, ?_, rfl⟩⟩, by simpa using h0⟩
      rw [List.mem_filter]
      exact ⟨List.mem_finRange j, by simpa using hj⟩
  have hne : vals ≠ [] := by
    rcases lt_or_gt_of_ne hj0 with h | h
    · exact List.ne_nil_of_mem ((hmem _).2 ⟨l, by simp, j0, hj0, rfl, div_nonneg_of_nonpos (by linarith [(hp j0).1]) h.le⟩)
    · exact List.ne_nil_of_mem ((hmem _).2 ⟨u, by simp, j0, hj0, rfl, div_nonneg (by linarith [(hp j0).2]) h.le⟩)
  cases hm : vals.min? with
  | none => rw [List.min?_eq_none_iff] at hm; exact absurd hm hne
  | some v =>
    have h1 := (List.min?_eq_some_iff.1 hm).1
    obtain ⟨b, hb, j, hj, e, h0⟩ := (hmem v).1 h1
    have hcancel : p j + v * d j = b j := by rw [e, div_mul_cancel₀ _ hj]; ring
    refine ⟨v, rfl, ?_, j, ?_⟩
    · rcases h0.lt_or_eq with h | h
      · exact h
      · rw [← h, zero_mul, add_zero] at hcancel
        simp only [List.mem_cons, List.not_mem_nil, or_false] at hb
        rcases hb with rfl | rfl
        · exact absurd hcancel (ne_of_gt (hp j).1)
        · exact absurd hcancel (ne_of_lt (hp j).2)
    · simp only [List.mem_cons, List.not_mem_nil, or_false] at hb
      rcases hb with rfl | rfl
      · exact Or.inl hcancel
      · exact Or.inr hcancel

/-- C70 (negative). From a point on a bound no step is allowed at all, not even into the interior. -/
theorem C70_max_alpha_on_bound_refuted : maxAlpha (fun _ => 0 : Fin 1 → ℚ) (fun _ => 1) (some fun _ => 0) (some fun _ => 1) = some 0 := by decide +kernel

/-! ### Nelder–Mead -/

theorem centroid_in (xl xu : Option (Fin n → K)) (pop : List (Fin n → K)) (hl : pop.length = n + 1) (h : ∀ x ∈ pop, InBox xl xu x) :
    InBox xl xu (nmCentroid pop) := by
  have hn : ∀ j : Fin n, (0 : K) < n := fun j => by
    have := j.2
    exact_mod_cast (by omega : 0 < n)
  have hlen : ∀ j : Fin n, ((pop.take n).map fun x => x j).length = n := fun j => by simp [hl]
  have low : ∀ (l : List K) (a : K), (∀ x ∈ l, a ≤ x) → (l.length : K) * a ≤ l.sum := by
    intro l a
    induction l with
    | nil => simp
    | cons x l ih =>
      intro h
      have i1 := ih fun y hy => h y (by simp [hy])
      have h1 := h x (by simp)
      rw [List.sum_cons, List.length_cons]
      push_cast
      linarith
  have up : ∀ (l : List K) (a : K), (∀ x ∈ l, x ≤ a) → l.sum ≤ (l.length : K) * a := by
    intro l a
    induction l with
    | nil => simp
    | cons x l ih =>
      intro h
      have i1 := ih fun y hy => h y (by simp [hy])
      have h1 := h x (by simp)
      rw [List.sum_cons, List.length_cons]
      push_cast
      linarith
  constructor
  · rintro l hl' j
    unfold nmCentroid
    rw [le_div_iff₀ (hn j)]
    have := low ((pop.take n).map fun x => x j) (l j) (by
      intro y hy
      obtain ⟨x, hx, rfl⟩ := List.mem_map.1 hy
      exact (h x (List.mem_of_mem_take hx)).1 l hl' j)
    rw [hlen j] at this
    linarith
  · rintro u hu j
    unfold nmCentroid
    rw [div_le_iff₀ (hn j)]
    have := up ((pop.take n).map fun x => x j) (u j) (by
      intro y hy
      obtain ⟨x, hx, rfl⟩ := List.mem_map.1 hy
      exact (h x (List.mem_of_mem_take hx)).2 u hu j)
    rw [hlen j] at this
    linarith

/-- A point between two points of the box. -/
theorem between_in (xl xu : Option (Fin n → K)) (x y : Fin n → K) (hx : InBox xl xu x) (hy : InBox xl xu y) (t : K) (h0 : 0 ≤ t) (h1 : t ≤ 1) :
    InBox xl xu fun j => x j + t * (y j - x j) := by
  constructor
  · intro l hl j
    have a := hx.1 l hl j
    have b := hy.1 l hl j
    show l j ≤ x j + t * (y j - x j)
    nlinarith
  · intro u hu j
    have a := hx.2 u hu j
    have b := hy.2 u hu j
    show x j + t * (y j - x j) ≤ u j
    nlinarith

/-- Coefficients as in the literature: reflection at most 1, contraction and shrinkage between 0 and 1. -/
structure GoodParams (P : NmParams K) : Prop where
  alpha0 : 0 ≤ P.alpha
  alpha1 : P.alpha ≤ 1
  beta0 : 0 ≤ P.beta
  gamma0 : 0 ≤ P.gamma
  gamma1 : P.gamma ≤ 1
  delta0 : 0 ≤ P.delta
  delta1 : P.delta ≤ 1

/-- C70. Both sets of coefficients that come with the package are of this kind. -/
theorem C70_params (n : ℕ) (hn : 0 < n) : GoodParams (adaptiveParams n : NmParams K) ∧ GoodParams (defaultParams : NmParams K) := by
  have hn1 : (1 : K) ≤ n := by exact_mod_cast hn
  have h0 : (0 : K) < n := by linarith
  have h1 : (1 : K) / n ≤ 1 := by rw [div_le_one h0]; exact hn1
  have h1' : (0 : K) ≤ 1 / n := by positivity
  have h2 : (1 : K) / (2 * n) ≤ 1 / 2 := by
    rw [div_le_div_iff₀ (by linarith) (by norm_num)]
    linarith
  have h2' : (0 : K) ≤ 1 / (2 * n) := by positivity
  refine ⟨⟨?_, ?_, ?_, ?_, ?_, ?_, ?_⟩, ⟨?_, ?_, ?_, ?_, ?_, ?_, ?_⟩⟩ <;> simp only [adaptiveParams, defaultParams] <;>
    first | linarith | positivity

theorem cap_le (a : K) (o : Option K) : capAlpha a o ≤ a ∧ ∀ v, o = some v → capAlpha a o ≤ v := by
  cases o with
  | none => simp [capAlpha]
  | some w => exact ⟨min_le_left _ _, by rintro v h; cases h; exact min_le_right _ _⟩

theorem cap_nonneg (a : K) (ha : 0 ≤ a) (o : Option K) (h : ∀ v, o = some v → 0 ≤ v) : 0 ≤ capAlpha a o := by
  cases o with
  | none => exact ha
  | some w => exact le_min ha (h w rfl)

/-- C70. One move of the simplex: every point tried lies within the bounds, and a new vertex is better than the one it replaces. -/
theorem C70_move (at' : Attrs (Fin n → K) K K 1) (hc : Consistent at') (P : NmParams K) (hP : GoodParams P) (xl xu : Option (Fin n → K))
    (c b s w : Fin n → K) (hcb : InBox xl xu c) (hwb : InBox xl xu w) :
    (∀ x ∈ (nmMove at' P xl xu c b s w).2, InBox xl xu x) ∧ (nmMove at' P xl xu c b s w).2.length ≤ 2 ∧
    ∀ v, (nmMove at' P xl xu c b s w).1 = some v → v ∈ (nmMove at' P xl xu c b s w).2 ∧
      (soLe at' b w → soLe at' s w → isBetter at' v w 0 = true) := by
  set t := capAlpha P.alpha (maxAlpha c (fun j => c j - w j) xl xu) with ht
  have ht0 : 0 ≤ t := cap_nonneg _ hP.alpha0 _ fun v hv => maxAlpha_nonneg _ _ _ _ _ hv
  have ht1 : t ≤ 1 := (cap_le _ _).1.trans hP.alpha1
  have hrin : InBox xl xu fun j => c j + t * (c j - w j) := C70_max_alpha c (fun j => c j - w j) xl xu hcb t ht0 (cap_le _ _).2
  have hr : clipRow xl xu (fun j => c j + t * (c j - w j)) = fun j => c j + t * (c j - w j) := clipRow_eq _ _ _ hrin
  unfold nmMove
  simp only [← ht, hr]
  set r : Fin n → K := fun j => c j + t * (c j - w j) with hrdef
  have hein : InBox xl xu (clipRow xl xu fun j => c j + capAlpha P.beta (maxAlpha c (fun j => r j - c j) xl xu) * (r j - c j)) :=
    clipRow_in _ _ _ ⟨c, hcb⟩
  by_cases h1 : isBetter at' r b 0 = true
  · rw [if_pos h1]
    refine ⟨by
      intro x hx
      simp only [List.mem_cons, List.not_mem_nil, or_false] at hx
      rcases hx with rfl | rfl
      · exact hrin
      · exact hein, by simp, ?_⟩
    intro v hv
    simp only [] at hv
    split_ifs at hv with h2
    · rw [Option.some.injEq] at hv
      subst hv
      exact ⟨by simp, fun hb _ => isBetter_soLe at' hc _ _ _ (isBetter_trans at' hc _ _ _ h2 h1) hb⟩
    · rw [Option.some.injEq] at hv
      subst hv
      exact ⟨by simp, fun hb _ => isBetter_soLe at' hc _ _ _ h1 hb⟩
  · rw [if_neg h1]
    by_cases h2 : isBetter at' r s 0 = true
    · rw [if_pos h2]
      refine ⟨by
      intro x hx
      simp only [List.mem_cons, List.not_mem_nil, or_false] at hx
      rcases hx with rfl
      exact hrin, by simp, ?_⟩
      intro v hv
      simp only [Option.some.injEq] at hv
      subst hv
      exact ⟨by simp, fun _ hs => isBetter_soLe at' hc _ _ _ h2 hs⟩
    · rw [if_neg h2]
      by_cases h3 : isBetter at' r w 0 = true
      · rw [if_pos h3]
        have hoin : InBox xl xu fun j => c j + P.gamma * (r j - c j) := between_in xl xu c r hcb hrin P.gamma hP.gamma0 hP.gamma1
        refine ⟨by
      intro x hx
      simp only [List.mem_cons, List.not_mem_nil, or_false] at hx
      rcases hx with rfl | rfl
      · exact hrin
      · exact hoin, by simp, ?_⟩
        intro v hv
        simp only [] at hv
        split_ifs at hv with h4
        · rw [Option.some.injEq] at hv
          subst hv
          exact ⟨by simp, fun _ _ => isBetter_trans at' hc _ _ _ h4 h3⟩
      · rw [if_neg h3]
        have hiin : InBox xl xu fun j => c j - P.gamma * (r j - c j) := by
          have := between_in xl xu c w hcb hwb (P.gamma * t) (mul_nonneg hP.gamma0 ht0) (by nlinarith [hP.gamma0, hP.gamma1])
          convert this using 2
          rw [hrdef]
          ring
        refine ⟨by
      intro x hx
      simp only [List.mem_cons, List.not_mem_nil, or_false] at hx
      rcases hx with rfl | rfl
      · exact hrin
      · exact hiin, by simp, ?_⟩
        intro v hv
        simp only [] at hv
        split_ifs at hv with h4
        · rw [Option.some.injEq] at hv
          subst hv
          exact ⟨by simp, fun _ _ => h4⟩

/-- C70. One iteration from a sorted simplex within the bounds: as many vertices as before, sorted, all of them and all points tried within the bounds; the best
vertex never gets lost (the new best is at least as good as every old vertex), everybody is an old vertex or was evaluated now, with at most `n + 2` evaluations. -/
theorem C70_step (at' : Attrs (Fin n → K) K K 1) (hc : Consistent at') (P : NmParams K) (hP : GoodParams P) (xl xu : Option (Fin n → K))
    (hn : 0 < n) (pop : List (Fin n → K)) (hl : pop.length = n + 1) (hin : ∀ x ∈ pop, InBox xl xu x) (hs : pop.Pairwise (soLe at')) :
    ∃ pop' ev, nmStep at' P xl xu pop = some (pop', ev) ∧ pop'.length = n + 1 ∧ (∀ x ∈ pop', InBox xl xu x) ∧ pop'.Pairwise (soLe at') ∧
      (∀ x ∈ ev, InBox xl xu x) ∧ (∀ x ∈ pop', x ∈ pop ∨ x ∈ ev) ∧ 1 ≤ ev.length ∧ ev.length ≤ n + 2 ∧
      ∃ b, pop'.head? = some b ∧ ∀ x ∈ pop, soLe at' b x := by
  have h0 : pop[0]? = some (pop[0]'(by omega)) := List.getElem?_eq_getElem (by omega)
  have h1 : pop[n - 1]? = some (pop[n - 1]'(by omega)) := List.getElem?_eq_getElem (by omega)
  have h2 : pop[n]? = some (pop[n]'(by omega)) := List.getElem?_eq_getElem (by omega)
  set b := pop[0]'(by omega) with hb
  set s := pop[n - 1]'(by omega) with hsd
  set w := pop[n]'(by omega) with hw
  have hbw : soLe at' b w := List.pairwise_iff_getElem.1 hs 0 n (by omega) (by omega) hn
  have hsw : soLe at' s w := List.pairwise_iff_getElem.1 hs (n - 1) n (by omega) (by omega) (by omega)
  have hcin := centroid_in xl xu pop hl hin
  obtain ⟨m1, m2, m3⟩ := C70_move at' hc P hP xl xu (nmCentroid pop) b s w hcin (hin w (List.getElem_mem _))
  set m := nmMove at' P xl xu (nmCentroid pop) b s w with hm
  have hmpos : 1 ≤ m.2.length := by
    rw [hm]
    unfold nmMove
    simp only []
    split_ifs <;> simp
  -- the vertices before sorting
  have hpre : ∃ pre, nmStep at' P xl xu pop = some (fitnessSurvival at' (some pre.length) pre, m.2 ++ (if m.1.isNone then nmShrink P pop else [])) ∧
      pre.length = n + 1 ∧ (∀ x ∈ pre, InBox xl xu x) ∧ (∀ x ∈ pre, x ∈ pop ∨ x ∈ m.2 ++ (if m.1.isNone then nmShrink P pop else [])) ∧ b ∈ pre := by
    have hb1 : b :: pop.tail = pop := by
      rw [hb]
      rcases pop with _ | ⟨a, l⟩
      · simp at hl
      · rfl
    have hshr : nmShrink P pop = pop.tail.map fun x j => b j + P.delta * (x j - b j) := by
      rw [← hb1]
      rfl
    cases hm1 : m.1 with
    | some v =>
      refine ⟨pop.set n v, ?_, by rw [List.length_set, hl], ?_, ?_, ?_⟩
      · unfold nmStep
        simp only [h0, h1, h2, Option.bind_some, Option.map_some, ← hm, hm1]
      · intro x hx
        rcases List.mem_or_eq_of_mem_set hx with h | h
        · exact hin x h
        · rw [h]; exact m1 v (m3 v hm1).1
      · intro x hx
        rcases List.mem_or_eq_of_mem_set hx with h | h
        · exact Or.inl h
        · right; rw [h]; exact List.mem_append_left _ (m3 v hm1).1
      · rw [List.mem_iff_getElem?]
        refine ⟨0, ?_⟩
        rw [List.getElem?_set_ne (by omega), h0]
    | none =>
      refine ⟨b :: nmShrink P pop, ?_, ?_, ?_, ?_, by simp⟩
      · unfold nmStep
        simp only [h0, h1, h2, Option.bind_some, Option.map_some, ← hm, hm1]
      · rw [List.length_cons, hshr, List.length_map, List.length_tail, hl]; rfl
      · intro x hx
        rw [List.mem_cons, hshr] at hx
        rcases hx with rfl | hx
        · exact hin _ (List.getElem_mem _)
        · obtain ⟨y, hy, rfl⟩ := List.mem_map.1 hx
          exact between_in xl xu b y (hin _ (List.getElem_mem _)) (hin y (List.mem_of_mem_tail hy)) P.delta hP.delta0 hP.delta1
      · intro x hx
        rw [List.mem_cons] at hx
        rcases hx with rfl | hx
        · exact Or.inl (List.getElem_mem _)
        · right; simp [hx]
  obtain ⟨pre, p1, p2, p3, p4, p5⟩ := hpre
  obtain ⟨s1, s2, rest, s3, s4⟩ := C68_survival at' (some pre.length) pre
  simp only [Option.getD_some, min_self] at s1
  have hrest : rest = [] := by
    have := s3.length_eq
    rw [List.length_append, s1] at this
    exact List.length_eq_zero_iff.1 (by omega)
  rw [hrest, List.append_nil] at s3
  refine ⟨_, _, p1, by rw [s1, p2], fun x hx => p3 x (s3.mem_iff.1 hx), s2, ?_, fun x hx => p4 x (s3.mem_iff.1 hx), ?_, ?_, ?_⟩
  · intro x hx
    rw [List.mem_append] at hx
    rcases hx with hx | hx
    · exact m1 x hx
    · split_ifs at hx with hnone
      · unfold nmShrink at hx
        rcases hpp : pop with _ | ⟨a, l⟩
        · rw [hpp] at hl; simp at hl
        · rw [hpp] at hx
          simp only [] at hx
          obtain ⟨y, hy, rfl⟩ := List.mem_map.1 hx
          exact between_in xl xu a y (hin a (by simp [hpp])) (hin y (by simp [hpp, hy])) P.delta hP.delta0 hP.delta1
      · simp at hx
  · rw [List.length_append]; omega
  · rw [List.length_append]
    split_ifs with hnone
    · unfold nmShrink
      rcases hpp : pop with _ | ⟨a, l⟩
      · simp; omega
      · rw [hpp] at hl
        simp only [List.length_cons] at hl
        simp only [List.length_map]
        omega
    · simp only [List.length_nil]; omega
  · rcases hf : fitnessSurvival at' (some pre.length) pre with _ | ⟨x, l⟩
    · rw [hf] at s1; simp at s1; omega
    · refine ⟨x, rfl, ?_⟩
      intro y hy
      have hxb : soLe at' x b := by
        have hbm := s3.mem_iff.2 p5
        rw [hf] at hbm s2
        rw [List.mem_cons] at hbm
        rcases hbm with rfl | hbm
        · exact (soLe_total at' _ _).elim id id
        · exact (List.pairwise_cons.1 s2).1 _ hbm
      have hby : soLe at' b y := by
        obtain ⟨i, hi, rfl⟩ := List.getElem_of_mem hy
        rcases Nat.eq_zero_or_pos i with rfl | hi0
        · exact (soLe_total at' _ _).elim id id
        · exact List.pairwise_iff_getElem.1 hs 0 i (by omega) hi hi0
      exact soLe_trans at' _ _ _ hxb hby

/-- C70. Any number of iterations from a sorted simplex: never an error, always `n + 1` vertices within the bounds, every point ever evaluated within the bounds, and the best vertex is at least as good as
every vertex the simplex started with. (Partial: the very first simplex is not sorted by the code, see the refutation.) -/
theorem C70_run_partial (at' : Attrs (Fin n → K) K K 1) (hc : Consistent at') (P : NmParams K) (hP : GoodParams P) (xl xu : Option (Fin n → K))
    (hn : 0 < n) (t : ℕ) (pop : List (Fin n → K)) (hl : pop.length = n + 1) (hin : ∀ x ∈ pop, InBox xl xu x) (hs : pop.Pairwise (soLe at')) :
    ∃ pop' ev, nmRun at' P xl xu t pop = some (pop', ev) ∧ pop'.length = n + 1 ∧ (∀ x ∈ pop', InBox xl xu x) ∧ pop'.Pairwise (soLe at') ∧
      (∀ x ∈ ev, InBox xl xu x) ∧ (∀ x ∈ pop', x ∈ pop ∨ x ∈ ev) ∧ ∃ b, pop'.head? = some b ∧ ∀ x ∈ pop, soLe at' b x := by
  induction t generalizing pop with
  | zero =>
    refine ⟨pop, [], rfl, hl, hin, hs, by simp, fun x h => Or.inl h, ?_⟩
    rcases pop with _ | ⟨b, l⟩
    · simp at hl
    · refine ⟨b, rfl, ?_⟩
      intro x hx
      rw [List.mem_cons] at hx
      rcases hx with rfl | hx
      · exact (soLe_total at' _ _).elim id id
      · exact (List.pairwise_cons.1 hs).1 x hx
  | succ t ih =>
    obtain ⟨p1, e1, a1, a2, a3, a4, a5, a6, -, -, b1, a7, a8⟩ := C70_step at' hc P hP xl xu hn pop hl hin hs
    obtain ⟨p2, e2, c1, c2, c3, c4, c5, c6, b2, c7, c8⟩ := ih p1 a2 a3 a4
    refine ⟨p2, e1 ++ e2, ?_, c2, c3, c4, ?_, ?_, b2, c7, ?_⟩
    · simp [nmRun, a1, c1]
    · intro x hx
      rw [List.mem_append] at hx
      exact hx.elim (a5 x) (c5 x)
    · intro x hx
      rcases c6 x hx with h | h
      · rcases a6 x h with h | h
        · exact Or.inl h
        · exact Or.inr (List.mem_append_left _ h)
      · exact Or.inr (List.mem_append_right _ h)
    · intro x hx
      exact soLe_trans at' _ _ _ (c8 b1 (List.mem_of_mem_head? a7)) (a8 x hx)

/-- A run that reflects, expands and contracts. -/
example : ((nmRun (⟨fun x _ => (x 0 - 3) * (x 0 - 3), fun _ => true, fun _ => 0⟩ : Attrs (Fin 1 → ℚ) ℚ ℚ 1) defaultParams (some fun _ => 0) (some fun _ => 5) 3
    [fun _ => 1, fun _ => 0]).map fun r => (r.1.map fun x => x 0, r.2.map fun x => x 0)) = some ([3, 5 / 2], [2, 3, 5, 2, 4, 5 / 2]) := by
  decide +kernel

/-- C70. The first simplex: `n + 1` vertices within the bounds; vertex `k + 1` differs from the start in variable `k` only, by the given fraction of the range. -/
theorem C70_simplex (xl xu x0 : Fin n → K) (scale : K) (h : ∀ j, xl j ≤ x0 j ∧ x0 j ≤ xu j) (hs0 : 0 ≤ scale) (hs1 : scale ≤ 1 / 2) (k j : Fin n) :
    (xl j ≤ simplexRow (some (xl, xu)) x0 scale k j ∧ simplexRow (some (xl, xu)) x0 scale k j ≤ xu j) ∧
    (j ≠ k → simplexRow (some (xl, xu)) x0 scale k j = x0 j) ∧
    |simplexRow (some (xl, xu)) x0 scale k k - x0 k| = scale * (xu k - xl k) ∧
    (j ≠ k → simplexRow none x0 scale k j = x0 j) ∧ simplexRow none x0 scale k k ≠ x0 k := by
  have hw : 0 ≤ xu k - xl k := by linarith [(h k).1, (h k).2]
  have hw' : 0 ≤ scale * (xu k - xl k) := mul_nonneg hs0 hw
  refine ⟨?_, ?_, ?_, ?_, ?_⟩
  · unfold simplexRow
    simp only []
    by_cases hj : j = k
    · subst hj
      rw [Function.update_self]
      split_ifs with hc
      · exact ⟨by linarith [(h j).1], hc.le⟩
      · push Not at hc
        constructor <;> nlinarith [(h j).1, (h j).2]
    · rw [Function.update_of_ne hj]
      exact h j
  · intro hj
    unfold simplexRow
    simp only []
    rw [Function.update_of_ne hj]
  · unfold simplexRow
    simp only []
    rw [Function.update_self]
    split_ifs
    · rw [add_sub_cancel_left, abs_of_nonneg hw']
    · rw [sub_sub_cancel_left, abs_neg, abs_of_nonneg hw']
  · intro hj
    unfold simplexRow
    simp only []
    rw [Function.update_of_ne hj]
  · unfold simplexRow
    simp only []
    rw [Function.update_self]
    split_ifs with hc
    · norm_num
    · simpa using hc

example : initialSimplex (some ((fun _ => 0, fun _ => 10) : (Fin 2 → ℚ) × (Fin 2 → ℚ))) ![1, 10] = [![1, 10], ![3 / 2, 10], ![1, 19 / 2]] := by decide +kernel

/-- C70 (negative). The first simplex is not sorted before its first iteration: the vertex that is thrown away can be the best one, so the reported optimum gets worse.
Here the start `1` has value 2 and the second vertex, with value 0, is replaced by a point of value 1. -/
theorem C70_first_step_refuted : ∃ (at' : Attrs (Fin 1 → ℚ) ℚ ℚ 1) (x0 : Fin 1 → ℚ), Consistent at' ∧
    (∃ v ∈ initialSimplex (some ((fun _ => 0, fun _ => 10) : (Fin 1 → ℚ) × (Fin 1 → ℚ))) x0, at'.F v 0 = 0) ∧
    ((nmStep at' (adaptiveParams 1) (some fun _ => 0) (some fun _ => 10) (initialSimplex (some (fun _ => 0, fun _ => 10)) x0)).map fun r => r.1.map fun x => at'.F x 0) =
      some [1, 2] := by
  refine ⟨⟨fun x _ => if x 0 = 3 / 2 then 0 else if x 0 = 1 then 2 else if x 0 = 1 / 2 then 1 else 3, fun _ => true, fun _ => 0⟩, fun _ => 1,
    fun x => by simp, ?_, ?_⟩
  · refine ⟨fun _ => 3 / 2, ?_, ?_⟩
    · decide +kernel
    · decide +kernel
  · decide +kernel

/-- C70 (negative). With one variable the adaptive coefficients shrink by the factor zero: the simplex collapses to its best vertex. -/
theorem C70_one_variable_collapse_refuted (b x : Fin 1 → K) : nmShrink (adaptiveParams 1 : NmParams K) [b, x] = [b] := by
  simp [nmShrink, adaptiveParams]

/-! ### Pattern search -/

/-- C71. The exploration around a point: every point tried is within the bounds and differs from the point it was tried from in one variable; the result is the
start or one of the points tried and is not beaten by the start nor by any point tried; if it is not the start, it beats it; between one and two evaluations per variable. -/
theorem C71_explore (at' : Attrs (Fin n → K) K K 1) (hc : Consistent at') (xl xu : Option (Fin n → K)) (sign delta : Fin n → K) (rho : K)
    (order : List (Fin n)) (c : Fin n → K) (hcb : InBox xl xu c) :
    (∀ x ∈ (explore at' xl xu sign delta rho order c).2, InBox xl xu x) ∧
    ((explore at' xl xu sign delta rho order c).1 = c ∨
      ((explore at' xl xu sign delta rho order c).1 ∈ (explore at' xl xu sign delta rho order c).2 ∧
        isBetter at' (explore at' xl xu sign delta rho order c).1 c 0 = true)) ∧
    isBetter at' c (explore at' xl xu sign delta rho order c).1 0 = false ∧
    (∀ x ∈ (explore at' xl xu sign delta rho order c).2, isBetter at' x (explore at' xl xu sign delta rho order c).1 0 = false) ∧
    order.length ≤ (explore at' xl xu sign delta rho order c).2.length ∧
    (explore at' xl xu sign delta rho order c).2.length ≤ 2 * order.length := by
  induction order generalizing c with
  | nil => exact ⟨by simp [explore], Or.inl rfl, isBetter_irrefl at' hc c, by simp [explore], by simp [explore], by simp [explore]⟩
  | cons k ks ih =>
    set d := sign k * rho * delta k with hd
    set e := stepAxis xl xu c d k with he
    set e' := stepAxis xl xu c (-1 * d) k with he'
    have hein : InBox xl xu e := clipRow_in _ _ _ ⟨c, hcb⟩
    have hein' : InBox xl xu e' := clipRow_in _ _ _ ⟨c, hcb⟩
    by_cases h1 : isBetter at' e c 0 = true
    · have hex : explore at' xl xu sign delta rho (k :: ks) c =
          ((explore at' xl xu sign delta rho ks e).1, e :: (explore at' xl xu sign delta rho ks e).2) := by
        rw [explore]
        exact if_pos h1
      rw [hex]
      obtain ⟨i1, i2, i3, i4, i5, i6⟩ := ih e hein
      set r := explore at' xl xu sign delta rho ks e with hr
      have hce : isBetter at' c e 0 = false := isBetter_asymm at' hc _ _ h1
      refine ⟨?_, ?_, not_isBetter_trans at' hc _ _ _ hce i3, ?_, ?_, ?_⟩
      · intro x hx
        rw [List.mem_cons] at hx
        rcases hx with rfl | hx
        · exact hein
        · exact i1 x hx
      · right
        rcases i2 with h | ⟨h, h'⟩
        · simp only [h]; exact ⟨by simp, h1⟩
        · exact ⟨List.mem_cons_of_mem _ h, isBetter_trans at' hc _ _ _ h' h1⟩
      · intro x hx
        rw [List.mem_cons] at hx
        rcases hx with rfl | hx
        · exact i3
        · exact i4 x hx
      · simp only [List.length_cons]; omega
      · simp only [List.length_cons]; omega
    · have hex : explore at' xl xu sign delta rho (k :: ks) c =
          ((explore at' xl xu sign delta rho ks (if isBetter at' e' c 0 then e' else c)).1,
            e :: e' :: (explore at' xl xu sign delta rho ks (if isBetter at' e' c 0 then e' else c)).2) := by
        rw [explore]
        exact if_neg h1
      rw [hex]
      set c' := if isBetter at' e' c 0 then e' else c with hc'
      have hcin' : InBox xl xu c' := by rw [hc']; split_ifs <;> assumption
      have h1' : isBetter at' e c 0 = false := by simpa using h1
      have hcc : isBetter at' c c' 0 = false := by
        rw [hc']
        split_ifs with h2
        · exact isBetter_asymm at' hc _ _ h2
        · exact isBetter_irrefl at' hc c
      have hec : isBetter at' e' c' 0 = false := by
        rw [hc']
        split_ifs with h2
        · exact isBetter_irrefl at' hc _
        · simpa using h2
      obtain ⟨i1, i2, i3, i4, i5, i6⟩ := ih c' hcin'
      set r := explore at' xl xu sign delta rho ks c' with hr
      refine ⟨?_, ?_, not_isBetter_trans at' hc _ _ _ hcc i3, ?_, ?_, ?_⟩
      · intro x hx
        rw [List.mem_cons, List.mem_cons] at hx
        rcases hx with rfl | rfl | hx
        · exact hein
        · exact hein'
        · exact i1 x hx
      · by_cases h2 : isBetter at' e' c 0 = true
        · have hcc' : c' = e' := by rw [hc', if_pos h2]
          right
          rcases i2 with h | ⟨h, h'⟩
          · simp only [h, hcc']; exact ⟨by simp, h2⟩
          · refine ⟨List.mem_cons_of_mem _ (List.mem_cons_of_mem _ h), ?_⟩
            rw [hcc'] at h'
            exact isBetter_trans at' hc _ _ _ h' h2
        · have hcc' : c' = c := by rw [hc', if_neg h2]
          rcases i2 with h | ⟨h, h'⟩
          · left; simp only [h, hcc']
          · right
            rw [hcc'] at h'
            exact ⟨List.mem_cons_of_mem _ (List.mem_cons_of_mem _ h), h'⟩
      · intro x hx
        rw [List.mem_cons, List.mem_cons] at hx
        rcases hx with rfl | rfl | hx
        · exact not_isBetter_trans at' hc _ _ _ (not_isBetter_trans at' hc _ _ _ h1' hcc) i3
        · exact not_isBetter_trans at' hc _ _ _ hec i3
        · exact i4 x hx
      · simp only [List.length_cons]; omega
      · simp only [List.length_cons]; omega

theorem explore_failed_mem (at' : Attrs (Fin n → K) K K 1) (hc : Consistent at') (xl xu : Option (Fin n → K)) (sign delta : Fin n → K) (rho : K)
    (order : List (Fin n)) (c : Fin n → K) (hcb : InBox xl xu c)
    (h : isBetter at' (explore at' xl xu sign delta rho order c).1 c 0 = false) (k : Fin n) (hk : k ∈ order) (t : K) (ht : t = 1 ∨ t = -1) :
    stepAxis xl xu c (t * (sign k * rho * delta k)) k ∈ (explore at' xl xu sign delta rho order c).2 := by
  induction order with
  | nil => simp at hk
  | cons a ks ih =>
    have hmem : ∀ y : Fin n → K, y ∈ (explore at' xl xu sign delta rho (a :: ks) c).2 → isBetter at' y c 0 = false := by
      intro y hy
      exact not_isBetter_trans at' hc _ _ _ ((C71_explore at' hc xl xu sign delta rho (a :: ks) c hcb).2.2.2.1 y hy) h
    set d := sign a * rho * delta a with hd
    set e := stepAxis xl xu c d a with he
    set e' := stepAxis xl xu c (-1 * d) a with he'
    have h1 : isBetter at' e c 0 = false := by
      refine hmem e ?_
      rw [explore]
      simp only []
      split_ifs <;> simp [he, hd]
    have hex : explore at' xl xu sign delta rho (a :: ks) c =
        ((explore at' xl xu sign delta rho ks (if isBetter at' e' c 0 then e' else c)).1,
          e :: e' :: (explore at' xl xu sign delta rho ks (if isBetter at' e' c 0 then e' else c)).2) := by
      rw [explore]
      exact if_neg (by rw [← hd, ← he, h1]; simp)
    have h2 : isBetter at' e' c 0 = false := hmem e' (by rw [hex]; simp)
    rw [h2] at hex
    simp only [Bool.false_eq_true, if_false] at hex
    rw [hex]
    rw [hex] at h
    rw [List.mem_cons] at hk
    rcases hk with rfl | hk
    · rcases ht with rfl | rfl
      · rw [one_mul]; simp [he, hd]
      · simp [he', hd]
    · exact List.mem_cons_of_mem _ (List.mem_cons_of_mem _ (ih h hk))

/-- C71. If the exploration does not find an improvement, then it has tried, for every variable, the step in both directions from the start, and none of them was better. -/
theorem C71_explore_failed (at' : Attrs (Fin n → K) K K 1) (hc : Consistent at') (xl xu : Option (Fin n → K)) (sign delta : Fin n → K) (rho : K)
    (order : List (Fin n)) (c : Fin n → K) (hcb : InBox xl xu c)
    (h : isBetter at' (explore at' xl xu sign delta rho order c).1 c 0 = false) (k : Fin n) (hk : k ∈ order) (t : K) (ht : t = 1 ∨ t = -1) :
    stepAxis xl xu c (t * (sign k * rho * delta k)) k ∈ (explore at' xl xu sign delta rho order c).2 ∧
    isBetter at' (stepAxis xl xu c (t * (sign k * rho * delta k)) k) c 0 = false := by
  have hm := explore_failed_mem at' hc xl xu sign delta rho order c hcb h k hk t ht
  exact ⟨hm, not_isBetter_trans at' hc _ _ _ ((C71_explore at' hc xl xu sign delta rho order c hcb).2.2.2.1 _ hm) h⟩

/-- C71. A step along an axis moves that variable only, by the amount asked for or up to the bound. -/
theorem C71_step_axis (l u x : Fin n → K) (hx : ∀ j, l j ≤ x j ∧ x j ≤ u j) (d : K) (k : Fin n) :
    stepAxis (some l) (some u) x d k k = max (l k) (min (u k) (x k + d)) ∧ (∀ j, j ≠ k → stepAxis (some l) (some u) x d k j = x j) ∧
    stepAxis none none x d k k = x k + d := by
  refine ⟨?_, ?_, ?_⟩
  · have hlu := (hx k).1.trans (hx k).2
    unfold stepAxis clipRow setToBounds
    simp only [setWhere, below, above, decide_eq_true_eq, Function.update_self]
    rcases lt_or_ge (x k + d) (l k) with h1 | h1
    · rw [if_pos h1, if_neg (not_lt.2 hlu), min_eq_right (h1.le.trans hlu), max_eq_left h1.le]
    · rw [if_neg (not_lt.2 h1)]
      rcases lt_or_ge (u k) (x k + d) with h2 | h2
      · rw [if_pos h2, min_eq_left h2.le, max_eq_right hlu]
      · rw [if_neg (not_lt.2 h2), min_eq_right h2, max_eq_right h1]
  · intro j hj
    unfold stepAxis clipRow setToBounds
    simp only [setWhere, below, above, decide_eq_true_eq, Function.update_of_ne hj]
    rw [if_neg (not_lt.2 (hx j).1), if_neg (not_lt.2 (hx j).2)]
  · simp [stepAxis, clipRow, setToBounds]

/-- C71. One iteration: everything tried is within the bounds; the center is never replaced by anything that is not strictly better; and the best of the center and the
explored point is not beaten by any point tried so far. -/
theorem C71_next (at' : Attrs (Fin n → K) K K 1) (hc : Consistent at') (xl xu : Option (Fin n → K)) (delta : Fin n → K) (initRho step : K) (order : List (Fin n))
    (s : PatternState K n) (tried : List (Fin n → K)) (hb1 : InBox xl xu s.center) (hb2 : InBox xl xu s.explr)
    (hin : s.center ∈ tried ∧ s.explr ∈ tried) (hbest : ∀ x ∈ tried, isBetter at' x s.center 0 = false ∨ isBetter at' x s.explr 0 = false) :
    (∀ x ∈ (patternNext at' xl xu delta initRho step order s).2, InBox xl xu x) ∧
    InBox xl xu (patternNext at' xl xu delta initRho step order s).1.center ∧ InBox xl xu (patternNext at' xl xu delta initRho step order s).1.explr ∧
    ((patternNext at' xl xu delta initRho step order s).1.center = s.center ∨
      isBetter at' (patternNext at' xl xu delta initRho step order s).1.center s.center 0 = true) ∧
    ((patternNext at' xl xu delta initRho step order s).1.center ∈ tried ++ (patternNext at' xl xu delta initRho step order s).2 ∧
      (patternNext at' xl xu delta initRho step order s).1.explr ∈ tried ++ (patternNext at' xl xu delta initRho step order s).2) ∧
    (∀ x ∈ tried ++ (patternNext at' xl xu delta initRho step order s).2,
      isBetter at' x (patternNext at' xl xu delta initRho step order s).1.center 0 = false ∨
      isBetter at' x (patternNext at' xl xu delta initRho step order s).1.explr 0 = false) := by
  by_cases h : isBetter at' s.explr s.center 0 = true
  · set dir : Fin n → K := fun j => s.explr j - s.center j with hdir
    set trial := patternMove xl xu s.explr dir step with htrial
    have hn : patternNext at' xl xu delta initRho step order s =
        ({ s with center := s.explr, explr := (explore at' xl xu (calcSign dir) delta s.rho order trial).1, sign := calcSign dir },
          trial :: (explore at' xl xu (calcSign dir) delta s.rho order trial).2) := by
      unfold patternNext
      exact if_pos h
    have htin : InBox xl xu trial := clipRow_in _ _ _ ⟨s.explr, hb2⟩
    obtain ⟨i1, i2, i3, i4, -, -⟩ := C71_explore at' hc xl xu (calcSign dir) delta s.rho order trial htin
    set r := explore at' xl xu (calcSign dir) delta s.rho order trial with hr
    rw [hn]
    simp only []
    have hrin : InBox xl xu r.1 := by
      rcases i2 with h' | ⟨h', -⟩
      · rw [h']; exact htin
      · exact i1 _ h'
    refine ⟨?_, hb2, hrin, Or.inr h, ⟨List.mem_append_left _ hin.2, ?_⟩, ?_⟩
    · intro x hx
      rw [List.mem_cons] at hx
      rcases hx with rfl | hx
      · exact htin
      · exact i1 x hx
    · refine List.mem_append_right _ ?_
      rcases i2 with h' | ⟨h', -⟩
      · rw [h']; simp
      · exact List.mem_cons_of_mem _ h'
    · intro x hx
      rw [List.mem_append, List.mem_cons] at hx
      rcases hx with hx | rfl | hx
      · left
        rcases hbest x hx with h' | h'
        · exact not_isBetter_trans at' hc _ _ _ h' (isBetter_asymm at' hc _ _ h)
        · exact h'
      · exact Or.inr i3
      · exact Or.inr (i4 x hx)
  · have h' : isBetter at' s.explr s.center 0 = false := by simpa using h
    have hn : patternNext at' xl xu delta initRho step order s =
        ({ s with explr := (explore at' xl xu s.sign delta (initRho ^ (s.nNotImproved + 1)) order s.center).1, nNotImproved := s.nNotImproved + 1, rho := initRho ^ (s.nNotImproved + 1) },
          (explore at' xl xu s.sign delta (initRho ^ (s.nNotImproved + 1)) order s.center).2) := by
      unfold patternNext
      exact if_neg h
    obtain ⟨i1, i2, i3, i4, -, -⟩ := C71_explore at' hc xl xu s.sign delta (initRho ^ (s.nNotImproved + 1)) order s.center hb1
    set r := explore at' xl xu s.sign delta (initRho ^ (s.nNotImproved + 1)) order s.center with hr
    rw [hn]
    simp only []
    have hrin : InBox xl xu r.1 := by
      rcases i2 with h' | ⟨h', -⟩
      · rw [h']; exact hb1
      · exact i1 _ h'
    refine ⟨i1, hb1, hrin, Or.inl trivial, ⟨List.mem_append_left _ hin.1, ?_⟩, ?_⟩
    · rcases i2 with h' | ⟨h', -⟩
      · rw [h']; exact List.mem_append_left _ hin.1
      · exact List.mem_append_right _ h'
    · intro x hx
      rw [List.mem_append] at hx
      rcases hx with hx | hx
      · left
        rcases hbest x hx with h'' | h''
        · exact h''
        · exact not_isBetter_trans at' hc _ _ _ h'' h'
      · exact Or.inr (i4 x hx)

theorem patternRun_inv (at' : Attrs (Fin n → K) K K 1) (hc : Consistent at') (xl xu : Option (Fin n → K)) (delta : Fin n → K) (initRho step : K)
    (orders : List (List (Fin n))) (s : PatternState K n) (tried : List (Fin n → K)) (hb1 : InBox xl xu s.center) (hb2 : InBox xl xu s.explr)
    (hin : s.center ∈ tried ∧ s.explr ∈ tried) (hbest : ∀ x ∈ tried, isBetter at' x s.center 0 = false ∨ isBetter at' x s.explr 0 = false)
    (hrho : s.rho = initRho ^ max 1 s.nNotImproved) :
    (∀ x ∈ (patternRun at' xl xu delta initRho step orders s).2, InBox xl xu x) ∧
    ((patternRun at' xl xu delta initRho step orders s).1.center = s.center ∨
      isBetter at' (patternRun at' xl xu delta initRho step orders s).1.center s.center 0 = true) ∧
    ((patternRun at' xl xu delta initRho step orders s).1.center ∈ tried ++ (patternRun at' xl xu delta initRho step orders s).2 ∧
      (patternRun at' xl xu delta initRho step orders s).1.explr ∈ tried ++ (patternRun at' xl xu delta initRho step orders s).2) ∧
    (∀ x ∈ tried ++ (patternRun at' xl xu delta initRho step orders s).2,
      isBetter at' x (patternRun at' xl xu delta initRho step orders s).1.center 0 = false ∨
      isBetter at' x (patternRun at' xl xu delta initRho step orders s).1.explr 0 = false) ∧
    (patternRun at' xl xu delta initRho step orders s).1.rho = initRho ^ max 1 (patternRun at' xl xu delta initRho step orders s).1.nNotImproved ∧
    s.nNotImproved ≤ (patternRun at' xl xu delta initRho step orders s).1.nNotImproved ∧
    (patternRun at' xl xu delta initRho step orders s).1.nNotImproved ≤ s.nNotImproved + orders.length := by
  induction orders generalizing s tried with
  | nil => exact ⟨by simp [patternRun], Or.inl rfl, by simpa [patternRun] using hin, by simpa [patternRun] using hbest, hrho, le_rfl, by simp [patternRun]⟩
  | cons o os ih =>
    obtain ⟨a1, a2, a3, a4, a5, a6⟩ := C71_next at' hc xl xu delta initRho step o s tried hb1 hb2 hin hbest
    have hk : (patternNext at' xl xu delta initRho step o s).1.rho = initRho ^ max 1 (patternNext at' xl xu delta initRho step o s).1.nNotImproved ∧
        s.nNotImproved ≤ (patternNext at' xl xu delta initRho step o s).1.nNotImproved ∧
        (patternNext at' xl xu delta initRho step o s).1.nNotImproved ≤ s.nNotImproved + 1 := by
      unfold patternNext
      split_ifs
      · exact ⟨hrho, le_rfl, Nat.le_succ _⟩
      · simp
    set r := patternNext at' xl xu delta initRho step o s with hr
    have hrun : patternRun at' xl xu delta initRho step (o :: os) s =
        ((patternRun at' xl xu delta initRho step os r.1).1, r.2 ++ (patternRun at' xl xu delta initRho step os r.1).2) := rfl
    rw [hrun]
    simp only []
    obtain ⟨b1, b2, b3, b4, b5, b6, b7⟩ := ih r.1 (tried ++ r.2) a2 a3 a5 a6 hk.1
    rw [List.append_assoc] at b3 b4
    refine ⟨?_, ?_, b3, b4, b5, hk.2.1.trans b6, ?_⟩
    · intro x hx
      rw [List.mem_append] at hx
      exact hx.elim (a1 x) (b1 x)
    · rcases b2 with h | h
      · rw [h]; exact a4
      · rcases a4 with h' | h'
        · right; rw [← h']; exact h
        · exact Or.inr (isBetter_trans at' hc _ _ _ h h')
    · rw [List.length_cons]; omega

/-- C71. Any number of iterations, whatever the orders drawn, from a start `x0` that is at least as good as every point sampled (`sample`): every point evaluated is within the bounds;
the final center is the start or better than it; the final center and explored point were evaluated and no point evaluated, in the sample or later, is better than
both; the step length is the initial factor to the power of the number of failed iterations. -/
theorem C71_run (at' : Attrs (Fin n → K) K K 1) (hc : Consistent at') (xl xu : Option (Fin n → K)) (delta : Fin n → K) (initRho step : K)
    (orders : List (List (Fin n))) (sample : List (Fin n → K)) (x0 : Fin n → K) (hb : InBox xl xu x0) (hx0 : x0 ∈ sample) (hs : ∀ x ∈ sample, isBetter at' x x0 0 = false) :
    ∃ s ev, patternRun at' xl xu delta initRho step orders (patternInit x0 initRho) = (s, ev) ∧
    (∀ x ∈ ev, InBox xl xu x) ∧ (s.center = x0 ∨ isBetter at' s.center x0 0 = true) ∧
    (s.center ∈ sample ++ ev ∧ s.explr ∈ sample ++ ev) ∧
    (∀ x ∈ sample ++ ev, ¬ (isBetter at' x s.center 0 = true ∧ isBetter at' x s.explr 0 = true)) ∧
    s.rho = initRho ^ max 1 s.nNotImproved ∧ s.nNotImproved ≤ orders.length := by
  obtain ⟨b1, b2, b3, b4, b5, b6, b7⟩ := patternRun_inv at' hc xl xu delta initRho step orders (patternInit x0 initRho) sample hb hb ⟨hx0, hx0⟩
    (fun x hx => Or.inl (hs x hx)) (by simp [patternInit])
  refine ⟨_, _, rfl, b1, b2, b3, ?_, b5, by simpa [patternInit] using b7⟩
  rintro x hx ⟨h1, h2⟩
  rcases b4 x hx with h | h
  · rw [h] at h1; simp at h1
  · rw [h] at h2; simp at h2

/-- C71. The directions tried first after a successful exploration: up for a variable that has just been raised, down for one that was lowered (and for an unchanged one),
always with unit length; the rest of the state is as the exploration left it. -/
theorem C71_direction (at' : Attrs (Fin n → K) K K 1) (xl xu : Option (Fin n → K)) (delta : Fin n → K) (initRho step : K) (order : List (Fin n)) (s : PatternState K n)
    (h : isBetter at' s.explr s.center 0 = true) (j : Fin n) :
    (patternNext at' xl xu delta initRho step order s).1.center = s.explr ∧
    (patternNext at' xl xu delta initRho step order s).1.rho = s.rho ∧
    (patternNext at' xl xu delta initRho step order s).1.nNotImproved = s.nNotImproved ∧
    (s.center j < s.explr j → (patternNext at' xl xu delta initRho step order s).1.sign j = 1) ∧
    (s.explr j ≤ s.center j → (patternNext at' xl xu delta initRho step order s).1.sign j = -1) := by
  unfold patternNext
  rw [if_pos h]
  refine ⟨rfl, rfl, rfl, fun h1 => ?_, fun h1 => ?_⟩
  · show calcSign (fun j => s.explr j - s.center j) j = 1
    unfold calcSign
    rw [if_neg (by linarith), if_pos (by linarith)]
  · show calcSign (fun j => s.explr j - s.center j) j = -1
    unfold calcSign
    rcases h1.lt_or_eq with h2 | h2
    · rw [if_pos (by linarith)]
    · rw [if_neg (by linarith), if_neg (by linarith)]

/-- A run with two successful explorations, a pattern move and a failed exploration. -/
example : ((fun r : PatternState ℚ 2 × List (Fin 2 → ℚ) => (r.1.center, r.1.explr, r.1.nNotImproved, r.1.rho, r.2.length))
    (patternRun (⟨fun x _ => (x 0 - 3) * (x 0 - 3) + x 1 * x 1, fun _ => true, fun _ => 0⟩ : Attrs (Fin 2 → ℚ) ℚ ℚ 1) (some fun _ => 0) (some fun _ => 8) (fun _ => 2) (1 / 2) 1
      [[0, 1], [1, 0], [0, 1]] (patternInit ![1, 2] (1 / 2)))) = (![3, 0], ![3, 0], 1, 1 / 2, 13) := by
  decide +kernel

end
end Props
