import Verif.Model.OmniOptimizer
import Verif.Props.Survival
import Verif.Props.Mopso
import Verif.Lemmas.FrontSurvivals
import Verif.Lemmas.Crowding
import Verif.Props.Selection
import Verif.Props.FrontSurvivals
import Mathlib.Data.Fin.Tuple.Sort
import Mathlib.Data.Rat.Lemmas
import Mathlib.Data.List.GetD
import Mathlib.Algebra.Order.BigOperators.Group.List
import Mathlib.Algebra.BigOperators.Ring.List
import Mathlib.Tactic.Linarith
import Mathlib.Tactic.FinCases
import Mathlib.Tactic.NormNum
import Mathlib.Data.Rat.Defs
import Mathlib.Data.List.Induction
import Mathlib.Data.Fin.VecNotation

/-! # C114 (Omni-Optimizer): loose dominance, survival, crowding in two spaces, restricted mating -/

set_option linter.unusedSectionVars false
set_option linter.unusedSimpArgs false
set_option linter.unusedVariables false

namespace Props
open Model Spec Lemmas

variable {α : Type*} [Field α] [LinearOrder α] [IsStrictOrderedRing α] {n m d N v : ℕ}

/-! ### Specification -/

/-- `r` is the range of objective `c` over the points `F`. -/
def ObjRange (F : Fin n → Fin m → α) (c : Fin m) (r : α) : Prop :=
  ∃ a b, (∀ i, F a c ≤ F i c ∧ F i c ≤ F b c) ∧ r = F b c - F a c

/-- Point `i` loosely dominates point `j`: it Pareto-dominates it, and in some objective by more than the fraction `delta` of its range. -/
def LooselyDominates (delta : α) (F : Fin n → Fin m → α) (i j : Fin n) : Prop :=
  Dominates (F i) (F j) ∧ ∃ c r, ObjRange F c r ∧ F i c + delta * r < F j c

/-- The sorting permutations really sort. -/
def SortsColumns (ord : (l : ℕ) → (Fin l → α) → Equiv.Perm (Fin l)) : Prop :=
  ∀ (l : ℕ) (col : Fin l → α) (a b : Fin l), a ≤ b → col (ord l col a) ≤ col (ord l col b)

/-! ### Loose dominance -/

theorem columnNorm_range (F : Fin n → Fin m → α) (c : Fin m) (i0 : Fin n) : ObjRange F c (columnNorm fun i => F i c) := by
  have hne : (List.finRange n).map (fun i => F i c) ≠ [] := by
    intro h; simp at h; subst h; exact i0.elim0
  unfold columnNorm
  cases hM : ((List.finRange n).map fun i => F i c).max? with
  | none => exact absurd (List.max?_eq_none_iff.1 hM) hne
  | some M =>
    cases hm : ((List.finRange n).map fun i => F i c).min? with
    | none => exact absurd (List.min?_eq_none_iff.1 hm) hne
    | some w =>
      obtain ⟨m1, m2⟩ := List.max?_eq_some_iff.1 hM
      obtain ⟨w1, w2⟩ := List.min?_eq_some_iff.1 hm
      obtain ⟨b, -, rfl⟩ := List.mem_map.1 m1
      obtain ⟨a, -, rfl⟩ := List.mem_map.1 w1
      exact ⟨a, b, fun i => ⟨w2 _ (List.mem_map.2 ⟨i, by simp, rfl⟩), m2 _ (List.mem_map.2 ⟨i, by simp, rfl⟩)⟩, rfl⟩

theorem objRange_unique {F : Fin n → Fin m → α} {c : Fin m} {r s : α} (hr : ObjRange F c r) (hs : ObjRange F c s) : r = s := by
  obtain ⟨a, b, h, rfl⟩ := hr
  obtain ⟨a', b', h', rfl⟩ := hs
  have h1 := le_antisymm (h a').1 (h' a).1
  have h2 := le_antisymm (h b').2 (h' b).2
  rw [h1, h2]

theorem loose_iff (delta : α) (F : Fin n → Fin m → α) (i j : Fin n) :
    LooselyDominates delta F i j ↔ Dominates (F i) (F j) ∧ ∃ c, F i c + delta * columnNorm (fun i => F i c) < F j c := by
  unfold LooselyDominates
  refine and_congr_right fun _ => ⟨?_, ?_⟩
  · rintro ⟨c, r, hr, h⟩
    exact ⟨c, by rw [← objRange_unique hr (columnNorm_range F c i)]; exact h⟩
  · rintro ⟨c, h⟩
    exact ⟨c, _, columnNorm_range F c i, h⟩

theorem looseMatrix_eq (delta : α) (F : Fin n → Fin m → α) (i j : Fin n) [Decidable (LooselyDominates delta F i j)]
    [Decidable (LooselyDominates delta F j i)] :
    looseMatrix delta F i j = (if LooselyDominates delta F i j then 1 else 0) - (if LooselyDominates delta F j i then 1 else 0) := by
  unfold looseMatrix
  dsimp only
  congr 1
  · refine if_congr ?_ rfl rfl
    rw [loose_iff, dominates_iff]
    simp [and_assoc]
  · refine if_congr ?_ rfl rfl
    rw [loose_iff, dominates_iff]
    simp [and_assoc]

/-- C114. The matrix given to the non-dominated sorting: 1 where the row loosely dominates the column, -1 for the converse, 0 otherwise. -/
theorem C114_loose_matrix (delta : α) (F : Fin n → Fin m → α) (i j : Fin n) :
    (looseMatrix delta F i j = 1 ↔ LooselyDominates delta F i j) ∧ (looseMatrix delta F i j = -1 ↔ LooselyDominates delta F j i) ∧
    (looseMatrix delta F i j = 0 ↔ ¬ LooselyDominates delta F i j ∧ ¬ LooselyDominates delta F j i) := by
  classical
  have hx : ¬ (LooselyDominates delta F i j ∧ LooselyDominates delta F j i) := fun h =>
    dominates_strictPO.irrefl _ (dominates_strictPO.trans _ _ _ h.1.1 h.2.1)
  rw [looseMatrix_eq]
  by_cases h1 : LooselyDominates delta F i j <;> by_cases h2 : LooselyDominates delta F j i
  · exact absurd ⟨h1, h2⟩ hx
  all_goals simp [h1, h2]

/-- C114. Loose dominance is a strict partial order for every margin, so it has well-defined fronts. -/
theorem C114_loose_order (delta : α) (F : Fin n → Fin m → α) : StrictPO (LooselyDominates delta F) where
  irrefl i h := dominates_strictPO.irrefl _ h.1
  trans i j k h1 h2 := by
    obtain ⟨c, r, hr, h⟩ := h1.2
    exact ⟨dominates_strictPO.trans _ _ _ h1.1 h2.1, c, r, hr, h.trans_le (h2.1.1 c)⟩

/-- C114. `delta=0` recovers the usual Pareto dominance. -/
theorem C114_delta_zero (F : Fin n → Fin m → α) (i j : Fin n) : LooselyDominates 0 F i j ↔ Dominates (F i) (F j) := by
  rw [loose_iff]
  refine ⟨fun h => h.1, fun h => ⟨h, ?_⟩⟩
  obtain ⟨c, hc⟩ := h.2
  exact ⟨c, by simpa using hc⟩

/-! ### Crowding -/

theorem omoSpace_bounds (var : Bool) (ord : (l : ℕ) → (Fin l → α) → Equiv.Perm (Fin l)) (hord : SortsColumns ord)
    (Y : Fin n → Fin d → α) (i : Fin n) (hn : 2 < n) (hb : var = true ∨ ∀ c, ((ord n fun i => Y i c).symm i).val ≠ 0) :
    0 ≤ omoSpace var ord Y i ∧ omoSpace var ord Y i ≤ 2 := by
  have hc : ∀ c : Fin d, 0 ≤ omoContribution var (fun k => Y (ord n (fun i => Y i c) k) c) ((ord n fun i => Y i c).symm i).val ∧
      omoContribution var (fun k => Y (ord n (fun i => Y i c) k) c) ((ord n fun i => Y i c).symm i).val ≤ 2 := by
    intro c
    generalize hs : (fun k => Y (ord n (fun i => Y i c) k) c) = s
    have hmono : ∀ a b : Fin n, a ≤ b → s a ≤ s b := by
      intro a b hab; subst hs; exact hord n (fun i => Y i c) a b hab
    have hk := ((ord n fun i => Y i c).symm i).isLt
    generalize ((ord n fun i => Y i c).symm i).val = k at hk
    have at_mono : ∀ a b : ℕ, a ≤ b → b < n → omoAt s a ≤ omoAt s b := by
      intro a b hab hb
      unfold omoAt
      rw [dif_pos (by omega), dif_pos hb]
      exact hmono _ _ hab
    have hspan : 0 ≤ omoAt s (n - 1) - omoAt s 0 := sub_nonneg.2 (at_mono _ _ (by omega) (by omega))
    have frac : ∀ a b : ℕ, a ≤ b → b < n → omoAt s (n - 1) - omoAt s 0 ≠ 0 →
        0 ≤ (omoAt s b - omoAt s a) / (omoAt s (n - 1) - omoAt s 0) ∧ (omoAt s b - omoAt s a) / (omoAt s (n - 1) - omoAt s 0) ≤ 1 := by
      intro a b hab hb h0
      refine ⟨div_nonneg (sub_nonneg.2 (at_mono a b hab hb)) hspan, (div_le_one (lt_of_le_of_ne hspan (Ne.symm h0))).2 ?_⟩
      have := at_mono 0 a (by omega) (by omega)
      have := at_mono b (n - 1) (by omega) (by omega)
      linarith
    unfold omoContribution
    dsimp only
    by_cases h0 : omoAt s (n - 1) - omoAt s 0 = 0
    · rw [if_pos h0]; exact ⟨le_refl _, by norm_num⟩
    · rw [if_neg h0]
      split_ifs
      · have := frac 0 1 (by omega) (by omega) h0
        rw [mul_div_assoc]; exact ⟨by linarith, by linarith⟩
      · exact ⟨le_refl _, by norm_num⟩
      · have := frac (n - 2) (n - 1) (by omega) (by omega) h0
        rw [mul_div_assoc]; exact ⟨by linarith, by linarith⟩
      · exact ⟨le_refl _, by norm_num⟩
      · have := frac (k - 1) (k + 1) (by omega) (by omega) h0
        exact ⟨this.1, this.2.trans (by norm_num)⟩
  unfold omoSpace
  rw [if_neg (by omega)]
  have hif : (!var && ((List.finRange d).any fun c => decide (((ord n fun i => Y i c).symm i).val = 0))) = false := by
    rcases hb with h | h
    · simp [h]
    · have : ((List.finRange d).any fun c => decide (((ord n fun i => Y i c).symm i).val = 0)) = false := by
        rw [List.any_eq_false]; intro c _; simpa using h c
      rw [this]; simp
  dsimp only
  rw [hif]
  simp only [Bool.false_eq_true, if_false]
  have sums : ∀ l : List (Fin d), 0 ≤ (l.map fun c => omoContribution var (fun k => Y (ord n (fun i => Y i c) k) c) ((ord n fun i => Y i c).symm i).val).sum ∧
      (l.map fun c => omoContribution var (fun k => Y (ord n (fun i => Y i c) k) c) ((ord n fun i => Y i c).symm i).val).sum ≤ 2 * (l.length : α) := by
    intro l
    induction l with
    | nil => simp
    | cons c l ih =>
      simp only [List.map_cons, List.sum_cons, List.length_cons, Nat.cast_succ]
      have := hc c
      exact ⟨by linarith, by linarith⟩
  have := sums (List.finRange d)
  rw [List.length_finRange] at this
  refine ⟨div_nonneg this.1 (Nat.cast_nonneg d), ?_⟩
  rcases Nat.eq_zero_or_pos d with h | h
  · subst h; simp
  · rw [div_le_iff₀ (by exact_mod_cast h)]; exact this.2

/-- C114. Crowding in one space: fronts of at most two points have value 10 throughout; in variable space all values lie between 0 and 2; in
objective space the first point of each sorted objective has value 10 and all other points have values between 0 and 2. -/
theorem C114_space (var : Bool) (ord : (l : ℕ) → (Fin l → α) → Equiv.Perm (Fin l)) (hord : SortsColumns ord) (Y : Fin n → Fin d → α) :
    (n ≤ 2 → ∀ i, omoSpace var ord Y i = 10) ∧
    (2 < n → var = true → ∀ i, 0 ≤ omoSpace var ord Y i ∧ omoSpace var ord Y i ≤ 2) ∧
    (2 < n → var = false → ∃ best : Fin d → Fin n, (∀ c i, Y (best c) c ≤ Y i c) ∧ (∀ c, omoSpace var ord Y (best c) = 10) ∧
      ∀ i, (∀ c, i ≠ best c) → 0 ≤ omoSpace var ord Y i ∧ omoSpace var ord Y i ≤ 2) := by
  refine ⟨fun h i => by unfold omoSpace; rw [if_pos h]; rfl, fun h hv i => omoSpace_bounds var ord hord Y i h (Or.inl hv), ?_⟩
  rintro hn rfl
  refine ⟨fun c => ord n (fun i => Y i c) ⟨0, by omega⟩, ?_, ?_, ?_⟩
  · intro c i
    have := hord n (fun i => Y i c) ⟨0, by omega⟩ ((ord n fun i => Y i c).symm i) (Nat.zero_le _)
    simpa using this
  · intro c
    unfold omoSpace
    rw [if_neg (by omega)]
    have : ((List.finRange d).any fun c' => decide (((ord n fun i => Y i c').symm (ord n (fun i => Y i c) ⟨0, by omega⟩)).val = 0)) = true := by
      rw [List.any_eq_true]
      exact ⟨c, by simp, by simp⟩
    dsimp only
    rw [this]
    rfl
  · intro i hi
    refine omoSpace_bounds false ord hord Y i hn (Or.inr fun c h0 => hi c ?_)
    have : (ord n fun i => Y i c).symm i = ⟨0, by omega⟩ := Fin.ext h0
    rw [← this]; simp

/-- C114. The crowding value of a point (three or more points, not a best point of the objective space): the mean over the dimensions of the gap between the
sorted neighbours `p` and `q` of the point, divided by the range; at an end of the variable space twice the gap to the only neighbour, at the
upper end of the objective space nothing; a constant dimension counts nothing. -/
theorem C114_space_value (var : Bool) (ord : (l : ℕ) → (Fin l → α) → Equiv.Perm (Fin l)) (hord : SortsColumns ord) (Y : Fin n → Fin d → α) (i : Fin n)
    (hn : 2 < n) (hb : var = true ∨ ∀ c, ((ord n fun i => Y i c).symm i).val ≠ 0) :
    ∃ term : Fin d → α, omoSpace var ord Y i = (∑ c, term c) / d ∧ ∀ c, ∀ r, ObjRange Y c r →
      (r = 0 → term c = 0) ∧
      (r ≠ 0 → ∀ k : Fin n, ord n (fun i => Y i c) k = i →
        (∀ p q : Fin n, p.val + 1 = k.val → k.val + 1 = q.val → term c = (Y (ord n (fun i => Y i c) q) c - Y (ord n (fun i => Y i c) p) c) / r) ∧
        (∀ q : Fin n, k.val = 0 → q.val = 1 → term c = if var then 2 * (Y (ord n (fun i => Y i c) q) c - Y i c) / r else 0) ∧
        (∀ p : Fin n, k.val + 1 = n → p.val + 1 = k.val → term c = if var then 2 * (Y i c - Y (ord n (fun i => Y i c) p) c) / r else 0)) := by
  have hif : (!var && ((List.finRange d).any fun c => decide (((ord n fun i => Y i c).symm i).val = 0))) = false := by
    rcases hb with h | h
    · simp [h]
    · have : ((List.finRange d).any fun c => decide (((ord n fun i => Y i c).symm i).val = 0)) = false := by
        rw [List.any_eq_false]; intro c _; simpa using h c
      rw [this]; simp
  refine ⟨fun c => omoContribution var (fun k => Y (ord n (fun i => Y i c) k) c) ((ord n fun i => Y i c).symm i).val, ?_, ?_⟩
  · unfold omoSpace
    rw [if_neg (by omega)]
    dsimp only
    rw [hif, sum_map_finRange]
    rfl
  · intro c r hr
    have hr' : ObjRange Y c (omoAt (fun k => Y (ord n (fun i => Y i c) k) c) (n - 1) - omoAt (fun k => Y (ord n (fun i => Y i c) k) c) 0) := by
      refine ⟨ord n (fun i => Y i c) ⟨0, by omega⟩, ord n (fun i => Y i c) ⟨n - 1, by omega⟩, fun j => ?_, ?_⟩
      · have h1 := hord n (fun i => Y i c) ⟨0, by omega⟩ ((ord n fun i => Y i c).symm j) (Nat.zero_le _)
        have h2 := hord n (fun i => Y i c) ((ord n fun i => Y i c).symm j) ⟨n - 1, by omega⟩ (by rw [Fin.le_def]; simp only; omega)
        simp only [Equiv.apply_symm_apply] at h1 h2
        exact ⟨h1, h2⟩
      · unfold omoAt
        rw [dif_pos (by omega), dif_pos (by omega)]
    have hrr := objRange_unique hr' hr
    unfold omoContribution
    dsimp only
    rw [hrr]
    refine ⟨fun h => if_pos h, fun h k hk => ?_⟩
    have hki : (ord n fun i => Y i c).symm i = k := by rw [← hk]; simp
    rw [if_neg h, hki]
    have at_eq : ∀ (t : ℕ) (q : Fin n), q.val = t → omoAt (fun k => Y (ord n (fun i => Y i c) k) c) t = Y (ord n (fun i => Y i c) q) c := by
      rintro t q rfl
      unfold omoAt
      rw [dif_pos q.isLt]
    refine ⟨?_, ?_, ?_⟩
    · intro p q hp hq
      have := q.isLt
      rw [if_neg (by omega), if_neg (by omega), at_eq _ q hq.symm, at_eq _ p (by omega)]
    · intro q h0 hq
      rw [if_pos h0, at_eq 1 q hq, at_eq 0 k h0, hk]
    · intro p h1 hp
      rw [if_neg (by omega), if_pos (by omega), at_eq (n - 1) k (by omega), at_eq (n - 2) p (by omega), hk]

theorem sum_filter_le (l : List (Fin n)) (p : Fin n → Bool) (f : Fin n → α) (b : α) (hb : 0 ≤ b) (h : ∀ i, p i = true → f i ≤ b) :
    ((l.filter p).map f).sum ≤ b * (l.length : α) := by
  induction l with
  | nil => simp
  | cons i l ih =>
    rw [List.filter_cons]
    simp only [List.length_cons, Nat.cast_succ]
    split_ifs with hp
    · simp only [List.map_cons, List.sum_cons]
      have := h i hp
      linarith
    · linarith

/-- C114. The combined crowding value with objective-space niching: for each objective some point that is best in it has value 10, and all points
other than these have values of at most 2 (fronts of at least three points; fronts of one or two points have value 10 throughout). -/
theorem C114_crowding_bounds (varC : Bool) (ord : (l : ℕ) → (Fin l → α) → Equiv.Perm (Fin l)) (hord : SortsColumns ord) (F : Fin n → Fin m → α)
    (X : Fin n → Fin v → α) :
    ∃ cr, omoCrowding true varC ord F X = some cr ∧ (n ≤ 2 → ∀ i, cr i = 10) ∧
      (2 < n → ∃ best : Fin m → Fin n, (∀ c i, F (best c) c ≤ F i c) ∧ (∀ c, cr (best c) = 10) ∧ ∀ i, (∀ c, i ≠ best c) → cr i ≤ 2) := by
  obtain ⟨o1, -, o3⟩ := C114_space false ord hord F
  obtain ⟨x1, x2, -⟩ := C114_space true ord hord X
  cases varC with
  | false =>
    refine ⟨omoSpace false ord F, by simp [omoCrowding], o1, fun h => ?_⟩
    obtain ⟨best, b1, b2, b3⟩ := o3 h rfl
    exact ⟨best, b1, b2, fun i hi => (b3 i hi).2⟩
  | true =>
    refine ⟨_, by simp only [omoCrowding]; rfl, ?_, ?_⟩
    · intro h i
      rw [o1 h i, x1 h i]
      simp
    · intro h
      obtain ⟨best, b1, b2, b3⟩ := o3 h rfl
      have x2 := x2 h rfl
      refine ⟨best, b1, ?_, ?_⟩
      · intro c
        have hm : 0 < m := c.pos
        have havg : (((List.finRange n).filter fun i => decide (omoSpace false ord F i ≠ omoBoundary)).map (omoSpace false ord F)).sum / (n : α) / (m : α)
            ≤ 2 := by
          have hnp : (0 : α) < n := by exact_mod_cast (by omega : 0 < n)
          have hmp : (1 : α) ≤ m := by exact_mod_cast hm
          have hle := sum_filter_le (List.finRange n) (fun i => decide (omoSpace false ord F i ≠ omoBoundary)) (omoSpace false ord F) 2 (by norm_num)
            (fun i hi => by
              by_cases hb : ∃ c, i = best c
              · obtain ⟨c, rfl⟩ := hb
                rw [b2 c] at hi
                simp [omoBoundary] at hi
              · exact (b3 i (fun c hc => hb ⟨c, hc⟩)).2)
          rw [List.length_finRange] at hle
          have h1 : (((List.finRange n).filter fun i => decide (omoSpace false ord F i ≠ omoBoundary)).map (omoSpace false ord F)).sum / (n : α) ≤ 2 := by
            rw [div_le_iff₀ hnp]; exact hle
          rw [div_le_iff₀ (by linarith)]
          linarith
        rw [if_pos (Or.inl (by rw [b2 c]; exact lt_of_le_of_lt havg (by norm_num))), b2 c]
        exact max_eq_left ((x2 _).2.trans (by norm_num))
      · intro i hi
        split_ifs
        · exact max_le (b3 i hi).2 (x2 i).2
        · exact (min_le_right _ _).trans (x2 i).2

/-- C114. The combination rule: with both spaces on, each point gets the larger of its two values if it exceeds in one of the spaces the average
(divided once more by the number of dimensions, boundary points left out of the sum but not of the count), else the smaller. Neither space on is an error. -/
theorem C114_combination (ord : (l : ℕ) → (Fin l → α) → Equiv.Perm (Fin l)) (F : Fin n → Fin m → α) (X : Fin n → Fin v → α) :
    omoCrowding false false ord F X = none ∧ omoCrowding true false ord F X = some (omoSpace false ord F) ∧
    omoCrowding false true ord F X = some (omoSpace true ord X) ∧
    ∃ cr, omoCrowding true true ord F X = some cr ∧
      ∀ i, cr i = if (((List.finRange n).filter fun i => decide (omoSpace false ord F i ≠ 10)).map (omoSpace false ord F)).sum / n / m < omoSpace false ord F i ∨
          ((List.finRange n).map (omoSpace true ord X)).sum / n / v < omoSpace true ord X i
        then max (omoSpace false ord F i) (omoSpace true ord X i) else min (omoSpace false ord F i) (omoSpace true ord X i) :=
  ⟨rfl, rfl, rfl, _, rfl, fun i => rfl⟩

/-! ### Survival -/

theorem omoStep_eq (objC varC : Bool) (ord : (l : ℕ) → (Fin l → α) → Equiv.Perm (Fin l)) (F : Fin N → Fin m → α) (X : Fin N → Fin v → α)
    (argsort : (l : ℕ) → (Fin l → α) → List (Fin l)) (P : ℕ → (l : ℕ) → Fin l → Fin l)
    (hsort : ∀ l A, (argsort l A).Perm (List.finRange l) ∧ (argsort l A).Pairwise (fun a b => A a ≤ A b))
    (hP : ∀ k l, Function.Bijective (P k l)) (nSurvive : ℕ) (hcr : objC = true ∨ varC = true) (st : RCState N α) (fk : List (Fin N) × ℕ) :
    omoStep objC varC ord F X argsort P nSurvive st fk =
      some (rcStep (fun i (_ : Fin 1) => i) (fun l R _ => (omoCrowding objC varC ord (fun j : Fin l => F (R j 0)) (fun j : Fin l => X (R j 0))).getD fun _ => 0)
        argsort P nSurvive st fk) := by
  obtain ⟨front, k⟩ := fk
  unfold omoStep rcStep
  dsimp only
  obtain ⟨cr, hc⟩ : ∃ cr, omoCrowding objC varC ord (fun j : Fin front.length => F (front.get j)) (fun j : Fin front.length => X (front.get j)) = some cr := by
    have h4 := C114_combination ord (fun j : Fin front.length => F (front.get j)) (fun j : Fin front.length => X (front.get j))
    obtain ⟨h1, h2, h3, cr, h5, -⟩ := h4
    cases objC <;> cases varC
    · simp at hcr
    · exact ⟨_, h3⟩
    · exact ⟨_, h2⟩
    · exact ⟨_, h5⟩
  rw [hc]
  simp only [Option.map_some, Option.getD_some]
  obtain ⟨-, I, hI, hperm, -⟩ := C38_numpy (argsort front.length) (hsort front.length) (P k front.length) (hP k front.length) cr
  have hlen := hperm.length_eq
  rw [List.length_finRange] at hlen
  have hs := rcSave_survivors front k cr st
  split_ifs with h
  · rw [hI]
    simp only [Option.getD_some, hs, hlen]
    rw [show front.length - (st.survivors.length + front.length - nSurvive) = nSurvive - st.survivors.length by omega]
  · simp only [hs]

theorem rcLoop_sub {β : Type*} [LinearOrder β] {a' : Type*} (F : Fin N → Fin m → a') (crowd : (l : ℕ) → (Fin l → Fin m → a') → ℕ → Fin l → β)
    (argsort : (l : ℕ) → (Fin l → β) → List (Fin l)) (P : ℕ → (l : ℕ) → Fin l → Fin l) (n : ℕ)
    (hsort : ∀ l A, (argsort l A).Perm (List.finRange l) ∧ (argsort l A).Pairwise (fun a b => A a ≤ A b))
    (hP : ∀ k l, Function.Bijective (P k l)) (res : List (List (Fin N))) : ∀ i ∈ (rcLoop F crowd argsort P n res).survivors, i ∈ res.flatten := by
  induction res using List.reverseRecOn with
  | nil => simp [rcLoop, RCState.init]
  | append_singleton p f ih =>
    intro i hi
    rw [rcLoop_concat] at hi
    unfold rcStep at hi
    dsimp only at hi
    rw [List.flatten_append, List.mem_append]
    have key : ∀ l : List (Fin f.length), i ∈ (rcLoop F crowd argsort P n p).survivors ++ l.map f.get → i ∈ p.flatten ∨ i ∈ [f].flatten := by
      intro l h
      rcases List.mem_append.1 h with h | h
      · exact Or.inl (ih i h)
      · obtain ⟨j, -, rfl⟩ := List.mem_map.1 h
        exact Or.inr (by simp)
    split_ifs at hi with h
    · simp only [rcSave_survivors] at hi
      exact key _ hi
    · simp only [rcSave_survivors] at hi
      exact key _ hi

theorem foldlM_some {A B : Type*} (f : B → A → Option B) (g : B → A → B) (h : ∀ b a, f b a = some (g b a)) (l : List A) (b : B) :
    l.foldlM f b = some (l.foldl g b) := by
  induction l generalizing b with
  | nil => rfl
  | cons a l ih => rw [List.foldlM_cons, h, List.foldl_cons, ← ih]; rfl

/-- C114. Survival of the Omni-Optimizer (for any margin, niching in at least one space, any random numbers): exactly `n` distinct points survive;
a survivor's better-ranked rivals in the loose fronts all survive; in the cut front no survivor has a smaller crowding value than a non-survivor;
survivors carry their front number as rank and the crowding value of their front. -/
theorem C114_survival (delta : α) (objC varC : Bool) (hcr : objC = true ∨ varC = true) (ord : (l : ℕ) → (Fin l → α) → Equiv.Perm (Fin l))
    (F : Fin N → Fin m → α) (X : Fin N → Fin v → α) (argsort : (l : ℕ) → (Fin l → α) → List (Fin l)) (P : ℕ → (l : ℕ) → Fin l → Fin l)
    (hsort : ∀ l A, (argsort l A).Perm (List.finRange l) ∧ (argsort l A).Pairwise (fun a b => A a ≤ A b))
    (hP : ∀ k l, Function.Bijective (P k l)) (n : ℕ) (hn : n ≤ N) :
    ∃ st all, omoSurvival delta objC varC ord F X argsort P n = some st ∧ CanonicalFronts (LooselyDominates delta F) all ∧
      st.survivors.length = n ∧ st.survivors.Nodup ∧
      (∀ k l (hk : k < all.length) (hl : l < all.length), k < l → ∀ i ∈ all[l], i ∈ st.survivors → ∀ j ∈ all[k], j ∈ st.survivors) ∧
      (∀ k (hk : k < all.length), ∀ i ∈ all[k], i ∈ st.survivors → ∀ j ∈ all[k], j ∉ st.survivors →
        ∃ ci cj, st.crowding i = some ci ∧ st.crowding j = some cj ∧ cj ≤ ci) ∧
      (∀ k (hk : k < all.length), ∀ i ∈ all[k], i ∈ st.survivors → st.rank i = some k) ∧
      (∀ k (hk : k < all.length) (i : Fin all[k].length), all[k].get i ∈ st.survivors → ∀ j : Fin all[k].length, ∃ cr : Fin all[k].length → α,
        omoCrowding objC varC ord (fun j : Fin all[k].length => F (all[k].get j)) (fun j : Fin all[k].length => X (all[k].get j)) = some cr ∧
        st.crowding (all[k].get j) = some (cr j)) := by
  have hM : ∀ i j, looseMatrix delta F j i = - looseMatrix delta F i j := by
    intro i j
    classical
    rw [looseMatrix_eq, looseMatrix_eq]; ring
  have heq : (fun i j => looseMatrix delta F i j = 1) = LooselyDominates delta F := by
    funext i j; exact propext (C114_loose_matrix delta F i j).1
  obtain ⟨all, res, h1, h2, -, h4⟩ := C10_dominator (fun _ _ => 0) (looseMatrix delta) none N (le_refl N) F hM (heq ▸ C114_loose_order delta F) none (some n)
  rw [heq] at h1
  have hsp := h4 n rfl
  have key := C11_rank_and_crowding _ all res h1 n hn hsp (fun i (_ : Fin 1) => i)
    (fun l R _ => (omoCrowding objC varC ord (fun j : Fin l => F (R j 0)) (fun j : Fin l => X (R j 0))).getD fun _ => 0) argsort P hsort hP
  obtain ⟨k1, k2, k3, k4, k5, k6⟩ := key
  refine ⟨_, all, ?_, h1, k1, k2, k3, k4, k5, ?_⟩
  · rw [omoSurvival, h2, Option.bind_some, foldlM_some _ _ (omoStep_eq objC varC ord F X argsort P hsort hP n hcr)]
    rfl
  · intro k hk i hi j
    have hkl : k < res.length := by
      by_contra hge
      have hr := k5 k hk _ (List.get_mem _ _) hi
      obtain ⟨t, ht⟩ := hsp.isPrefix
      have hres : res ≠ [] := hsp.nonempty (fun h => by simp [h] at hk)
      -- the rank was written by a processed front
      have hmem : all[k].get i ∈ res.flatten := by
        have := rcLoop_sub (fun i (_ : Fin 1) => i)
          (fun l R _ => (omoCrowding objC varC ord (fun j : Fin l => F (R j 0)) (fun j : Fin l => X (R j 0))).getD fun _ => 0) argsort P n hsort hP res _ hi
        exact this
      have hnd := h1.nodup
      rw [← ht, List.flatten_append, List.nodup_append] at hnd
      have hk' : k - res.length < t.length := by
        have : (res ++ t).length = all.length := by rw [ht]
        rw [List.length_append] at this; omega
      have : all[k] = t[k - res.length] := by
        subst ht
        rw [List.getElem_append_right (by omega)]
      have ht' : all[k].get i ∈ t.flatten := List.mem_flatten.2 ⟨t[k - res.length], List.getElem_mem _, by rw [← this]; exact List.get_mem _ _⟩
      exact hnd.2.2 _ hmem _ ht' rfl
    obtain ⟨cr, hc⟩ : ∃ cr, omoCrowding objC varC ord (fun j : Fin all[k].length => F (all[k].get j)) (fun j : Fin all[k].length => X (all[k].get j)) = some cr := by
      obtain ⟨h1, h2, h3, cr, h5, -⟩ := C114_combination ord (fun j : Fin all[k].length => F (all[k].get j)) (fun j : Fin all[k].length => X (all[k].get j))
      cases objC <;> cases varC
      · simp at hcr
      · exact ⟨_, h3⟩
      · exact ⟨_, h2⟩
      · exact ⟨_, h5⟩
    refine ⟨cr, hc, ?_⟩
    have := k6 k hk hkl j
    rw [this]
    simp only [hc, Option.getD_some]

/-- A point that is best in objective `c` is, or is dominated by, a point of the first loose front that is best in it as well. -/
theorem first_front_best (delta : α) (F : Fin N → Fin m → α) (all : List (List (Fin N))) (hall : CanonicalFronts (LooselyDominates delta F) all)
    (hN : 0 < N) (c : Fin m) : ∃ h : 0 < all.length, ∃ i ∈ all[0], ∀ j, F i c ≤ F j c := by
  obtain ⟨a, b, hab, -⟩ := columnNorm_range F c ⟨0, hN⟩
  obtain ⟨y, -, h2, h3⟩ := exists_undominated F (List.finRange N) a (by simp)
  have h0 : 0 < all.length := by
    rcases Nat.eq_zero_or_pos all.length with h0 | h0
    · have := hall.complete y
      rw [List.length_eq_zero_iff.1 h0] at this
      simp at this
    · exact h0
  refine ⟨h0, y, (hall.level 0 h0 y).2 ⟨by simp, fun j hj => absurd hj.1 (h3 j (by simp))⟩, fun j => ?_⟩
  rcases h2 with rfl | h2
  · exact (hab j).1
  · exact (h2.1 c).trans (hab j).1

/-- C114. The extremes are kept: with niching in the objective space, at least as many survivors as objectives and at least two survivors, for every
objective a point with its overall best value survives. -/
theorem C114_extremes (delta : α) (varC : Bool) (ord : (l : ℕ) → (Fin l → α) → Equiv.Perm (Fin l)) (hord : SortsColumns ord)
    (F : Fin N → Fin m → α) (X : Fin N → Fin v → α) (argsort : (l : ℕ) → (Fin l → α) → List (Fin l)) (P : ℕ → (l : ℕ) → Fin l → Fin l)
    (hsort : ∀ l A, (argsort l A).Perm (List.finRange l) ∧ (argsort l A).Pairwise (fun a b => A a ≤ A b))
    (hP : ∀ k l, Function.Bijective (P k l)) (n : ℕ) (hn : n ≤ N) (hm : m ≤ n) (h2 : 2 ≤ n) :
    ∃ st, omoSurvival delta true varC ord F X argsort P n = some st ∧ ∀ c, ∃ i ∈ st.survivors, ∀ j, F i c ≤ F j c := by
  obtain ⟨st, all, s1, s2, s3, s4, s5, s6, s7, s8⟩ := C114_survival delta true varC (Or.inl rfl) ord F X argsort P hsort hP n hn
  refine ⟨st, s1, fun c => ?_⟩
  obtain ⟨h0, i, hi, hbest⟩ := first_front_best delta F all s2 (by omega) c
  by_cases hall : ∀ j ∈ all[0], j ∈ st.survivors
  · exact ⟨i, hall i hi, hbest⟩
  push Not at hall
  obtain ⟨w, hw, hws⟩ := hall
  -- all survivors are in the first front
  have hin : ∀ j ∈ st.survivors, j ∈ all[0] := by
    intro j hj
    obtain ⟨f, hf, hjf⟩ := List.mem_flatten.1 (s2.complete j)
    obtain ⟨l, hl, rfl⟩ := List.mem_iff_getElem.1 hf
    rcases Nat.eq_zero_or_pos l with h | h
    · subst h; exact hjf
    · exact absurd (s5 0 l h0 hl h j hjf hj w hw) hws
  have hnd0 : all[0].Nodup := (List.nodup_flatten.1 s2.nodup).1 _ (List.getElem_mem _)
  have hlen : n < all[0].length := by
    have hsub : (w :: st.survivors).Nodup := List.nodup_cons.2 ⟨hws, s4⟩
    have := (List.subperm_of_subset hsub (fun x hx => by
      rcases List.mem_cons.1 hx with rfl | h
      · exact hw
      · exact hin x h)).length_le
    simp only [List.length_cons] at this
    omega
  obtain ⟨cr, c1, -, c3⟩ := C114_crowding_bounds varC ord hord (fun j : Fin all[0].length => F (all[0].get j)) (fun j : Fin all[0].length => X (all[0].get j))
  obtain ⟨best, b1, b2, b3⟩ := c3 (by omega)
  have hcrowd : ∀ j : Fin all[0].length, st.crowding (all[0].get j) = some (cr j) := by
    intro j
    have hne : st.survivors ≠ [] := by intro h; rw [h] at s3; simp only [List.length_nil] at s3; omega
    obtain ⟨x, hx⟩ := List.exists_mem_of_ne_nil _ hne
    obtain ⟨q, hq⟩ := List.mem_iff_get.1 (hin x hx)
    obtain ⟨cr', e1, e2⟩ := s8 0 h0 q (by rw [hq]; exact hx) j
    rw [c1] at e1
    cases e1
    exact e2
  refine ⟨all[0].get (best c), ?_, ?_⟩
  swap
  · intro j
    obtain ⟨q, hq⟩ := List.mem_iff_get.1 hi
    have := b1 c q
    simp only [hq] at this
    exact this.trans (hbest j)
  by_contra hlost
  -- every survivor is one of the best points, and so is the lost one: too many
  have hbm : ∀ x ∈ st.survivors, x ∈ (List.finRange m).map fun c => all[0].get (best c) := by
    intro x hx
    obtain ⟨q, rfl⟩ := List.mem_iff_get.1 (hin x hx)
    by_contra hno
    obtain ⟨ci, cj, e1, e2, e3⟩ := s6 0 h0 _ (List.get_mem _ _) hx _ (List.get_mem _ _) hlost
    rw [hcrowd] at e1 e2
    cases e1; cases e2
    rw [b2 c] at e3
    have := b3 q (fun c' hc => hno (List.mem_map.2 ⟨c', by simp, by rw [hc]⟩))
    linarith
  have hsub : (all[0].get (best c) :: st.survivors).Nodup := List.nodup_cons.2 ⟨hlost, s4⟩
  have hsubset : (all[0].get (best c) :: st.survivors) ⊆ (List.finRange m).map fun c => all[0].get (best c) := by
    intro x hx
    rcases List.mem_cons.1 hx with rfl | h
    · exact List.mem_map.2 ⟨c, List.mem_finRange c, rfl⟩
    · exact hbm x h
  have := (List.subperm_of_subset hsub hsubset).length_le
  simp only [List.length_cons, List.length_map, List.length_finRange] at this
  omega

/-- C114. The reported optimum (some individual being feasible): exactly the survivors that no point of the sorted population loosely dominates. In
particular every surviving Pareto-optimal point is reported, for every margin. -/
theorem C114_optimum (delta : α) (objC varC : Bool) (hcr : objC = true ∨ varC = true) (ord : (l : ℕ) → (Fin l → α) → Equiv.Perm (Fin l))
    (F : Fin N → Fin m → α) (X : Fin N → Fin v → α) (argsort : (l : ℕ) → (Fin l → α) → List (Fin l)) (P : ℕ → (l : ℕ) → Fin l → Fin l)
    (hsort : ∀ l A, (argsort l A).Perm (List.finRange l) ∧ (argsort l A).Pairwise (fun a b => A a ≤ A b))
    (hP : ∀ k l, Function.Bijective (P k l)) (n : ℕ) (hn : n ≤ N) (hpos : 0 < n) :
    ∃ st, omoSurvival delta objC varC ord F X argsort P n = some st ∧ omoOptimum st ≠ [] ∧
      (∀ i, i ∈ omoOptimum st ↔ i ∈ st.survivors ∧ ∀ j, ¬ LooselyDominates delta F j i) ∧
      (∀ i ∈ st.survivors, (∀ j, ¬ Dominates (F j) (F i)) → i ∈ omoOptimum st) ∧
      (delta = 0 → ∀ i ∈ omoOptimum st, ∀ j, ¬ Dominates (F j) (F i)) ∧
      ((∀ i, (∀ j, ¬ LooselyDominates delta F j i) → i ∈ omoOptimum st) ∨ ∀ i ∈ st.survivors, i ∈ omoOptimum st) := by
  obtain ⟨st, all, s1, s2, s3, s4, s5, s6, s7, s8⟩ := C114_survival delta objC varC hcr ord F X argsort P hsort hP n hn
  have h0 : 0 < all.length := by
    rcases Nat.eq_zero_or_pos all.length with h0 | h0
    · have := s2.complete ⟨0, by omega⟩
      rw [List.length_eq_zero_iff.1 h0] at this
      simp at this
    · exact h0
  have hmem0 : ∀ i, i ∈ all[0] ↔ ∀ j, ¬ LooselyDominates delta F j i := by
    intro i
    rw [s2.level 0 h0 i]
    simp
  have hopt : ∀ i, i ∈ omoOptimum st ↔ i ∈ st.survivors ∧ ∀ j, ¬ LooselyDominates delta F j i := by
    intro i
    unfold omoOptimum
    rw [List.mem_filter, decide_eq_true_eq, ← hmem0]
    refine and_congr_right fun hi => ⟨fun hr => ?_, fun h => s7 0 h0 i h hi⟩
    obtain ⟨f, hf, hjf⟩ := List.mem_flatten.1 (s2.complete i)
    obtain ⟨l, hl, rfl⟩ := List.mem_iff_getElem.1 hf
    have := s7 l hl i hjf hi
    rw [hr] at this
    cases this
    exact hjf
  have hdich : (∀ j ∈ all[0], j ∈ st.survivors) ∨ ∀ i ∈ st.survivors, i ∈ all[0] := by
    by_cases hall : ∀ j ∈ all[0], j ∈ st.survivors
    · exact Or.inl hall
    push Not at hall
    obtain ⟨w, hw, hws⟩ := hall
    refine Or.inr fun j hj => ?_
    obtain ⟨f, hf, hjf⟩ := List.mem_flatten.1 (s2.complete j)
    obtain ⟨l, hl, rfl⟩ := List.mem_iff_getElem.1 hf
    rcases Nat.eq_zero_or_pos l with h | h
    · subst h; exact hjf
    · exact absurd (s5 0 l h0 hl h j hjf hj w hw) hws
  refine ⟨st, s1, ?_, hopt, ?_, ?_, ?_⟩
  · have : ∃ i, i ∈ omoOptimum st := by
      rcases hdich with h | h
      · obtain ⟨i, hi⟩ := List.exists_mem_of_ne_nil _ (s2.nonempty all[0] (List.getElem_mem _))
        exact ⟨i, (hopt i).2 ⟨h i hi, (hmem0 i).1 hi⟩⟩
      · have hne : st.survivors ≠ [] := by intro h; rw [h] at s3; simp only [List.length_nil] at s3; omega
        obtain ⟨i, hi⟩ := List.exists_mem_of_ne_nil _ hne
        exact ⟨i, (hopt i).2 ⟨hi, (hmem0 i).1 (h i hi)⟩⟩
    obtain ⟨i, hi⟩ := this
    exact List.ne_nil_of_mem hi
  · exact fun i hi hu => (hopt i).2 ⟨hi, fun j hj => hu j hj.1⟩
  · rintro rfl i hi j hj
    exact ((hopt i).1 hi).2 j ((C114_delta_zero F j i).2 hj)
  · rcases hdich with h | h
    · exact Or.inl fun i hi => (hopt i).2 ⟨h i ((hmem0 i).2 hi), hi⟩
    · exact Or.inr fun i hi => (hopt i).2 ⟨hi, (hmem0 i).1 (h i hi)⟩

/-! ### Concrete runs and refutations -/

/-- A sorting function for examples: it recognises sorted and reversely sorted columns, so that it can be evaluated. -/
def exOrd (l : ℕ) (col : Fin l → ℚ) : Equiv.Perm (Fin l) :=
  if (∀ a b : Fin l, a ≤ b → col a ≤ col b) then Equiv.refl _
  else if (∀ a b : Fin l, a ≤ b → col (Fin.rev a) ≤ col (Fin.rev b)) then Fin.revPerm
  else Tuple.sort col

theorem exOrd_sorts : SortsColumns exOrd := by
  intro l col a b hab
  unfold exOrd
  split_ifs with h1 h2
  · exact h1 a b hab
  · exact h2 a b hab
  · exact Tuple.monotone_sort col hab

def exArgsort (l : ℕ) (A : Fin l → ℚ) : List (Fin l) := (List.finRange l).insertionSort fun a b => A a ≤ A b

theorem exArgsort_sorts : ∀ l A, (exArgsort l A).Perm (List.finRange l) ∧ (exArgsort l A).Pairwise (fun a b => A a ≤ A b) := by
  intro l A
  have : Std.Total (fun a b : Fin l => A a ≤ A b) := ⟨fun a b => le_total _ _⟩
  have : IsTrans (Fin l) (fun a b : Fin l => A a ≤ A b) := ⟨fun a b c => le_trans⟩
  exact ⟨List.perm_insertionSort _ _, List.pairwise_insertionSort _ _⟩

/-- Objective values of the refutations: three almost equal points and a bad one. -/
def exClose : Fin 4 → Fin 1 → ℚ := ![![0], ![1 / 10000], ![2 / 10000], ![1]]

/-- The hypotheses of the survival theorems hold in a concrete case: three of four points survive, and all three are in the first loose front. -/
example : (omoSurvival (1 / 1000) true true exOrd exClose ![![0], ![1], ![4], ![8]] exArgsort (fun _ _ => id) 3).map
    (fun st => (st.survivors, omoOptimum st, st.rank 3)) = some ([0, 1, 2], [0, 1, 2], none) ∧ SortsColumns exOrd :=
  ⟨by decide +kernel, exOrd_sorts⟩

/-- C114 refuted in full: with the default margin the reported optimum may contain Pareto-dominated solutions of the same population. -/
theorem C114_optimum_refuted : (omoSurvival (1 / 1000) true true exOrd exClose ![![0], ![1], ![4], ![8]] exArgsort (fun _ _ => id) 3).map
    (fun st => (st.survivors, omoOptimum st)) = some ([0, 1, 2], [0, 1, 2]) ∧ Dominates (exClose 0) (exClose 1) ∧ Dominates (exClose 1) (exClose 2) := by
  decide +kernel

/-- C114 refuted in full: with niching in the variable space only, the best solution of a single-objective problem is thrown away in favour of worse ones. -/
theorem C114_extremes_variable_refuted :
    (omoSurvival (1 / 1000) false true exOrd exClose ![![0], ![1], ![4], ![8]] exArgsort (fun _ _ => id) 2).map (fun st => st.survivors) = some [2, 1] ∧
    ∀ j, j ≠ 0 → exClose 0 0 < exClose j 0 := by
  decide +kernel

/-- C114 refuted in full: with a single survivor the best solution may be thrown away. -/
theorem C114_extremes_single_refuted :
    (omoSurvival (1 / 1000) true true exOrd (![![0], ![1 / 10000], ![1]] : Fin 3 → Fin 1 → ℚ) ![![0], ![1], ![4]] exArgsort (fun _ _ => id) 1).map
      (fun st => st.survivors) = some [1] := by
  decide +kernel

/-- C114 refuted in full ("less crowded than the average of the front in either space": the larger value, otherwise the smaller): a point that is more
crowded than the average in both spaces gets the larger value. -/
theorem C114_average_refuted :
    ∃ (F X : Fin 4 → Fin 2 → ℚ) (cr : Fin 4 → ℚ), omoCrowding true true exOrd F X = some cr ∧
      omoSpace false exOrd F 2 < ((List.finRange 4).map (omoSpace false exOrd F)).sum / 4 ∧
      omoSpace false exOrd F 2 < (((List.finRange 4).filter fun i => decide (omoSpace false exOrd F i ≠ 10)).map (omoSpace false exOrd F)).sum / 4 ∧
      omoSpace true exOrd X 2 < ((List.finRange 4).map (omoSpace true exOrd X)).sum / 4 ∧
      cr 2 = max (omoSpace false exOrd F 2) (omoSpace true exOrd X 2) ∧ cr 2 ≠ min (omoSpace false exOrd F 2) (omoSpace true exOrd X 2) :=
  ⟨![![0, 9], ![5, 3], ![6, 2], ![7, 1]], ![![2, 0], ![3, 4], ![5, 6], ![8, 7]], _, rfl, by decide +kernel, by decide +kernel, by decide +kernel,
    by decide +kernel, by decide +kernel⟩

/-! ### Restricted mating -/

theorem omoArgmin_spec : ∀ (l : List α), l ≠ [] → ∃ h : omoArgmin l < l.length, ∀ y ∈ l, l[omoArgmin l] ≤ y
  | [], h => absurd rfl h
  | [x], _ => ⟨by simp [omoArgmin], fun y hy => by simp at hy; simp [omoArgmin, hy]⟩
  | x :: y :: l, _ => by
    obtain ⟨h1, h2⟩ := omoArgmin_spec (y :: l) (by simp)
    by_cases hlt : (y :: l).getD (omoArgmin (y :: l)) x < x
    · have he : omoArgmin (x :: y :: l) = omoArgmin (y :: l) + 1 := by
        rw [omoArgmin]; exact if_pos hlt
      rw [List.getD_eq_getElem _ _ h1] at hlt
      refine ⟨by rw [he]; simpa using h1, fun z hz => ?_⟩
      simp only [he, List.getElem_cons_succ]
      rcases List.mem_cons.1 hz with rfl | hz
      · exact hlt.le
      · exact h2 z hz
    · have he : omoArgmin (x :: y :: l) = 0 := by
        rw [omoArgmin]; exact if_neg hlt
      rw [List.getD_eq_getElem _ _ h1] at hlt
      refine ⟨by rw [he]; simp, fun z hz => ?_⟩
      simp only [he, List.getElem_cons_zero]
      rcases List.mem_cons.1 hz with rfl | hz
      · exact le_refl _
      · exact (not_lt.1 hlt).trans (h2 z hz)

/-- C114. The distance of the restricted mating: the sum over the variables of the squared difference relative to the range of the variable in the
population (the plain squared difference, zero, for a constant variable). -/
theorem C114_distance (X : Fin n → Fin v → α) (p q : Fin n) (r : Fin v → α) (hr : ∀ c, ObjRange X c (r c)) :
    omoDist (omoNormalize X) p q = ∑ c, (if r c = 0 then 0 else ((X q c - X p c) / r c) ^ 2) := by
  unfold omoDist
  rw [sum_map_finRange]
  refine Finset.sum_congr rfl fun c _ => ?_
  have hn : omoNormalize X q c - omoNormalize X p c = (X q c - X p c) / (if r c = 0 then 1 else r c) := by
    have hcn := objRange_unique (columnNorm_range X c p) (hr c)
    unfold columnNorm at hcn
    unfold omoNormalize
    dsimp only
    rw [hcn, ← sub_div]
    congr 1
    ring
  rw [hn]
  split_ifs with h
  · obtain ⟨a, b, hab, hrb⟩ := hr c
    have h1 : X a c = X b c := by
      rw [h] at hrb
      exact (sub_eq_zero.1 hrb.symm).symm
    have hp := hab p
    have hq := hab q
    have e1 : X p c = X a c := le_antisymm (h1 ▸ hp.2) hp.1
    have e2 : X q c = X a c := le_antisymm (h1 ▸ hq.2) hq.1
    rw [e1, e2]; simp
  · rfl

/-- The solutions taking part in some tournaments. -/
def competitors (ps : List (Fin n × Fin n)) : List (Fin n) := ps.flatMap fun pq => [pq.1, pq.2]

theorem omoPass_spec (Xn : Fin n → Fin v → α) : ∀ (left : ℕ) (rem : List (Fin n)), rem.Nodup →
    (omoPass Xn left rem).length = min left (rem.length / 2) ∧ (competitors (omoPass Xn left rem)).Nodup ∧
    (∀ x ∈ competitors (omoPass Xn left rem), x ∈ rem) ∧
    ∀ t (ht : t < (omoPass Xn left rem).length), ∀ x ∈ rem, x ∉ competitors ((omoPass Xn left rem).take t) → x ≠ (omoPass Xn left rem)[t].1 →
      omoDist Xn (omoPass Xn left rem)[t].1 (omoPass Xn left rem)[t].2 ≤ omoDist Xn (omoPass Xn left rem)[t].1 x
  | 0, rem, _ => by rw [omoPass]; simp [competitors]
  | left + 1, [], _ => by rw [omoPass]; simp [competitors]
  | left + 1, [a], _ => by rw [omoPass]; simp [competitors]
  | left + 1, p :: q0 :: rest, hnd => by
    obtain ⟨hlt, hmin⟩ := omoArgmin_spec ((q0 :: rest).map (omoDist Xn p)) (by simp)
    rw [omoPass]
    generalize hk : omoArgmin ((q0 :: rest).map (omoDist Xn p)) = nn at hlt hmin
    rw [List.length_map] at hlt
    have hnd' : (q0 :: rest).Nodup := (List.nodup_cons.1 hnd).2
    have hperm : ((q0 :: rest)[nn] :: (q0 :: rest).eraseIdx nn).Perm (q0 :: rest) := List.getElem_cons_eraseIdx_perm hlt
    obtain ⟨i1, i2, i3, i4⟩ := omoPass_spec Xn left ((q0 :: rest).eraseIdx nn) (hnd'.sublist (List.eraseIdx_sublist _ _))
    rw [List.getD_eq_getElem _ _ hlt]
    have hsub : ∀ x ∈ (q0 :: rest).eraseIdx nn, x ∈ q0 :: rest := fun x hx => (List.eraseIdx_sublist _ _).subset hx
    have hp : p ∉ q0 :: rest := (List.nodup_cons.1 hnd).1
    have hq : (q0 :: rest)[nn] ∉ (q0 :: rest).eraseIdx nn := (List.nodup_cons.1 (hperm.nodup_iff.2 hnd')).1
    have hcons : ∀ l, competitors ((p, (q0 :: rest)[nn]) :: l) = p :: (q0 :: rest)[nn] :: competitors l := by
      intro l; simp [competitors]
    have hqm : (q0 :: rest)[nn] ∈ q0 :: rest := List.getElem_mem _
    refine ⟨?_, ?_, ?_, ?_⟩
    · rw [List.length_cons, i1, List.length_eraseIdx_of_lt hlt]
      simp only [List.length_cons]
      omega
    · rw [hcons, List.nodup_cons, List.nodup_cons]
      refine ⟨?_, fun h => hq (i3 _ h), i2⟩
      rw [List.mem_cons]
      rintro (h | h)
      · exact hp (h ▸ hqm)
      · exact hp (hsub _ (i3 _ h))
    · intro x hx
      rw [hcons] at hx
      rcases List.mem_cons.1 hx with rfl | hx
      · exact List.mem_cons_self
      · rcases List.mem_cons.1 hx with rfl | hx
        · exact List.mem_cons_of_mem _ hqm
        · exact List.mem_cons_of_mem _ (hsub _ (i3 _ hx))
    · intro t ht x hx hc hne
      cases t with
      | zero =>
        simp only [List.getElem_cons_zero] at hne ⊢
        rcases List.mem_cons.1 hx with rfl | hx
        · exact absurd rfl hne
        · have := hmin _ (List.mem_map.2 ⟨x, hx, rfl⟩)
          rw [List.getElem_map] at this
          exact this
      | succ t =>
        simp only [List.getElem_cons_succ] at hne ⊢
        rw [List.take_succ_cons, hcons] at hc
        simp only [List.mem_cons, not_or] at hc
        rcases List.mem_cons.1 hx with h | hx
        · exact absurd h hc.1
        · have : x ∈ (q0 :: rest).eraseIdx nn := by
            rcases List.mem_cons.1 (hperm.mem_iff.2 hx) with h | h
            · exact absurd h hc.2.1
            · exact h
          exact i4 t (by simpa using ht) x this hc.2.2 hne

theorem omoPairs_spec (Xn : Fin n → Fin v → α) (perms : ℕ → List (Fin n)) (hp : ∀ k, (perms k).Perm (List.finRange n)) (hn : 2 ≤ n) :
    ∀ fuel k left, left ≤ fuel → ∃ passes, omoPairs Xn perms fuel k left = some passes ∧ passes.flatten.length = left ∧
      ∀ j (hj : j < passes.length), passes[j] = omoPass Xn (left - j * (n / 2)) (perms (k + j)) := by
  intro fuel
  induction fuel with
  | zero =>
    intro k left h
    have : left = 0 := by omega
    subst this
    exact ⟨[], by rw [omoPairs]; simp, rfl, fun j hj => absurd hj (by simp)⟩
  | succ fuel ih =>
    intro k left h
    rw [omoPairs]
    by_cases h0 : left = 0
    · rw [if_pos h0]
      exact ⟨[], rfl, h0.symm, fun j hj => absurd hj (by simp)⟩
    · rw [if_neg h0]
      dsimp only
      have hl := (omoPass_spec Xn left (perms k) ((hp k).nodup_iff.2 (List.nodup_finRange n))).1
      rw [(hp k).length_eq, List.length_finRange] at hl
      obtain ⟨ps, e1, e2, e3⟩ := ih (k + 1) (left - (omoPass Xn left (perms k)).length) (by omega)
      rw [e1]
      refine ⟨_, rfl, ?_, ?_⟩
      · rw [List.flatten_cons, List.length_append, e2]; omega
      · intro j hj
        cases j with
        | zero => simp
        | succ j =>
          rw [List.getElem_cons_succ, e3 j (by simpa using hj), Nat.succ_mul]
          rcases Nat.le_total left (n / 2) with hle | hle
          · rw [hl, Nat.min_eq_left hle]
            rw [show left - left - j * (n / 2) = 0 by omega, show left - (j * (n / 2) + n / 2) = 0 by omega]
            rw [omoPass, omoPass]
          · rw [hl, Nat.min_eq_right hle, show left - n / 2 - j * (n / 2) = left - (j * (n / 2) + n / 2) by omega, show k + 1 + j = k + (j + 1) by omega]

/-- C114. Restricted mating (at least two individuals, any random permutations): `n_select * n_parents` tournaments are held, in passes of `n / 2`
disjoint pairs (the last may be shorter); the second competitor of a pair is a nearest neighbour of the first (squared distance of the normalised
variables) among the individuals that have not yet competed in the pass. -/
theorem C114_pairs (X : Fin n → Fin v → α) (perms : ℕ → List (Fin n)) (hp : ∀ k, (perms k).Perm (List.finRange n)) (hn : 2 ≤ n)
    (fuel total : ℕ) (hf : total ≤ fuel) :
    ∃ passes, omoPairs (omoNormalize X) perms fuel 0 total = some passes ∧ passes.flatten.length = total ∧
      ∀ j (hj : j < passes.length), passes[j].length = min (total - j * (n / 2)) (n / 2) ∧ (competitors passes[j]).Nodup ∧
        ∀ t (ht : t < passes[j].length), passes[j][t].1 ≠ passes[j][t].2 ∧
          ∀ x, x ∉ competitors (passes[j].take t) → x ≠ passes[j][t].1 →
            omoDist (omoNormalize X) passes[j][t].1 passes[j][t].2 ≤ omoDist (omoNormalize X) passes[j][t].1 x := by
  obtain ⟨passes, e1, e2, e3⟩ := omoPairs_spec (omoNormalize X) perms hp hn fuel 0 total hf
  refine ⟨passes, e1, e2, fun j hj => ?_⟩
  obtain ⟨s1, s2, s3, s4⟩ := omoPass_spec (omoNormalize X) (total - j * (n / 2)) (perms (0 + j)) ((hp _).nodup_iff.2 (List.nodup_finRange n))
  rw [← e3 j hj] at s1 s2 s3
  refine ⟨by rw [s1, (hp _).length_eq, List.length_finRange], s2, fun t ht => ⟨?_, ?_⟩⟩
  · intro heq
    have hsub : [passes[j][t].1, passes[j][t].2].Sublist (competitors passes[j]) := by
      have : [passes[j][t]].Sublist passes[j] := List.singleton_sublist.2 (List.getElem_mem _)
      have := this.flatMap (fun pq => [pq.1, pq.2])
      simpa [competitors] using this
    have := s2.sublist hsub
    rw [heq] at this
    simp at this
  · intro x hx hne
    have hgen : ∀ L : List (Fin n × Fin n), passes[j] = L → (∀ t (ht : t < L.length), ∀ x ∈ perms (0 + j), x ∉ competitors (L.take t) → x ≠ L[t].1 →
        omoDist (omoNormalize X) L[t].1 L[t].2 ≤ omoDist (omoNormalize X) L[t].1 x) →
        omoDist (omoNormalize X) passes[j][t].1 passes[j][t].2 ≤ omoDist (omoNormalize X) passes[j][t].1 x := by
      rintro L rfl h
      exact h t ht x ((hp _).mem_iff.2 (List.mem_finRange x)) hx hne
    exact hgen _ (e3 j hj) s4

/-- C114 refuted in full: a population with fewer than two individuals makes the selection run forever. -/
theorem C114_selection_refuted (X : Fin n → Fin v → α) (perms : ℕ → List (Fin n)) (hp : ∀ k, (perms k).Perm (List.finRange n)) (hn : n < 2)
    (nSelect nParents : ℕ) (hpos : 0 < nSelect * nParents) (comp : ℕ → ℕ → ℕ → Option ℕ) (fuel : ℕ) :
    omoSelect X perms fuel nSelect nParents comp = none := by
  have key : ∀ fuel k left, 0 < left → omoPairs (omoNormalize X) perms fuel k left = none := by
    intro fuel
    induction fuel with
    | zero => intro k left h; rw [omoPairs, if_neg (by omega)]
    | succ fuel ih =>
      intro k left h
      rw [omoPairs, if_neg (by omega)]
      dsimp only
      have hl := (omoPass_spec (omoNormalize X) left (perms k) ((hp k).nodup_iff.2 (List.nodup_finRange n))).1
      rw [(hp k).length_eq, List.length_finRange] at hl
      rw [ih _ _ (by omega)]
      rfl
  rw [omoSelect, key _ _ _ hpos]
  rfl

/-- C114. The selected parents: as many matings and parents as asked for, each the winner of its tournament. -/
theorem C114_selection (X : Fin n → Fin v → α) (perms : ℕ → List (Fin n)) (hp : ∀ k, (perms k).Perm (List.finRange n)) (hn : 2 ≤ n)
    (nSelect nParents fuel : ℕ) (hf : nSelect * nParents ≤ fuel) (comp : ℕ → ℕ → ℕ → Option ℕ)
    (hc : ∀ i a b, comp i a b = some a ∨ comp i a b = some b) :
    ∃ passes S, omoPairs (omoNormalize X) perms fuel 0 (nSelect * nParents) = some passes ∧
      omoSelect X perms fuel nSelect nParents comp = some S ∧ S.length = nSelect ∧ (∀ row ∈ S, row.length = nParents) ∧
      ∀ s < nSelect, ∀ p < nParents, ∃ pq w, passes.flatten[s * nParents + p]? = some pq ∧
        (S[s]?.bind fun row => row[p]?) = some w ∧ comp (s * nParents + p) pq.1.val pq.2.val = some w ∧ (w = pq.1.val ∨ w = pq.2.val) := by
  obtain ⟨passes, e1, e2, -⟩ := C114_pairs X perms hp hn fuel (nSelect * nParents) hf
  obtain ⟨W, w1, w2, w3⟩ := runTournaments_spec comp (passes.flatten.map fun pq => [pq.1.val, pq.2.val]) 0
    (fun row hrow => by obtain ⟨pq, -, rfl⟩ := List.mem_map.1 hrow; rfl) hc
  rw [List.length_map] at w2 w3
  have hrowlen : ∀ s < nSelect, s * nParents + nParents ≤ W.length := by
    intro s hs
    rw [w2, e2, ← Nat.succ_mul]
    exact Nat.mul_le_mul_right nParents hs
  refine ⟨passes, reshapeRows W nSelect nParents, e1, by rw [omoSelect, e1, Option.bind_some, w1]; rfl, by simp [reshapeRows], ?_, ?_⟩
  · intro row hrow
    obtain ⟨s, hs, rfl⟩ := List.mem_map.1 hrow
    have := hrowlen s (List.mem_range.1 hs)
    rw [List.length_take, List.length_drop]
    omega
  · intro s hs p hp'
    have hlt : s * nParents + p < passes.flatten.length := by have := hrowlen s hs; omega
    obtain ⟨a, b, w, f1, f2, f3, f4⟩ := w3 _ hlt
    rw [List.getElem?_map, Option.map_eq_some_iff] at f1
    obtain ⟨pq, g1, g2⟩ := f1
    cases g2
    refine ⟨pq, w, g1, ?_, by simpa using f3, f4⟩
    have : (reshapeRows W nSelect nParents)[s]? = some ((W.drop (s * nParents)).take nParents) := by
      simp [reshapeRows, List.getElem?_map, List.getElem?_range, hs]
    rw [this]
    simp only [Option.bind_some, List.getElem?_take, if_pos hp', List.getElem?_drop]
    exact f2

/-- Five individuals, three tournaments: two pairs in the first pass (the individual left over does not compete), one in the second. -/
example : omoPairs (omoNormalize (![![0], ![1], ![5], ![6], ![9]] : Fin 5 → Fin 1 → ℚ)) (fun k => if k = 0 then [2, 0, 3, 1, 4] else [4, 1, 2, 3, 0]) 5 0 3 =
    some [[(2, 3), (0, 1)], [(4, 3)]] ∧
    omoSelect (![![0], ![1], ![5], ![6], ![9]] : Fin 5 → Fin 1 → ℚ) (fun k => if k = 0 then [2, 0, 3, 1, 4] else [4, 1, 2, 3, 0]) 5 3 1
      (fun _ a b => some (min a b)) = some [[2], [0], [3]] := by decide +kernel

end Props
