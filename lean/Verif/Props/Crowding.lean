import Verif.Lemmas.Crowding
import Mathlib.Data.Rat.Defs
import Mathlib.Algebra.Order.Ring.Rat
import Mathlib.Algebra.Field.Rat

/-! # C13: crowding distance -/

namespace Props
open Model Lemmas
variable {α : Type*} [Field α] [LinearOrder α] [IsStrictOrderedRing α] {n m : ℕ}

/-- C13. Every crowding distance is non-negative (`np.inf` being the largest value). -/
theorem C13_nonneg (I : Fin m → Equiv.Perm (Fin n)) (F : Fin n → Fin m → α)
    (hs : ∀ c k l, k ≤ l → F (I c k) c ≤ F (I c l) c) (i : Fin n) : 0 ≤ crowdingDistance I F i := by
  have hn : 0 < n := i.pos
  unfold crowdingDistance
  have hsum : 0 ≤ ((List.finRange m).map fun c =>
      divNorm (columnNorm fun k => F (I c k) c) (distToLast (fun k => F (I c k) c) ((I c).symm i)) +
      divNorm (columnNorm fun k => F (I c k) c) (distToNext (fun k => F (I c k) c) ((I c).symm i))).sum := by
    apply List.sum_nonneg
    intro x hx
    obtain ⟨c, _, rfl⟩ := List.mem_map.1 hx
    have h0 := columnNorm_nonneg _ (hs c) hn
    exact add_nonneg (divNorm_nonneg h0 (distToLast_nonneg _ (hs c) _))
      (divNorm_nonneg h0 (distToNext_nonneg _ (hs c) _))
  revert hsum
  generalize ((List.finRange m).map fun c =>
      divNorm (columnNorm fun k => F (I c k) c) (distToLast (fun k => F (I c k) c) ((I c).symm i)) +
      divNorm (columnNorm fun k => F (I c k) c) (distToNext (fun k => F (I c k) c) ((I c).symm i))).sum = s
  intro hsum
  simp only
  cases s with
  | top => simp
  | coe s =>
    have : 0 ≤ s := by exact_mod_cast hsum
    have : 0 ≤ s / (m : α) := div_nonneg this (Nat.cast_nonneg m)
    simpa using this

/-- C13. In an objective whose values are not all equal, the points sorted first and last get an infinite
crowding distance. -/
theorem C13_extremes (I : Fin m → Equiv.Perm (Fin n)) (F : Fin n → Fin m → α)
    (hs : ∀ c k l, k ≤ l → F (I c k) c ≤ F (I c l) c) (c : Fin m) (a b : Fin n) (hab : F a c ≠ F b c)
    (k : Fin n) (hk : k.val = 0 ∨ k.val + 1 = n) : crowdingDistance I F (I c k) = ⊤ := by
  have hn : 0 < n := k.pos
  unfold crowdingDistance
  simp only
  rw [sum_top]
  · rfl
  · refine List.mem_map.2 ⟨c, List.mem_finRange c, ?_⟩
    have hnorm : columnNorm (fun k => F (I c k) c) ≠ 0 := by
      rw [Ne, columnNorm_eq_zero _ (hs c) hn]
      intro h
      have := h ((I c).symm a) ((I c).symm b)
      simp only [Equiv.apply_symm_apply] at this
      exact hab this
    simp only [Equiv.symm_apply_apply, divNorm, if_neg hnorm]
    rcases hk with hk | hk
    · have : distToLast (fun k => F (I c k) c) k = ⊤ := by simp [distToLast, hk]
      rw [this]; simp
    · have : distToNext (fun k => F (I c k) c) k = ⊤ := by
        unfold distToNext; rw [dif_neg (by omega)]
      rw [this]; simp

/-- C13. In particular, however ties are sorted: in every objective with spread some point of minimal value and
some point of maximal value have infinite crowding distance, and a point that is the only minimiser (or the only
maximiser) of the objective has infinite crowding distance. -/
theorem C13_boundary (I : Fin m → Equiv.Perm (Fin n)) (F : Fin n → Fin m → α)
    (hs : ∀ c k l, k ≤ l → F (I c k) c ≤ F (I c l) c) (c : Fin m) (a b : Fin n) (hab : F a c ≠ F b c) :
    (∃ i, (∀ j, F i c ≤ F j c) ∧ crowdingDistance I F i = ⊤) ∧
    (∃ i, (∀ j, F j c ≤ F i c) ∧ crowdingDistance I F i = ⊤) ∧
    (∀ i, (∀ j, j ≠ i → F i c < F j c) → crowdingDistance I F i = ⊤) ∧
    (∀ i, (∀ j, j ≠ i → F j c < F i c) → crowdingDistance I F i = ⊤) := by
  have hn : 0 < n := a.pos
  have hmin : ∀ j, F (I c ⟨0, hn⟩) c ≤ F j c := by
    intro j
    have := hs c ⟨0, hn⟩ ((I c).symm j) (by rw [Fin.le_def]; simp only; omega)
    simpa using this
  have hmax : ∀ j, F j c ≤ F (I c ⟨n - 1, by omega⟩) c := by
    intro j
    have := hs c ((I c).symm j) ⟨n - 1, by omega⟩ (by rw [Fin.le_def]; simp only; omega)
    simpa using this
  have e1 := C13_extremes I F hs c a b hab ⟨0, hn⟩ (.inl rfl)
  have e2 := C13_extremes I F hs c a b hab ⟨n - 1, by omega⟩ (.inr (by simp only; omega))
  refine ⟨⟨_, hmin, e1⟩, ⟨_, hmax, e2⟩, fun i hi => ?_, fun i hi => ?_⟩
  · have : I c ⟨0, hn⟩ = i := by
      by_contra hne
      exact absurd (hmin i) (not_le.2 (hi _ hne))
    rw [← this]; exact e1
  · have : I c ⟨n - 1, by omega⟩ = i := by
      by_contra hne
      exact absurd (hmax i) (not_le.2 (hi _ hne))
    rw [← this]; exact e2

/-- C13. The value of a point that is interior in every objective with spread: the mean over the objectives of
(next value - previous value) / (maximum - minimum), an objective without spread contributing `0`. `prev c` and
`next c` are the points sorted directly before and after it in objective `c`; `lo`, `hi` are extreme points. -/
theorem C13_formula (I : Fin m → Equiv.Perm (Fin n)) (F : Fin n → Fin m → α)
    (hs : ∀ c k l, k ≤ l → F (I c k) c ≤ F (I c l) c) (i : Fin n) (prev next lo hi : Fin m → Fin n)
    (hprev : ∀ c, (∃ a b, F a c ≠ F b c) → ((I c).symm (prev c)).val + 1 = ((I c).symm i).val)
    (hnext : ∀ c, (∃ a b, F a c ≠ F b c) → ((I c).symm i).val + 1 = ((I c).symm (next c)).val)
    (hlo : ∀ c j, F (lo c) c ≤ F j c) (hhi : ∀ c j, F j c ≤ F (hi c) c) :
    crowdingDistance I F i = (((∑ c : Fin m, (if F (lo c) c = F (hi c) c then 0 else
      (F (next c) c - F (prev c) c) / (F (hi c) c - F (lo c) c))) / (m : α) : α) : WithTop α) := by
  have hn : 0 < n := i.pos
  unfold crowdingDistance
  simp only
  have key : ((List.finRange m).map fun c =>
      divNorm (columnNorm fun k => F (I c k) c) (distToLast (fun k => F (I c k) c) ((I c).symm i)) +
      divNorm (columnNorm fun k => F (I c k) c) (distToNext (fun k => F (I c k) c) ((I c).symm i))) =
      ((List.finRange m).map fun c => (if F (lo c) c = F (hi c) c then 0 else
        (F (next c) c - F (prev c) c) / (F (hi c) c - F (lo c) c))).map (fun x : α => (x : WithTop α)) := by
    rw [List.map_map]
    refine List.map_congr_left fun c _ => ?_
    simp only [Function.comp]
    have hnorm : columnNorm (fun k => F (I c k) c) = F (hi c) c - F (lo c) c := by
      rw [columnNorm_sorted _ (hs c) hn]
      have h1 : F (I c ⟨n - 1, by omega⟩) c = F (hi c) c := by
        refine le_antisymm (hhi c _) ?_
        have := hs c ((I c).symm (hi c)) ⟨n - 1, by omega⟩ (by rw [Fin.le_def]; simp only; omega)
        simpa using this
      have h2 : F (I c ⟨0, hn⟩) c = F (lo c) c := by
        refine le_antisymm ?_ (hlo c _)
        have := hs c ⟨0, hn⟩ ((I c).symm (lo c)) (by rw [Fin.le_def]; simp only; omega)
        simpa using this
      rw [h1, h2]
    rw [hnorm]
    by_cases hz : F (lo c) c = F (hi c) c
    · simp [divNorm, hz]
    · have hz' : F (hi c) c - F (lo c) c ≠ 0 := fun h => hz (sub_eq_zero.1 h).symm
      have hp := hprev c ⟨_, _, hz⟩
      have hx := hnext c ⟨_, _, hz⟩
      have e1 : (⟨((I c).symm i).val - 1, by omega⟩ : Fin n) = (I c).symm (prev c) := Fin.ext (by simp only; omega)
      have e2 : (⟨((I c).symm i).val + 1, by rw [hx]; exact Fin.isLt _⟩ : Fin n) = (I c).symm (next c) :=
        Fin.ext (by simp only; omega)
      have d1 : distToLast (fun k => F (I c k) c) ((I c).symm i) = ((F i c - F (prev c) c : α) : WithTop α) := by
        unfold distToLast
        rw [dif_neg (by omega), e1]; simp
      have d2 : distToNext (fun k => F (I c k) c) ((I c).symm i) = ((F (next c) c - F i c : α) : WithTop α) := by
        unfold distToNext
        rw [dif_pos (by rw [hx]; exact Fin.isLt _), e2]; simp
      rw [d1, d2, if_neg hz]
      simp only [divNorm, if_neg hz', WithTop.map_coe]
      rw [← WithTop.coe_add]
      congr 1
      ring
  rw [key, sum_coe, WithTop.map_coe, ← List.sum_ofFn, List.ofFn_eq_map]

/-- A front of at most two points gets infinite values under the metric `"cd"`; larger fronts get the crowding
distance. -/
theorem C13_small_front (I : Fin m → Equiv.Perm (Fin n)) (F : Fin n → Fin m → α) (i : Fin n) :
    (n ≤ 2 → crowdingCd I F i = ⊤) ∧ (2 < n → crowdingCd I F i = crowdingDistance I F i) := by
  unfold crowdingCd
  exact ⟨fun h => if_pos h, fun h => if_neg (by omega)⟩

/-- Four points on a line in two objectives: the two outer ones are infinite, the inner ones finite. -/
example : let F : Fin 4 → Fin 2 → ℚ := ![![0, 4], ![1, 3], ![3, 1], ![4, 0]]
    let I : Fin 2 → Equiv.Perm (Fin 4) := ![Equiv.refl _, Fin.revPerm]
    (∀ c k l, k ≤ l → F (I c k) c ≤ F (I c l) c) ∧
    crowdingCd I F 0 = ⊤ ∧ crowdingCd I F 1 = ((3 / 4 : ℚ) : WithTop ℚ) ∧ crowdingCd I F 3 = ⊤ := by
  decide +kernel

end Props
