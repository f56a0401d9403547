import Verif.Model.AgeScore
import Verif.Props.CTAEA
import Verif.Props.Optimum
import Mathlib.Analysis.MeanInequalitiesPow
import Mathlib.Analysis.MeanInequalities
import Mathlib.Data.Fin.VecNotation
import Mathlib.Tactic.Ring
import Mathlib.Tactic.Linarith
import Mathlib.Tactic.FieldSimp
import Mathlib.Tactic.NormNum

/-!
# C127: the survival score of AGE-MOEA and AGE-MOEA-II
-/

set_option linter.unusedSimpArgs false
set_option linter.unusedVariables false
set_option linter.unusedSectionVars false

namespace Props
open Model Finset

section Field
variable {K : Type*} [Field K] [LinearOrder K] [IsStrictOrderedRing K] {n : ℕ}

theorem dot_self_pos (B : Fin n → K) (hB : B ≠ 0) : 0 < ∑ k, B k * B k := by
  obtain ⟨k, hk⟩ := Function.ne_iff.1 hB
  exact Finset.sum_pos' (fun i _ => mul_self_nonneg _) ⟨k, Finset.mem_univ k, mul_self_pos.2 hk⟩

/-- C127: `point_2_line_distance` is the least squared distance of the point to a point of the line through the origin. -/
theorem C127_line (P B : Fin n → K) (hB : B ≠ 0) : IsLeast {d | ∃ t : K, d = ∑ k, (P k - t * B k) ^ 2} (pointLine P B) := by
  refine ⟨⟨_, rfl⟩, ?_⟩
  rintro d ⟨t, rfl⟩
  have hpos := dot_self_pos B hB
  have expand : ∀ s : K, ∑ k, (P k - s * B k) ^ 2 = ∑ k, P k ^ 2 - 2 * s * (∑ k, P k * B k) + s ^ 2 * ∑ k, B k * B k := by
    intro s
    rw [Finset.mul_sum, Finset.mul_sum, ← Finset.sum_sub_distrib, ← Finset.sum_add_distrib]
    exact Finset.sum_congr rfl fun k _ => by ring
  unfold pointLine
  simp only [expand]
  set b := ∑ k, B k * B k
  set a := ∑ k, P k * B k
  have key : (∑ k, P k ^ 2 - 2 * t * a + t ^ 2 * b) - (∑ k, P k ^ 2 - 2 * (a / b) * a + (a / b) ^ 2 * b) = (t - a / b) ^ 2 * b := by
    have : b ≠ 0 := hpos.ne'
    field_simp; ring
  have := mul_nonneg (sq_nonneg (t - a / b)) hpos.le
  linarith

theorem ageAxis_ne (i : Fin n) : (ageAxis i : Fin n → K) ≠ 0 := by
  intro h
  have := congrFun h i
  unfold ageAxis at this
  simp at this
  have h2 : (0 : K) < (1000000 : K)⁻¹ + 1 := by positivity
  exact h2.ne' this

theorem npArgmin_least {ι : Type*} (f : ι → K) (l : List ι) (hl : l ≠ []) : ∃ x, npArgmin f l = some x ∧ x ∈ l ∧ ∀ y ∈ l, f x ≤ f y := by
  cases l with
  | nil => exact absurd rfl hl
  | cons a xs =>
    clear hl
    have : ∀ (xs : List ι) (a : ι), let x := xs.foldl (fun best y => if f y < f best then y else best) a; x ∈ a :: xs ∧ ∀ y ∈ a :: xs, f x ≤ f y := by
      intro xs
      induction xs with
      | nil => intro a; simp
      | cons b xs ih =>
        intro a
        simp only [List.foldl_cons]
        by_cases h : f b < f a
        · rw [if_pos h]
          obtain ⟨h1, h2⟩ := ih b
          refine ⟨List.mem_cons_of_mem _ h1, fun y hy => ?_⟩
          rcases List.mem_cons.1 hy with rfl | hy
          · exact (h2 b (by simp)).trans h.le
          · exact h2 y hy
        · rw [if_neg h]
          obtain ⟨h1, h2⟩ := ih a
          refine ⟨?_, fun y hy => ?_⟩
          · rcases List.mem_cons.1 h1 with h1 | h1
            · rw [h1]; simp
            · simp [h1]
          · rcases List.mem_cons.1 hy with rfl | hy
            · exact h2 y (by simp)
            · rcases List.mem_cons.1 hy with rfl | hy
              · exact (h2 a (by simp)).trans (not_lt.1 h)
              · exact h2 y (by simp [hy])
    obtain ⟨h1, h2⟩ := this xs a
    exact ⟨_, rfl, h1, h2⟩

theorem cornersFrom_spec (m : ℕ) (front : ℕ → Fin n → K) (axes : List (Fin n)) (sel : List ℕ) (hnd : sel.Nodup) (hlt : ∀ j ∈ sel, j < m) (hroom : sel.length + axes.length ≤ m) :
    ∃ l, ageCornersFrom m front axes sel = some (sel ++ l) ∧ (sel ++ l).Nodup ∧ (∀ j ∈ l, j < m) ∧ l.length = axes.length ∧
      ∀ t (ht : t < axes.length) (htl : t < l.length), ∀ j < m, j ∉ sel → j ∉ l.take t →
        pointLine (front l[t]) (ageAxis axes[t]) ≤ pointLine (front j) (ageAxis axes[t]) := by
  induction axes generalizing sel with
  | nil => exact ⟨[], by simp [ageCornersFrom], by simpa using hnd, by simp, rfl, by simp⟩
  | cons i is ih =>
    have hne : ((List.range m).filter fun j => decide (j ∉ sel)) ≠ [] := by
      intro h
      rw [List.filter_eq_nil_iff] at h
      have hsub : List.range m ⊆ sel := fun j hj => by
        have := h j hj
        simpa using this
      have := (List.nodup_range (n := m)).subperm hsub |>.length_le
      simp at this hroom
      omega
    obtain ⟨b, hb, hmem, hmin⟩ := npArgmin_least (fun j => pointLine (front j) (ageAxis i)) _ hne
    rw [List.mem_filter] at hmem
    have hbm : b < m := List.mem_range.1 hmem.1
    have hbs : b ∉ sel := by simpa using hmem.2
    obtain ⟨l, h1, h2, h3, h4, h5⟩ := ih (sel ++ [b]) (by rw [List.nodup_append]; refine ⟨hnd, by simp, ?_⟩; rintro x hx y hy rfl; simp at hy; exact hbs (hy ▸ hx))
      (by intro j hj; rw [List.mem_append] at hj; rcases hj with hj | hj; exacts [hlt j hj, by simp at hj; rw [hj]; exact hbm])
      (by simp at hroom ⊢; omega)
    refine ⟨b :: l, ?_, ?_, ?_, ?_, ?_⟩
    · rw [ageCornersFrom, hb]; simp only; rw [h1]; simp
    · simpa using h2
    · intro j hj
      rcases List.mem_cons.1 hj with rfl | hj
      exacts [hbm, h3 j hj]
    · simp [h4]
    · intro t ht htl j hj hjs hjl
      cases t with
      | zero =>
        simp only [List.getElem_cons_zero]
        exact hmin j (by rw [List.mem_filter]; exact ⟨List.mem_range.2 hj, by simpa using hjs⟩)
      | succ t =>
        simp only [List.getElem_cons_succ]
        rw [List.take_succ_cons, List.mem_cons, not_or] at hjl
        exact h5 t (by simpa using ht) (by simpa using htl) j hj (by simp [hjs, hjl.1]) hjl.2

/-- C127: the extreme points are different members of the front, one per objective (all members, if there are not more than objectives); each is the closest to its
axis among those that are not extreme for an earlier objective. -/
theorem C127_corners (m : ℕ) (front : ℕ → Fin n → K) :
    ∃ l, ageCorners m front = some l ∧ l.Nodup ∧ (∀ j ∈ l, j < m) ∧ l.length = min m n ∧
      (n < m → ∀ (i : Fin n) (hi : i.val < l.length), ∀ j < m, j ∉ l.take i.val → pointLine (front l[i.val]) (ageAxis i) ≤ pointLine (front j) (ageAxis i)) := by
  unfold ageCorners
  split_ifs with h
  · exact ⟨_, rfl, List.nodup_range, fun j hj => List.mem_range.1 hj, by simp [h], fun h' => absurd h (by omega)⟩
  · obtain ⟨l, h1, h2, h3, h4, h5⟩ := cornersFrom_spec m front (List.finRange n) [] (by simp) (by simp) (by simp; omega)
    refine ⟨l, by simpa using h1, by simpa using h2, h3, by rw [h4]; simp; omega, fun _ i hi j hj hjl => ?_⟩
    have := h5 i.val (by simp) hi j hj (by simp) hjl
    simpa using this

theorem ageMax_spec (m : ℕ) (hm : 0 < m) (front : ℕ → Fin n → K) (k : Fin n) : ∃ j < m, ageMax m front k = front j k ∧ ∀ i < m, front i k ≤ front j k := by
  obtain ⟨j, hj, h1, h2⟩ := ctaArgmax_spec (fun j => front j k) (List.range m) (by simp; omega)
  exact ⟨j, List.mem_range.1 h1, by unfold ageMax; rw [hj]; rfl, fun i hi => h2 i (List.mem_range.2 hi)⟩

/-- C127: the normalisation divides by positive numbers only. -/
theorem C127_normalisation (m : ℕ) (hm : 0 < m) (front : ℕ → Fin n → K) (h0 : ∀ j < m, ∀ k, 0 ≤ front j k) (hyper : Option (Fin n → K)) (k : Fin n) :
    0 < ageNormal m front hyper k ∧ ∀ j < m, 0 ≤ ageNormed m front hyper j k := by
  have hmax : 0 ≤ ageMax m front k := by
    obtain ⟨j, hj, h1, -⟩ := ageMax_spec m hm front k
    rw [h1]; exact h0 j hj k
  have hpos : 0 < ageNormal m front hyper k := by
    unfold ageNormal
    cases hyper with
    | none =>
      simp only
      split_ifs with hz
      · exact one_pos
      · exact lt_of_le_of_ne hmax (Ne.symm hz)
    | some h =>
      simp only
      split_ifs with h1 hz hz
      · exact one_pos
      · exact one_div_pos.2 (h1 k)
      · exact one_pos
      · exact lt_of_le_of_ne hmax (Ne.symm hz)
  exact ⟨hpos, fun j hj => div_nonneg (h0 j hj k) hpos.le⟩

/-- C127: with a hyperplane through the extreme points (`h` solves the linear equations) that meets all axes on the positive side, the normalised extreme points lie on the
plane through the unit points. Otherwise every normalised objective is at most one, with equality for some point unless all are zero. -/
theorem C127_hyperplane (m : ℕ) (hm : 0 < m) (front : ℕ → Fin n → K) (h0 : ∀ j < m, ∀ k, 0 ≤ front j k) (extreme : List ℕ) (hyper : Option (Fin n → K))
    (hsol : ∀ h, hyper = some h → ∀ e ∈ extreme, ∑ k, front e k * h k = 1) :
    (∀ h, hyper = some h → (∀ k, 0 < h k) → ∀ e ∈ extreme, ∑ k, ageNormed m front hyper e k = 1) ∧
    ((∀ h, hyper = some h → ∃ k, h k ≤ 0) → ∀ k, (∀ j < m, ageNormed m front hyper j k ≤ 1) ∧ ((∃ j < m, 0 < front j k) → ∃ j < m, ageNormed m front hyper j k = 1)) := by
  constructor
  · intro h hh hpos e he
    rw [← hsol h hh e he]
    refine Finset.sum_congr rfl fun k _ => ?_
    unfold ageNormed ageNormal
    rw [hh]
    simp only
    rw [if_pos hpos, if_neg (one_div_pos.2 (hpos k)).ne', div_div_eq_mul_div, div_one]
  · intro hn k
    have e : ageNormal m front hyper k = if ageMax m front k = 0 then 1 else ageMax m front k := by
      unfold ageNormal
      cases hyper with
      | none => rfl
      | some h =>
        have hnp : ¬ ∀ j, 0 < h j := fun hp => by
          obtain ⟨k', hk'⟩ := hn h rfl
          exact absurd (hp k') (not_lt.2 hk')
        simp only
        rw [if_neg hnp]
    obtain ⟨j, hj, h1, h2⟩ := ageMax_spec m hm front k
    unfold ageNormed
    by_cases hz : ageMax m front k = 0
    · rw [e, if_pos hz]
      have hall : ∀ i < m, front i k ≤ 0 := fun i hi => by have := h2 i hi; rw [← h1, hz] at this; exact this
      refine ⟨fun i hi => by rw [div_one]; exact (hall i hi).trans zero_le_one, ?_⟩
      rintro ⟨i, hi, hp⟩
      exact absurd hp (not_lt.2 (hall i hi))
    · rw [e, if_neg hz, h1]
      have hp : 0 < front j k := lt_of_le_of_ne (h0 j hj k) (by rw [← h1]; exact Ne.symm hz)
      exact ⟨fun i hi => (div_le_one hp).2 (h2 i hi), fun _ => ⟨j, hj, div_self hp.ne'⟩⟩

/-- Three points in the plane: the corners are the ends, and the plane through them is the one of the equations. -/
example : let front : ℕ → Fin 2 → ℚ := fun j k => (![![0, 4], ![1, 1], ![2, 0]] : Fin 3 → Fin 2 → ℚ) (Fin.ofNat 3 j) k
    ageCorners 3 front = some [2, 0] ∧ (∀ e ∈ [2, 0], ∑ k, front e k * (![1 / 2, 1 / 4] : Fin 2 → ℚ) k = 1) ∧
    (fun k => ageNormed 3 front (some ![1 / 2, 1 / 4]) 1 k) = ![1 / 2, 1 / 4] := by decide +kernel

end Field

/-! ### The loop -/

section Loop
variable {K : Type*} [Field K] [LinearOrder K] [IsStrictOrderedRing K]

/-- The sum of the two smallest distances to different members of `sel`. -/
def TwoNearest (W : ℕ → ℕ → K) (sel : List ℕ) (r : ℕ) (v : K) : Prop :=
  (∃ a ∈ sel, ∃ b ∈ sel, a ≠ b ∧ v = W a r + W b r) ∧ ∀ a ∈ sel, ∀ b ∈ sel, a ≠ b → v ≤ W a r + W b r

theorem ageValue_two (W : ℕ → ℕ → K) (sel : List ℕ) (hnd : sel.Nodup) (h2 : 2 ≤ sel.length) (r : ℕ) : TwoNearest W sel r (ageValue W sel r) := by
  unfold ageValue
  rw [if_pos (by omega)]
  set f : ℕ → K := fun s => W s r with hf
  have hmap : (sel.map f).insertionSort (· ≤ ·) = (sel.insertionSort fun a b => f a ≤ f b).map f :=
    (List.map_insertionSort (r := fun a b => f a ≤ f b) (s := (· ≤ ·)) f sel (fun a _ b _ => Iff.rfl)).symm
  rw [hmap]
  have hperm := List.perm_insertionSort (fun a b => f a ≤ f b) sel
  have ht : Std.Total (α := ℕ) (fun a b => f a ≤ f b) := ⟨fun a b => le_total _ _⟩
  have htr : IsTrans ℕ (fun a b => f a ≤ f b) := ⟨fun a b c => le_trans⟩
  have hsort := List.pairwise_insertionSort (fun a b => f a ≤ f b) sel
  generalize (sel.insertionSort fun a b => f a ≤ f b) = s at hperm hsort
  match s, hperm, hsort with
  | [], hp, _ => have := hp.length_eq; simp at this; omega
  | [x], hp, _ => have := hp.length_eq; simp at this; omega
  | a :: b :: t, hp, hs =>
    have hnd' := hp.nodup_iff.2 hnd
    rw [List.pairwise_cons, List.pairwise_cons] at hs
    have hsum : ((List.map f (a :: b :: t)).take 2).sum = W a r + W b r := by simp [hf]
    rw [hsum]
    have hab : a ≠ b := by rw [List.nodup_cons] at hnd'; exact fun h => hnd'.1 (by simp [h])
    refine ⟨⟨a, hp.mem_iff.1 (by simp), b, hp.mem_iff.1 (by simp), hab, rfl⟩, fun a' ha' b' hb' hne => ?_⟩
    have ha := hp.mem_iff.2 ha'
    have hb := hp.mem_iff.2 hb'
    have hA : ∀ y ∈ a :: b :: t, W a r ≤ W y r := by
      intro y hy
      rcases List.mem_cons.1 hy with rfl | hy
      exacts [le_rfl, hs.1 y hy]
    have hB : ∀ y ∈ a :: b :: t, y ≠ a → W b r ≤ W y r := by
      intro y hy hya
      rcases List.mem_cons.1 hy with h | hy
      · exact absurd h hya
      · rcases List.mem_cons.1 hy with rfl | hy
        exacts [le_rfl, hs.2.1 y hy]
    by_cases h : b' = a
    · have h1 := hB a' ha (by rw [← h]; exact hne)
      have h2 := hA b' hb
      linarith
    · exact add_le_add (hA a' ha) (hB b' hb h)

/-- More selected ones, smaller value. -/
theorem TwoNearest.mono {W : ℕ → ℕ → K} {sel sel' : List ℕ} {r : ℕ} {v v' : K} (h : TwoNearest W sel r v) (h' : TwoNearest W sel' r v') (hsub : ∀ a ∈ sel, a ∈ sel') : v' ≤ v := by
  obtain ⟨⟨a, ha, b, hb, hne, rfl⟩, -⟩ := h
  exact h'.2 a (hsub a ha) b (hsub b hb) hne

theorem ageLoop_spec (W : ℕ → ℕ → K) (fuel : ℕ) (sel rem : List ℕ) (hf : fuel = rem.length) (hnd : rem.Nodup) :
    ((ageLoop W fuel sel rem).map (·.1)).Perm rem ∧
    ∀ t (ht : t < (ageLoop W fuel sel rem).length), ∀ past, past = sel ++ ((ageLoop W fuel sel rem).take t).map (·.1) →
      (ageLoop W fuel sel rem)[t].2 = ageValue W past (ageLoop W fuel sel rem)[t].1 ∧
      ∀ r ∈ rem, r ∉ ((ageLoop W fuel sel rem).take t).map (·.1) → ageValue W past r ≤ (ageLoop W fuel sel rem)[t].2 := by
  induction fuel generalizing sel rem with
  | zero =>
    have : rem = [] := List.length_eq_zero_iff.1 hf.symm
    subst this
    exact ⟨by simp [ageLoop], by simp [ageLoop]⟩
  | succ fuel ih =>
    have hne : rem ≠ [] := by intro h; rw [h] at hf; simp at hf
    obtain ⟨b, hb, hmem, hmax⟩ := ctaArgmax_spec (ageValue W sel) rem hne
    have hloop : ageLoop W (fuel + 1) sel rem = (b, ageValue W sel b) :: ageLoop W fuel (sel ++ [b]) (rem.erase b) := by rw [ageLoop, hb]
    obtain ⟨h1, h2⟩ := ih (sel ++ [b]) (rem.erase b) (by rw [List.length_erase_of_mem hmem]; omega) (hnd.erase b)
    rw [hloop]
    constructor
    · rw [List.map_cons]
      exact (h1.cons b).trans (List.perm_cons_erase hmem).symm
    · intro t ht past hpast
      cases t with
      | zero =>
        have : past = sel := by simpa using hpast
        subst this
        exact ⟨rfl, fun r hr _ => hmax r hr⟩
      | succ t =>
        have hp : past = (sel ++ [b]) ++ ((ageLoop W fuel (sel ++ [b]) (rem.erase b)).take t).map (·.1) := by rw [hpast]; simp
        obtain ⟨g1, g2⟩ := h2 t (by simpa using ht) past hp
        refine ⟨by simpa using g1, fun r hr hrt => ?_⟩
        simp only [List.getElem_cons_succ]
        rw [List.take_succ_cons, List.map_cons, List.mem_cons, not_or] at hrt
        exact g2 r ((List.mem_erase_of_ne hrt.1).2 hr) hrt.2

/-- C127: the scores. Let `extreme` be at least two different members of the front. Then the extreme points have an infinite score and all others a finite one; there is an
order of the others such that each, when its turn comes, is the one for which the sum of the distances to the two nearest among the extreme points and those before is
greatest, and this sum is its score. The scores do not increase along this order, so that taking the best scores is taking the first ones; they are positive if the
distances are. -/
theorem C127_scores (m n : ℕ) (hmn : n ≤ m) (extreme : List ℕ) (hnd : extreme.Nodup) (h2 : 2 ≤ extreme.length) (hlt : ∀ e ∈ extreme, e < m) (W : ℕ → ℕ → K) :
    (∀ e ∈ extreme, ageScore m n extreme W e = ⊤) ∧
    ∃ order : List ℕ, order.Nodup ∧ (∀ i, i ∈ order ↔ i < m ∧ i ∉ extreme) ∧
      (∀ t (ht : t < order.length), ∃ s : K, ageScore m n extreme W order[t] = (s : WithTop K) ∧ TwoNearest W (extreme ++ order.take t) order[t] s ∧
        (∀ r ∈ order.drop t, ∀ v, TwoNearest W (extreme ++ order.take t) r v → v ≤ s) ∧ ((∀ i j, 0 < W i j) → 0 < s)) ∧
      order.Pairwise fun a b => ageScore m n extreme W b ≤ ageScore m n extreme W a := by
  set rem := (List.range m).filter fun j => decide (j ∉ extreme) with hrem
  have hremnd : rem.Nodup := List.nodup_range.filter _
  obtain ⟨hperm, hspec⟩ := ageLoop_spec W rem.length extreme rem rfl hremnd
  set L := ageLoop W rem.length extreme rem with hL
  have hnodup : (L.map (·.1)).Nodup := hperm.nodup_iff.2 hremnd
  have hmem : ∀ i, i ∈ L.map (·.1) ↔ i < m ∧ i ∉ extreme := by
    intro i
    rw [hperm.mem_iff, hrem, List.mem_filter, List.mem_range]
    simp
  have hnm : ¬ m < n := by omega
  have hscore : ∀ t (ht : t < L.length), ageScore m n extreme W L[t].1 = ((L[t].2 : K) : WithTop K) := by
    intro t ht
    have h1 : L[t].1 ∉ extreme := ((hmem _).1 (List.mem_map_of_mem (List.getElem_mem ht))).2
    unfold ageScore
    rw [if_neg hnm, if_neg h1]
    have hfind : L.find? (fun e => e.1 == L[t].1) = some L[t] := by
      rw [List.find?_eq_some_iff_getElem]
      refine ⟨by simp, t, ht, rfl, fun j hj => ?_⟩
      simp only [Bool.not_eq_true', beq_eq_false_iff_ne]
      intro hc
      have := (List.Nodup.getElem_inj_iff hnodup (i := j) (hi := by simp; omega) (j := t) (hj := by simpa using ht)).1 (by simpa using hc)
      omega
    simp only
    rw [← hrem, ← hL, hfind]
  have hpast : ∀ t, (extreme ++ (L.take t).map (·.1)).Nodup := by
    intro t
    rw [List.nodup_append]
    refine ⟨hnd, ?_, ?_⟩
    · rw [List.map_take]; exact hnodup.sublist (List.take_sublist _ _)
    · rintro a ha b hb rfl
      rw [List.map_take] at hb
      exact ((hmem a).1 (List.mem_of_mem_take hb)).2 ha
  refine ⟨fun e he => by unfold ageScore; rw [if_neg hnm, if_pos he], L.map (·.1), hnodup, hmem, ?_, ?_⟩
  · intro t ht
    have ht' : t < L.length := by simpa using ht
    obtain ⟨g1, g2⟩ := hspec t ht' _ rfl
    have htwo : ∀ r, TwoNearest W (extreme ++ (L.map (·.1)).take t) r (ageValue W (extreme ++ (L.map (·.1)).take t) r) := fun r =>
      ageValue_two W _ (by rw [← List.map_take]; exact hpast t) (by simp; omega) r
    refine ⟨L[t].2, by rw [List.getElem_map]; exact hscore t ht', ?_, fun r hr v hv => ?_, fun hW => ?_⟩
    · have := htwo L[t].1
      rw [List.getElem_map, g1, List.map_take]; exact this
    · have hrm : r ∈ rem := hperm.mem_iff.1 (List.mem_of_mem_drop hr)
      have hrt : r ∉ (L.take t).map (·.1) := by
        rw [List.map_take]
        intro hc
        exact (List.disjoint_take_drop hnodup le_rfl) hc hr
      have := g2 r hrm hrt
      rw [List.map_take] at this
      exact ((htwo r).mono hv fun a ha => ha).trans this
    · have := htwo L[t].1
      obtain ⟨⟨a, -, b, -, -, hv⟩, -⟩ := this
      rw [g1, List.map_take, hv]
      exact add_pos (hW _ _) (hW _ _)
  · rw [List.pairwise_map, List.pairwise_iff_getElem]
    intro i j hi hj hij
    rw [hscore i hi, hscore j hj, WithTop.coe_le_coe]
    obtain ⟨g1, g2⟩ := hspec i hi _ rfl
    obtain ⟨g3, -⟩ := hspec j hj _ rfl
    have hjr : L[j].1 ∈ rem := hperm.mem_iff.1 (List.mem_map_of_mem (List.getElem_mem hj))
    have hjt : L[j].1 ∉ (L.take i).map (·.1) := by
      rw [List.map_take, List.mem_take_iff_getElem]
      rintro ⟨s, hs, he⟩
      have := (List.Nodup.getElem_inj_iff hnodup (i := s) (hi := by omega) (j := j) (hj := by simpa using hj)).1 (by simpa using he)
      omega
    refine le_trans ?_ (g2 _ hjr hjt)
    rw [g3]
    refine (ageValue_two W _ (hpast i) (by simp; omega) _).mono (ageValue_two W _ (hpast j) (by simp; omega) _) fun a ha => ?_
    rw [List.mem_append] at ha ⊢
    refine ha.imp id fun h => ?_
    rw [List.map_take] at h ⊢
    exact (List.take_prefix_take_left (by omega : i ≤ j)).subset h

/-- C127: the distances used are positive. -/
theorem C127_positive (D : ℕ → ℕ → K) (nn : ℕ → K) (i j : ℕ) : 0 < ageScaled D nn i j := by
  unfold ageScaled
  have h8 : (0 : K) < 1 / 100000000 := by positivity
  refine div_pos ?_ ?_
  · split_ifs with h
    · exact h8
    · exact lt_of_lt_of_le h8 (not_lt.1 h)
  · split_ifs with h
    · exact one_pos
    · exact lt_of_lt_of_le h8 (not_lt.1 h)

/-- Five points that do not dominate each other, with their distances and norms for `p = 1`. -/
def exAge (j : ℕ) : Fin 2 → ℚ := (![![0, 1], ![1, 0], ![7 / 8, 1 / 4], ![1 / 2, 1 / 2], ![1 / 8, 5 / 8]] : Fin 5 → Fin 2 → ℚ) (Fin.ofNat 5 j)

def exAgeD (i j : ℕ) : ℚ := |exAge i 0 - exAge j 0| + |exAge i 1 - exAge j 1|

def exAgeN (i : ℕ) : ℚ := |exAge i 0| + |exAge i 1|

example : ageCorners 5 exAge = some [1, 0] ∧ ageScore 5 2 [1, 0] (ageScaled exAgeD exAgeN) 0 = ⊤ := by decide +kernel

/-- C127 is refuted for the remark in the code that the value of a remaining point is that of row `remaining`, columns `selected` of the distance matrix (which is divided by
the norms of the points of the rows): rows and columns are exchanged, so that the distance is divided by the norms of the *selected* points. Here the third point is taken first,
the intended rule takes the fifth. -/
theorem C127_exchanged_refuted :
    ((ageLoop (ageScaled exAgeD exAgeN) 3 [1, 0] [2, 3, 4]).map (·.1)).head? = some 2 ∧
    ((ageLoop (fun s r => ageScaled exAgeD exAgeN r s) 3 [1, 0] [2, 3, 4]).map (·.1)).head? = some 4 ∧
    ∀ v w, TwoNearest (fun s r => ageScaled exAgeD exAgeN r s) [1, 0] 2 v → TwoNearest (fun s r => ageScaled exAgeD exAgeN r s) [1, 0] 4 w → v < w := by
  refine ⟨by decide +kernel, by decide +kernel, fun v w hv hw => ?_⟩
  have h1 := hv.2 1 (by simp) 0 (by simp) (by decide)
  obtain ⟨a, ha, b, hb, hab, rfl⟩ := hw.1
  refine lt_of_le_of_lt h1 ?_
  have key : ∀ a ∈ [1, 0], ∀ b ∈ [1, 0], a ≠ b → ageScaled exAgeD exAgeN 2 1 + ageScaled exAgeD exAgeN 2 0 < ageScaled exAgeD exAgeN 4 a + ageScaled exAgeD exAgeN 4 b := by decide +kernel
  exact key a ha b hb hab

end Loop

/-! ### Geometry -/

section Real
variable {n : ℕ}

/-- C127: the exponent is in `(0.1, 20]`, and unless it had to be limited, the point of the diagonal with the mean of the central point lies on the unit sphere of that norm. -/
theorem C127_exponent (n : ℕ) (hn : 2 ≤ n) (mean : ℝ) (h0 : 0 ≤ mean) :
    (1 / 10 < ageP n mean ∧ ageP n mean ≤ 20) ∧
    (0 < mean → mean < 1 → 1 / 10 < Real.log n / Real.log (1 / mean) → Real.log n / Real.log (1 / mean) ≤ 20 → ∑ _k : Fin n, mean ^ ageP n mean = 1) := by
  constructor
  · unfold ageP
    simp only
    split_ifs with h1 h2 h3 h4
    · norm_num
    · norm_num
    · norm_num
    · norm_num
    · exact ⟨not_le.1 h3, not_lt.1 h4⟩
  · intro hpos hlt hp hp20
    have e : ageP n mean = Real.log n / Real.log (1 / mean) := by
      unfold ageP
      simp only
      rw [if_neg (not_lt.2 h0), if_neg (fun h => hlt.ne h.1), if_neg (not_le.2 hp), if_neg (not_lt.2 hp20)]
    have hl : 0 < Real.log (1 / mean) := Real.log_pos (by rw [lt_div_iff₀ hpos]; linarith)
    rw [Finset.sum_const, Finset.card_univ, Fintype.card_fin, nsmul_eq_mul, e, Real.rpow_def_of_pos hpos]
    have hlog : Real.log mean = -Real.log (1 / mean) := by rw [one_div, Real.log_inv, neg_neg]
    rw [hlog, neg_mul, mul_div_cancel₀ _ hl.ne', Real.exp_neg, Real.exp_log (by positivity)]
    have : (n : ℝ) ≠ 0 := by positivity
    field_simp

example : (0 : ℝ) < 1 / 2 ∧ (1 / 2 : ℝ) < 1 ∧ 1 / 10 < Real.log (2 : ℕ) / Real.log (1 / (1 / 2 : ℝ)) ∧ Real.log (2 : ℕ) / Real.log (1 / (1 / 2 : ℝ)) ≤ 20 := by
  have : Real.log (2 : ℕ) / Real.log (1 / (1 / 2 : ℝ)) = 1 := by
    rw [show (1 / (1 / 2 : ℝ)) = 2 by norm_num, Nat.cast_ofNat]
    exact div_self (Real.log_pos (by norm_num)).ne'
  rw [this]; norm_num

/-- C127: the Minkowski distance: symmetric, zero exactly for equal points; the triangle inequality for exponents of at least one. -/
theorem C127_minkowski (p : ℝ) (hp : 0 < p) (a b c : Fin n → ℝ) :
    0 ≤ minkDist p a b ∧ minkDist p a b = minkDist p b a ∧ (minkDist p a b = 0 ↔ a = b) ∧ (1 ≤ p → minkDist p a c ≤ minkDist p a b + minkDist p b c) := by
  have hs : 0 ≤ ∑ k, |a k - b k| ^ p := Finset.sum_nonneg fun k _ => Real.rpow_nonneg (abs_nonneg _) _
  refine ⟨Real.rpow_nonneg hs _, ?_, ?_, fun h1 => ?_⟩
  · unfold minkDist
    congr 1
    exact Finset.sum_congr rfl fun k _ => by rw [abs_sub_comm]
  · unfold minkDist
    rw [Real.rpow_eq_zero hs (one_div_pos.2 hp).ne', Finset.sum_eq_zero_iff_of_nonneg fun k _ => Real.rpow_nonneg (abs_nonneg _) _]
    constructor
    · intro h
      funext k
      have := h k (Finset.mem_univ k)
      rw [Real.rpow_eq_zero (abs_nonneg _) hp.ne', abs_eq_zero, sub_eq_zero] at this
      exact this
    · rintro rfl k -
      rw [sub_self, abs_zero, Real.zero_rpow hp.ne']
  · unfold minkDist
    have := Real.Lp_add_le Finset.univ (fun k => a k - b k) (fun k => b k - c k) h1
    simpa using this

/-- C127: the triangle inequality fails for exponents below one, which the estimate allows. -/
theorem C127_triangle_refuted : minkDist (1 / 2) (![0, 0] : Fin 2 → ℝ) ![1, 0] + minkDist (1 / 2) (![1, 0] : Fin 2 → ℝ) ![1, 1] < minkDist (1 / 2) (![0, 0] : Fin 2 → ℝ) ![1, 1] := by
  unfold minkDist
  norm_num [Fin.sum_univ_two]

theorem pos_sum_pos (p : ℝ) (v : Fin n → ℝ) : (0 ≤ ∑ k, if 0 < v k then v k ^ p else 0) ∧ ((∃ k, 0 < v k) → 0 < ∑ k, if 0 < v k then v k ^ p else 0) ∧
    ((∀ k, v k ≤ 0) → (∑ k, if 0 < v k then v k ^ p else 0) = 0) := by
  have hnn : ∀ k ∈ (Finset.univ : Finset (Fin n)), 0 ≤ if 0 < v k then v k ^ p else 0 := by
    intro k _
    split_ifs with h
    · exact Real.rpow_nonneg h.le _
    · exact le_rfl
  refine ⟨Finset.sum_nonneg hnn, ?_, fun h => Finset.sum_eq_zero fun k _ => by rw [if_neg (not_lt.2 (h k))]⟩
  rintro ⟨k, hk⟩
  exact Finset.sum_pos' hnn ⟨k, Finset.mem_univ k, by rw [if_pos hk]; exact Real.rpow_pos_of_pos hk _⟩

/-- C127: a point with a positive objective is moved along its ray to the unit sphere of the norm (the sum over its positive objectives); nothing else is defined. -/
theorem C127_project (p : ℝ) (hp : 0 < p) (v : Fin n → ℝ) :
    ((∃ k, 0 < v k) → ∃ w c, ageProject p v = some w ∧ 0 < c ∧ (∀ k, w k = v k * c) ∧ (∑ k, if 0 < w k then w k ^ p else 0) = 1) ∧
    ((∀ k, v k ≤ 0) → ageProject p v = none) := by
  obtain ⟨h0, h1, h2⟩ := pos_sum_pos p v
  constructor
  · intro h
    have hs := h1 h
    set S := ∑ k, if 0 < v k then v k ^ p else 0 with hS
    have hd : 0 < S ^ (1 / p) := Real.rpow_pos_of_pos hs _
    have hc : 0 < 1 / S ^ (1 / p) := one_div_pos.2 hd
    refine ⟨fun k => v k * (1 / S ^ (1 / p)), 1 / S ^ (1 / p), ?_, hc, fun k => rfl, ?_⟩
    · unfold ageProject; simp only; rw [if_neg hd.ne']
    · have : ∀ k, (if 0 < v k * (1 / S ^ (1 / p)) then (v k * (1 / S ^ (1 / p))) ^ p else 0) = (if 0 < v k then v k ^ p else 0) * (1 / S) := by
        intro k
        by_cases hk : 0 < v k
        · rw [if_pos (mul_pos hk hc), if_pos hk, Real.mul_rpow hk.le hc.le]
          congr 1
          rw [Real.div_rpow zero_le_one hd.le, Real.one_rpow, ← Real.rpow_mul hs.le, one_div_mul_cancel hp.ne', Real.rpow_one]
        · rw [if_neg hk, if_neg, zero_mul]
          intro hc'
          exact hk ((pos_iff_pos_of_mul_pos hc').2 hc)
      rw [Finset.sum_congr rfl fun k _ => this k, ← Finset.sum_mul, ← hS]
      field_simp
  · intro h
    unfold ageProject
    simp only
    rw [if_pos]
    rw [h2 h, Real.zero_rpow (one_div_pos.2 hp).ne']

example : ∃ k, 0 < (![1, 0] : Fin 2 → ℝ) k := ⟨0, by simp⟩

/-- C127: the exponent of AGE-MOEA-II is in `(0.1, 20]` whatever the search for it returns. -/
theorem C127_exponent2 (root : ℝ) : 1 / 10 < age2P root ∧ age2P root ≤ 20 := by
  unfold age2P
  split_ifs with h1 h2
  · norm_num
  · norm_num
  · exact ⟨not_le.1 h1, not_lt.1 h2⟩

theorem age2Dist_some (p : ℝ) (hp : 0 < p) (a b : Fin n → ℝ) (ha0 : ∀ k, 0 ≤ a k) (hb0 : ∀ k, 0 ≤ b k) (ha : ∃ k, 0 < a k) (hb : ∃ k, 0 < b k) :
    ∃ d, age2Dist p a b = some d ∧ 0 ≤ d := by
  obtain ⟨a', ca, h1, h2, h3, -⟩ := (C127_project p hp a).1 ha
  obtain ⟨b', cb, g1, g2, g3, -⟩ := (C127_project p hp b).1 hb
  have hlen : ∀ v : Fin n → ℝ, 0 ≤ (∑ k, |v k| ^ (2 : ℝ)) ^ (1 / 2 : ℝ) := fun v =>
    Real.rpow_nonneg (Finset.sum_nonneg fun k _ => Real.rpow_nonneg (abs_nonneg _) _) _
  unfold age2Dist
  rw [h1, g1]
  simp only [Option.bind_some]
  split_ifs with hf
  · exact ⟨_, rfl, hlen _⟩
  · obtain ⟨k, hk⟩ := ha
    obtain ⟨c, cc, i1, -⟩ := (C127_project p hp fun k => a' k * (1 / 2) + b' k * (1 / 2)).1 ⟨k, by
      rw [h3, g3]
      have h4 := mul_pos hk h2
      have h5 := mul_nonneg (hb0 k) g2.le
      linarith⟩
    rw [i1]
    exact ⟨_, rfl, add_nonneg (hlen _) (hlen _)⟩

/-- C127: the distances of AGE-MOEA-II are defined if no point of the (normalised) front is the origin, and are then symmetric, not negative and zero on the diagonal. -/
theorem C127_pairs (p : ℝ) (hp : 0 < p) (front : ℕ → Fin n → ℝ) (h0 : ∀ i k, 0 ≤ front i k) (hpos : ∀ i, ∃ k, 0 < front i k) (i j : ℕ) :
    ∃ d, age2Pair p front i j = some d ∧ 0 ≤ d ∧ age2Pair p front j i = some d ∧ (i = j → d = 0) := by
  rcases lt_trichotomy i j with h | h | h
  · obtain ⟨d, h1, h2⟩ := age2Dist_some p hp (front i) (front j) (h0 i) (h0 j) (hpos i) (hpos j)
    refine ⟨d, ?_, h2, ?_, fun he => by omega⟩
    · unfold age2Pair; rw [if_neg (by omega), if_pos h]; exact h1
    · unfold age2Pair; rw [if_neg (by omega), if_neg (by omega)]; exact h1
  · subst h
    exact ⟨0, by unfold age2Pair; rw [if_pos rfl], le_rfl, by unfold age2Pair; rw [if_pos rfl], fun _ => rfl⟩
  · obtain ⟨d, h1, h2⟩ := age2Dist_some p hp (front j) (front i) (h0 j) (h0 i) (hpos j) (hpos i)
    refine ⟨d, ?_, h2, ?_, fun he => by omega⟩
    · unfold age2Pair; rw [if_neg (by omega), if_neg (by omega)]; exact h1
    · unfold age2Pair; rw [if_neg (by omega), if_pos h]; exact h1

example : ∀ i, ∃ k, 0 < (fun (j : ℕ) => (![(j : ℝ) + 1, 0] : Fin 2 → ℝ)) i k := fun i => ⟨0, by simp; positivity⟩

/-- C127 is refuted for a front whose points all have the same objectives: every one is the ideal point, the origin after normalisation, and the projection divides by zero. -/
theorem C127_origin_refuted (p : ℝ) (hp : 0 < p) (front : ℕ → Fin n → ℝ) (i j : ℕ) (hij : i ≠ j) (hz : ∀ k, front i k = 0) : age2Pair p front i j = none := by
  have hn := (C127_project p hp (front i)).2 fun k => (hz k).le
  unfold age2Pair
  rw [if_neg hij]
  by_cases h : i < j
  · rw [if_pos h]; unfold age2Dist; simp only; rw [hn]; rfl
  · rw [if_neg h]; unfold age2Dist; simp only; rw [hn]
    cases ageProject p (front j) <;> rfl

/-- C127: what the search for the exponent stops at. A fixed point of the iteration is an exponent for which the central point (raised by `1e-10`) lies on the unit sphere. -/
theorem C127_newton (v : Fin n → ℝ) (x : ℝ) (hv : ∃ k, 0 < v k)
    (hder : (∑ k, if 0 < v k then Real.exp (x * Real.log (v k + 1 / 10000000000)) * Real.log (v k + 1 / 10000000000) else 0) ≠ 0) :
    age2Newton v x = x ↔ (∑ k, if 0 < v k then (v k + 1 / 10000000000) ^ x else 0) = 1 := by
  have e : ∀ k, 0 < v k → Real.exp (x * Real.log (v k + 1 / 10000000000)) = (v k + 1 / 10000000000) ^ x := by
    intro k hk
    rw [Real.rpow_def_of_pos (by positivity), mul_comm]
  have hsum : (∑ k, if 0 < v k then Real.exp (x * Real.log (v k + 1 / 10000000000)) else 0) = ∑ k, if 0 < v k then (v k + 1 / 10000000000) ^ x else 0 :=
    Finset.sum_congr rfl fun k _ => by
      split_ifs with h
      · exact e k h
      · rfl
  have hpos : 0 < ∑ k, if 0 < v k then (v k + 1 / 10000000000) ^ x else 0 := by
    obtain ⟨k, hk⟩ := hv
    refine Finset.sum_pos' (fun j _ => ?_) ⟨k, Finset.mem_univ k, ?_⟩
    · split_ifs with h
      · exact Real.rpow_nonneg (by positivity) _
      · exact le_rfl
    · rw [if_pos hk]; exact Real.rpow_pos_of_pos (by positivity) _
  unfold age2Newton
  simp only
  rw [hsum]
  constructor
  · intro h
    have hz : Real.log (∑ k, if 0 < v k then (v k + 1 / 10000000000) ^ x else 0) = 0 := by
      have h' : Real.log (∑ k, if 0 < v k then (v k + 1 / 10000000000) ^ x else 0) /
        ((∑ k, if 0 < v k then Real.exp (x * Real.log (v k + 1 / 10000000000)) * Real.log (v k + 1 / 10000000000) else 0) /
          ∑ k, if 0 < v k then (v k + 1 / 10000000000) ^ x else 0) = 0 := by linarith
      rcases div_eq_zero_iff.1 h' with h' | h'
      · exact h'
      · exact absurd h' (div_ne_zero hder hpos.ne')
    exact Real.eq_one_of_pos_of_log_eq_zero hpos hz
  · intro h
    rw [h]; simp

example : ∃ v : Fin 2 → ℝ, (∃ k, 0 < v k) ∧
    (∑ k, if 0 < v k then Real.exp (1 * Real.log (v k + 1 / 10000000000)) * Real.log (v k + 1 / 10000000000) else 0) ≠ 0 := by
  refine ⟨fun _ => 1 / 2, ⟨0, by norm_num⟩, ?_⟩
  have h : Real.log (1 / 2 + 1 / 10000000000) < 0 := Real.log_neg (by norm_num) (by norm_num)
  have h2 := mul_neg_of_pos_of_neg (Real.exp_pos (1 * Real.log (1 / 2 + 1 / 10000000000))) h
  rw [Fin.sum_univ_two, if_pos (by norm_num)]
  linarith

end Real

end Props
