import Verif.Model.FastNDS
import Verif.Lemmas.Fronts
import Verif.Lemmas.Dominator
import Mathlib.Algebra.BigOperators.Group.Finset.Basic
import Mathlib.Algebra.BigOperators.Ring.Finset
import Mathlib.Data.Fintype.BigOperators

set_option linter.unusedSimpArgs false

namespace Lemmas
open Model Spec
variable {n : ℕ}

/-- Invariant of the counting phase: `P a b` says the (unordered) pair has been processed. -/
structure CountInv (M : Fin n → Fin n → ℤ) (P : Fin n → Fin n → Prop) [∀ a b, Decidable (P a b)]
    (s : FastState n) : Prop where
  counts : ∀ a b, (s.isDominating a).count b = if M a b = 1 ∧ P a b then 1 else 0
  nDom : ∀ b, s.nDominated b = ∑ a, ((s.isDominating a).count b : ℤ)

theorem CountInv.congr {M : Fin n → Fin n → ℤ} {P Q : Fin n → Fin n → Prop} [∀ a b, Decidable (P a b)]
    [∀ a b, Decidable (Q a b)] {s : FastState n} (h : CountInv M P s) (hpq : ∀ a b, P a b ↔ Q a b) :
    CountInv M Q s := ⟨fun a b => by rw [h.counts]; simp only [hpq], h.nDom⟩

theorem nDom_append (f : Fin n → List (Fin n)) (g : Fin n → ℤ) (i j : Fin n)
    (h : ∀ b, g b = ∑ a, ((f a).count b : ℤ)) (b : Fin n) :
    Function.update g j (g j + 1) b = ∑ a, ((Function.update f i (f i ++ [j]) a).count b : ℤ) := by
  have e : ∀ a, ((Function.update f i (f i ++ [j]) a).count b : ℤ) =
      (f a).count b + if a = i then (if b = j then 1 else 0) else 0 := by
    intro a
    by_cases hai : a = i
    · subst hai
      simp only [Function.update_self, List.count_append, if_true]
      by_cases hb : b = j
      · subst hb; simp
      · simp [hb, List.count_singleton, Ne.symm hb]
    · simp [Function.update_of_ne hai, hai]
  simp only [e, Finset.sum_add_distrib, ← h, Finset.sum_ite_eq', Finset.mem_univ, if_true]
  by_cases hb : b = j
  · subst hb; simp
  · simp [Function.update_of_ne hb, hb]

theorem counts_append (f : Fin n → List (Fin n)) (i j a b : Fin n) :
    (Function.update f i (f i ++ [j]) a).count b = (f a).count b + if a = i ∧ b = j then 1 else 0 := by
  by_cases hai : a = i
  · subst hai
    simp only [Function.update_self, List.count_append, true_and]
    by_cases hb : b = j
    · subst hb; simp
    · simp [hb, List.count_singleton, Ne.symm hb]
  · simp [Function.update_of_ne hai, hai]

theorem fastPair_inv {M : Fin n → Fin n → ℤ} (hM : ∀ a b, M b a = - M a b) {P : Fin n → Fin n → Prop}
    [∀ a b, Decidable (P a b)] {s : FastState n} (h : CountInv M P s) (i j : Fin n) (hij : i ≠ j)
    (hP : ¬ P i j) (hP' : ¬ P j i) :
    CountInv M (fun a b => P a b ∨ (a = i ∧ b = j) ∨ (a = j ∧ b = i)) (fastPair M i s j) := by
  have hm := hM i j
  unfold fastPair
  split
  · next h1 =>
    refine ⟨fun a b => ?_, nDom_append _ _ _ _ h.nDom⟩
    simp only [counts_append, h.counts]
    have hji : M j i = -1 := by rw [hm, h1]
    by_cases e1 : a = i ∧ b = j
    · obtain ⟨rfl, rfl⟩ := e1; simp [h1, hP]
    · by_cases e2 : a = j ∧ b = i
      · obtain ⟨rfl, rfl⟩ := e2; simp [hji, Ne.symm hij]
      · simp [e1, e2]
  · next h1 =>
    split
    · next h2 =>
      refine ⟨fun a b => ?_, nDom_append _ _ _ _ h.nDom⟩
      simp only [counts_append, h.counts]
      have hji : M j i = 1 := by rw [hm, h2]; rfl
      by_cases e1 : a = i ∧ b = j
      · obtain ⟨rfl, rfl⟩ := e1; simp [h2, hij]
      · by_cases e2 : a = j ∧ b = i
        · obtain ⟨rfl, rfl⟩ := e2; simp [hji, hP']
        · simp [e1, e2]
    · next h2 =>
      refine ⟨fun a b => ?_, h.nDom⟩
      rw [h.counts]
      have hji : M j i ≠ 1 := by rw [hm]; omega
      by_cases e1 : a = i ∧ b = j
      · obtain ⟨rfl, rfl⟩ := e1; simp [h1]
      · by_cases e2 : a = j ∧ b = i
        · obtain ⟨rfl, rfl⟩ := e2; simp [hji]
        · simp [e1, e2]

theorem fastPair_front {M : Fin n → Fin n → ℤ} (i : Fin n) (s : FastState n) (j : Fin n) :
    (fastPair M i s j).currentFront = s.currentFront ∧ (fastPair M i s j).nRanked = s.nRanked := by
  unfold fastPair; split
  · simp
  · split <;> simp

theorem fastPairs_inv {M : Fin n → Fin n → ℤ} (hM : ∀ a b, M b a = - M a b) (i : Fin n)
    (L : List (Fin n)) (hL : L.Nodup) (hi : ∀ j ∈ L, i < j) :
    ∀ (P : Fin n → Fin n → Prop) [∀ a b, Decidable (P a b)] (s : FastState n), CountInv M P s →
    (∀ j ∈ L, ¬ P i j ∧ ¬ P j i) →
    CountInv M (fun a b => P a b ∨ (a = i ∧ b ∈ L) ∨ (a ∈ L ∧ b = i)) (L.foldl (fastPair M i) s) ∧
    (L.foldl (fastPair M i) s).currentFront = s.currentFront ∧
    (L.foldl (fastPair M i) s).nRanked = s.nRanked := by
  induction L with
  | nil => intro P _ s h _; exact ⟨h.congr (by simp), rfl, rfl⟩
  | cons j L ih =>
    intro P _ s h hP
    rw [List.nodup_cons] at hL
    have hij : i ≠ j := (hi j (by simp)).ne
    have h1 := fastPair_inv hM h i j hij (hP j (by simp)).1 (hP j (by simp)).2
    have h2 := ih hL.2 (fun j hj => hi j (by simp [hj])) _ _ h1 (by
      intro k hk
      have hkj : k ≠ j := fun e => hL.1 (e ▸ hk)
      have hki : k ≠ i := (hi k (by simp [hk])).ne'
      have := hP k (by simp [hk])
      simp [this, hkj, hki])
    obtain ⟨h2, h3, h4⟩ := h2
    refine ⟨h2.congr ?_, ?_, ?_⟩
    · intro a b; simp only [List.mem_cons]; tauto
    · rw [List.foldl_cons, h3, (fastPair_front i s j).1]
    · rw [List.foldl_cons, h4, (fastPair_front i s j).2]

/-- number of dominators of `b` outside a given set -/
theorem sum_counts_eq_card {M : Fin n → Fin n → ℤ} {s : FastState n} (b : Fin n)
    (hc : ∀ a, (s.isDominating a).count b = if M a b = 1 then 1 else 0)
    (hn : s.nDominated b = ∑ a, ((s.isDominating a).count b : ℤ)) :
    s.nDominated b = (Finset.univ.filter fun a => M a b = 1).card := by
  rw [hn, Finset.card_filter]
  push_cast
  apply Finset.sum_congr rfl
  intro a _
  rw [hc]; split <;> simp

theorem fastRows_inv {M : Fin n → Fin n → ℤ} (hM : ∀ a b, M b a = - M a b) (k : ℕ) (hk : k ≤ n) :
    let s := ((List.finRange n).take k).foldl (fastRow M) FastState.init
    CountInv M (fun a b => a ≠ b ∧ (a.val < k ∨ b.val < k)) s ∧
    s.currentFront = ((List.finRange n).take k).filter (fun i => decide (∀ a, M a i ≠ 1)) ∧
    s.nRanked = s.currentFront.length := by
  induction k with
  | zero =>
    refine ⟨⟨?_, ?_⟩, ?_, ?_⟩ <;> simp [FastState.init]
  | succ k ih =>
    obtain ⟨h1, h2, h3⟩ := ih (by omega)
    set i : Fin n := ⟨k, hk⟩ with hi
    have e : (List.finRange n).take (k + 1) = (List.finRange n).take k ++ [i] := by
      rw [List.take_succ_eq_append_getElem (by simp; omega), List.getElem_finRange]; rfl
    rw [e]
    simp only [List.foldl_append, List.foldl_cons, List.foldl_nil]
    generalize hs : List.foldl (fastRow M) FastState.init (List.take k (List.finRange n)) = s at *
    have hrow := fastPairs_inv hM i ((List.finRange n).filter (fun j => decide (i < j)))
      ((List.nodup_finRange n).filter _) (by simp) _ s h1 (by
        intro j hj
        have hj : i < j := by simpa using hj
        have : k < j.val := hj
        simp [hi]; constructor <;> intros <;> omega)
    obtain ⟨g1, g2, g3⟩ := hrow
    have g1 := g1.congr (Q := fun a b => a ≠ b ∧ (a.val < k + 1 ∨ b.val < k + 1)) (by
      intro a b
      simp only [List.mem_filter, List.mem_finRange, true_and, decide_eq_true_eq, ne_eq, Fin.ext_iff,
        Fin.lt_def, hi]
      omega)
    unfold fastRow
    generalize List.foldl (fastPair M i) s ((List.finRange n).filter (fun j => decide (i < j))) = t at *
    have hcard : t.nDominated i = (Finset.univ.filter fun a => M a i = 1).card := by
      apply sum_counts_eq_card i _ (g1.nDom i)
      intro a
      rw [g1.counts]
      have hself : M i i = 0 := by have := hM i i; omega
      by_cases hai : a = i
      · subst hai; simp [hself]
      · have : a ≠ i ∧ (a.val < k + 1 ∨ i.val < k + 1) := ⟨hai, Or.inr (by simp [hi])⟩
        simp only [this, ne_eq, not_false_eq_true, and_self, and_true]
    have hzero : t.nDominated i = 0 ↔ ∀ a, M a i ≠ 1 := by
      rw [hcard]
      simp [Finset.card_eq_zero, Finset.filter_eq_empty_iff]
    simp only [List.filter_append]
    by_cases hz : ∀ a, M a i ≠ 1
    · rw [if_pos (hzero.2 hz)]
      have : List.filter (fun i => decide (∀ (a : Fin n), M a i ≠ 1)) [i] = [i] := by simp [hz]
      refine ⟨⟨g1.counts, g1.nDom⟩, ?_, ?_⟩
      · show t.currentFront ++ [i] = _
        rw [this, g2, h2]
      · show t.nRanked + 1 = (t.currentFront ++ [i]).length
        rw [g3, g2, h3]; simp
    · rw [if_neg (fun h => hz (hzero.1 h))]
      have : List.filter (fun i => decide (∀ (a : Fin n), M a i ≠ 1)) [i] = [] := by
        simpa using hz
      refine ⟨⟨g1.counts, g1.nDom⟩, ?_, ?_⟩
      · rw [this, g2, h2]; simp
      · rw [g3, g2, h3]

theorem fastInit_spec {M : Fin n → Fin n → ℤ} (hM : ∀ a b, M b a = - M a b) :
    (∀ a b, ((fastInit M).isDominating a).count b = if M a b = 1 then 1 else 0) ∧
    (∀ b, (fastInit M).nDominated b = (Finset.univ.filter fun a => M a b = 1).card) ∧
    (fastInit M).currentFront = (List.finRange n).filter (fun i => decide (∀ a, M a i ≠ 1)) ∧
    (fastInit M).nRanked = (fastInit M).currentFront.length := by
  obtain ⟨h1, h2, h3⟩ := fastRows_inv hM n (le_refl n)
  rw [List.take_of_length_le (by simp)] at h1 h2 h3
  have hc : ∀ a b, ((fastInit M).isDominating a).count b = if M a b = 1 then 1 else 0 := by
    intro a b
    unfold fastInit
    rw [h1.counts]
    by_cases hab : a = b
    · subst hab
      have hself : M a a = 0 := by have := hM a a; omega
      simp [hself]
    · simp [hab]
  exact ⟨hc, fun b => sum_counts_eq_card b (fun a => hc a b) (h1.nDom b), h2, h3⟩

/-- One peel round as a fold over all decrement targets. -/
theorem peelDecs (T : List (Fin n)) : ∀ s : PeelState n, (∀ b, (T.count b : ℤ) ≤ s.nDominated b) →
    ∃ added : List (Fin n), added.Nodup ∧
      (∀ b, b ∈ added ↔ b ∈ T ∧ s.nDominated b = T.count b) ∧
      (T.foldl peelDec s).nextFront = s.nextFront ++ added ∧
      (T.foldl peelDec s).nRanked = s.nRanked + added.length ∧
      ∀ b, (T.foldl peelDec s).nDominated b = s.nDominated b - T.count b := by
  induction T with
  | nil => intro s _; exact ⟨[], by simp⟩
  | cons j T ih =>
    intro s hs
    have hnd : (peelDec s j).nDominated = Function.update s.nDominated j (s.nDominated j - 1) := by
      unfold peelDec; simp only; split <;> rfl
    have hj := hs j
    have hpre : ∀ b, (T.count b : ℤ) ≤ (peelDec s j).nDominated b := by
      intro b
      rw [hnd]
      have := hs b
      by_cases hb : b = j
      · subst hb; simp at this ⊢; omega
      · simp only [Function.update_of_ne hb]
        rw [List.count_cons_of_ne (Ne.symm hb)] at this
        exact this
    obtain ⟨added, a1, a2, a3, a4, a5⟩ := ih (peelDec s j) hpre
    rw [List.foldl_cons]
    have hnd' : ∀ b, (T.foldl peelDec (peelDec s j)).nDominated b = s.nDominated b - (j :: T).count b := by
      intro b
      rw [a5, hnd]
      by_cases hb : b = j
      · subst hb; simp; omega
      · rw [Function.update_of_ne hb, List.count_cons_of_ne (Ne.symm hb)]
    by_cases hc : s.nDominated j - 1 = 0
    · have e : peelDec s j = ⟨Function.update s.nDominated j (s.nDominated j - 1), s.nextFront ++ [j], s.nRanked + 1⟩ := by
        unfold peelDec; simp [hc]
      have hjT : j ∉ T := by
        intro hmem
        have h1 : 0 < T.count j := List.count_pos_iff.2 hmem
        simp at hj; omega
      refine ⟨j :: added, ?_, ?_, ?_, ?_, hnd'⟩
      · rw [List.nodup_cons]; exact ⟨fun h => hjT ((a2 j).1 h).1, a1⟩
      · intro b
        rw [List.mem_cons, a2, hnd]
        by_cases hb : b = j
        · subst hb
          have : T.count b = 0 := List.count_eq_zero.2 hjT
          simp [this]; omega
        · simp [hb, Function.update_of_ne hb, List.count_cons_of_ne (Ne.symm hb)]
      · rw [a3, e]; simp
      · rw [a4, e]; simp; omega
    · have e : peelDec s j = ⟨Function.update s.nDominated j (s.nDominated j - 1), s.nextFront, s.nRanked⟩ := by
        unfold peelDec; simp [hc]
      refine ⟨added, a1, ?_, ?_, ?_, hnd'⟩
      · intro b
        rw [a2, hnd]
        by_cases hb : b = j
        · subst hb
          simp only [Function.update_self, List.count_cons_self, List.mem_cons, true_or, true_and]
          constructor
          · rintro ⟨_, h⟩; push_cast; omega
          · intro h
            push_cast at h
            refine ⟨?_, by omega⟩
            have : 0 < T.count b := by omega
            exact List.count_pos_iff.1 this
        · simp [hb, Function.update_of_ne hb, List.count_cons_of_ne (Ne.symm hb)]
      · rw [a3, e]
      · rw [a4, e]

theorem peelRound_eq (isDom : Fin n → List (Fin n)) (cur : List (Fin n)) (nd : Fin n → ℤ) (r : ℕ) :
    peelRound isDom cur nd r = (cur.flatMap isDom).foldl peelDec ⟨nd, [], r⟩ := by
  unfold peelRound
  generalize (⟨nd, [], r⟩ : PeelState n) = s
  induction cur generalizing s with
  | nil => rfl
  | cons a cur ih => rw [List.foldl_cons, ih, List.flatMap_cons, List.foldl_append]

theorem count_flatMap_eq {M : Fin n → Fin n → ℤ} {isDom : Fin n → List (Fin n)}
    (hc : ∀ a b, (isDom a).count b = if M a b = 1 then 1 else 0) (cur : List (Fin n)) (hn : cur.Nodup)
    (b : Fin n) : (cur.flatMap isDom).count b = (Finset.univ.filter fun a => M a b = 1 ∧ a ∈ cur).card := by
  induction cur with
  | nil => simp
  | cons c cur ih =>
    rw [List.nodup_cons] at hn
    rw [List.flatMap_cons, List.count_append, ih hn.2, hc]
    by_cases h : M c b = 1
    · have : (Finset.univ.filter fun a => M a b = 1 ∧ a ∈ c :: cur) =
          insert c (Finset.univ.filter fun a => M a b = 1 ∧ a ∈ cur) := by
        ext a
        simp only [Finset.mem_filter, Finset.mem_univ, true_and, List.mem_cons, Finset.mem_insert]
        constructor
        · rintro ⟨h1, h2 | h2⟩
          · exact Or.inl h2
          · exact Or.inr ⟨h1, h2⟩
        · rintro (rfl | ⟨h1, h2⟩)
          · exact ⟨h, Or.inl rfl⟩
          · exact ⟨h1, Or.inr h2⟩
      rw [this, Finset.card_insert_of_notMem (by simp [hn.1]), if_pos h]; omega
    · have : (Finset.univ.filter fun a => M a b = 1 ∧ a ∈ c :: cur) =
          (Finset.univ.filter fun a => M a b = 1 ∧ a ∈ cur) := by
        ext a
        simp only [Finset.mem_filter, Finset.mem_univ, true_and, List.mem_cons]
        constructor
        · rintro ⟨h1, rfl | h2⟩
          · exact absurd h1 h
          · exact ⟨h1, h2⟩
        · rintro ⟨h1, h2⟩
          exact ⟨h1, Or.inr h2⟩
      rw [this, if_neg h]; omega

/-- Invariant of the peeling loop. `done` are the fronts before the current one. -/
structure PeelInv (M : Fin n → Fin n → ℤ) (done : List (List (Fin n))) (cur : List (Fin n)) (nd : Fin n → ℤ)
    (nRanked : ℕ) : Prop where
  nodup : (done ++ [cur]).flatten.Nodup
  nonempty : ∀ f ∈ done ++ [cur], f ≠ []
  level : ∀ k (hk : k < (done ++ [cur]).length) (i : Fin n), i ∈ (done ++ [cur])[k] ↔
    i ∉ ((done ++ [cur]).take k).flatten ∧ ∀ j, M j i = 1 → j ∈ ((done ++ [cur]).take k).flatten
  counter : ∀ b, nd b = (Finset.univ.filter fun a => M a b = 1 ∧ a ∉ done.flatten).card
  ranked : nRanked = (done ++ [cur]).flatten.length

theorem PeelInv.cur_iff {M : Fin n → Fin n → ℤ} {done cur nd r} (h : PeelInv M done cur nd r) (i : Fin n) :
    i ∈ cur ↔ i ∉ done.flatten ∧ ∀ j, M j i = 1 → j ∈ done.flatten := by
  have := h.level done.length (by simp) i
  simpa using this

theorem PeelInv.mem_dom {M : Fin n → Fin n → ℤ} {done cur nd r} (h : PeelInv M done cur nd r) {i j : Fin n}
    (hi : i ∈ done.flatten ∨ i ∈ cur) (hd : M j i = 1) : j ∈ done.flatten := by
  rcases hi with hi | hi
  · obtain ⟨f, hf, hif⟩ := List.mem_flatten.1 hi
    obtain ⟨k, hk, rfl⟩ := List.mem_iff_getElem.1 hf
    have h1 := (h.level k (by simp; omega) i).1 (by rw [List.getElem_append_left hk]; exact hif)
    have h2 := h1.2 j hd
    rw [List.take_append_of_le_length hk.le] at h2
    obtain ⟨l, hl, _, hjl⟩ := mem_take_flatten.1 h2
    exact List.mem_flatten.2 ⟨_, List.getElem_mem hl, hjl⟩
  · exact ((h.cur_iff i).1 hi).2 j hd

/-- Every non-empty set of points has a member that nothing in the set dominates. -/
def HasMinimal {ι : Type*} (dom : ι → ι → Prop) : Prop := ∀ s : Set ι, s.Nonempty → ∃ i ∈ s, ∀ j ∈ s, ¬ dom j i

theorem peel_step {M : Fin n → Fin n → ℤ} {isDom : Fin n → List (Fin n)}
    (hc : ∀ a b, (isDom a).count b = if M a b = 1 then 1 else 0)
    (hpo : HasMinimal (fun a b => M a b = 1))
    {done cur nd r} (h : PeelInv M done cur nd r) (hr : r < n) :
    let s := peelRound isDom cur nd r
    PeelInv M (done ++ [cur]) s.nextFront s.nDominated s.nRanked ∧ r < s.nRanked := by
  intro s
  have hnodup : cur.Nodup ∧ done.flatten.Nodup ∧ ∀ a ∈ done.flatten, a ∉ cur := by
    have := h.nodup
    rw [List.flatten_append, List.nodup_append] at this
    simp only [List.flatten_cons, List.flatten_nil, List.append_nil] at this
    exact ⟨this.2.1, this.1, fun a ha hb => this.2.2 a ha a hb rfl⟩
  have hcount := fun b => count_flatMap_eq hc cur hnodup.1 b
  have hle : ∀ b, ((cur.flatMap isDom).count b : ℤ) ≤ nd b := by
    intro b
    rw [hcount, h.counter]
    norm_cast
    apply Finset.card_le_card
    intro a
    simp only [Finset.mem_filter, Finset.mem_univ, true_and]
    rintro ⟨h1, h2⟩
    exact ⟨h1, fun h3 => hnodup.2.2 a h3 h2⟩
  obtain ⟨added, a1, a2, a3, a4, a5⟩ := peelDecs (cur.flatMap isDom) ⟨nd, [], r⟩ hle
  have hs : s = (cur.flatMap isDom).foldl peelDec ⟨nd, [], r⟩ := peelRound_eq isDom cur nd r
  rw [← hs] at a3 a4 a5
  simp only [List.nil_append] at a3 a4 a5
  -- membership in the next front
  have hmem : ∀ b, b ∈ added ↔ (b ∉ done.flatten ∧ b ∉ cur) ∧
      ∀ j, M j b = 1 → j ∈ done.flatten ∨ j ∈ cur := by
    intro b
    rw [a2]
    have hT : b ∈ cur.flatMap isDom ↔ ∃ a ∈ cur, M a b = 1 := by
      rw [List.mem_flatMap]
      apply exists_congr; intro a
      apply and_congr_right; intro _
      rw [← List.count_pos_iff, hc]; split <;> simp_all
    have hE : nd b = ((cur.flatMap isDom).count b : ℤ) ↔ ∀ j, M j b = 1 → j ∈ done.flatten ∨ j ∈ cur := by
      rw [hcount, h.counter]
      norm_cast
      have hsub : (Finset.univ.filter fun a => M a b = 1 ∧ a ∈ cur) ⊆
          (Finset.univ.filter fun a => M a b = 1 ∧ a ∉ done.flatten) := by
        intro a
        simp only [Finset.mem_filter, Finset.mem_univ, true_and]
        rintro ⟨h1, h2⟩
        exact ⟨h1, fun h3 => hnodup.2.2 a h3 h2⟩
      constructor
      · intro heq j hj
        have := Finset.eq_of_subset_of_card_le hsub heq.le
        by_contra hcon
        rw [not_or] at hcon
        have hmem : j ∈ (Finset.univ.filter fun a => M a b = 1 ∧ a ∉ done.flatten) := by
          simp only [Finset.mem_filter, Finset.mem_univ, true_and]
          exact ⟨hj, hcon.1⟩
        rw [← this] at hmem
        simp only [Finset.mem_filter, Finset.mem_univ, true_and] at hmem
        exact hcon.2 hmem.2
      · intro hall
        congr 1
        apply Finset.Subset.antisymm _ hsub
        intro a
        simp only [Finset.mem_filter, Finset.mem_univ, true_and]
        rintro ⟨h1, h2⟩
        exact ⟨h1, (hall a h1).resolve_left h2⟩
    rw [hT, hE]
    constructor
    · rintro ⟨⟨a, ha, hab⟩, hall⟩
      refine ⟨?_, hall⟩
      have hna : a ∉ done.flatten := fun h' => hnodup.2.2 a h' ha
      exact ⟨fun h' => hna (h.mem_dom (Or.inl h') hab), fun h' => hna (h.mem_dom (Or.inr h') hab)⟩
    · rintro ⟨⟨hb1, hb2⟩, hall⟩
      refine ⟨?_, hall⟩
      by_contra hcon
      apply hb2
      rw [h.cur_iff]
      refine ⟨hb1, fun j hj => (hall j hj).resolve_right ?_⟩
      exact fun hjc => hcon ⟨j, hjc, hj⟩
  have hfl : (done ++ [cur]).flatten = done.flatten ++ cur := by simp
  -- the next front is not empty
  have hne : added ≠ [] := by
    have hex : ∃ i : Fin n, i ∉ (done ++ [cur]).flatten := by
      by_contra hcon
      push Not at hcon
      have := Finset.card_le_card (s := (Finset.univ : Finset (Fin n))) (t := (done ++ [cur]).flatten.toFinset)
        (fun i _ => List.mem_toFinset.2 (hcon i))
      rw [Finset.card_univ, Fintype.card_fin, List.toFinset_card_of_nodup h.nodup, ← h.ranked] at this
      omega
    obtain ⟨i, hi, hmin⟩ := hpo {i | i ∉ (done ++ [cur]).flatten} hex
    have : i ∈ added := by
      rw [hmem]
      rw [Set.mem_ofPred_eq, hfl, List.mem_append, not_or] at hi
      refine ⟨hi, fun j hj => ?_⟩
      by_contra hcon
      exact hmin j (by rw [Set.mem_ofPred_eq, hfl, List.mem_append]; exact hcon) hj
    exact List.ne_nil_of_mem this
  rw [a3, a4]
  refine ⟨⟨?_, ?_, ?_, ?_, ?_⟩, ?_⟩
  · rw [List.flatten_append, List.nodup_append]
    refine ⟨h.nodup, by simpa using a1, ?_⟩
    intro a ha b hb hab
    subst hab
    simp only [List.flatten_cons, List.flatten_nil, List.append_nil] at hb
    rw [hfl, List.mem_append] at ha
    have := ((hmem a).1 hb).1
    tauto
  · intro f hf
    rw [List.mem_append, List.mem_singleton] at hf
    rcases hf with hf | rfl
    · exact h.nonempty f hf
    · exact hne
  · intro k hk i
    rcases lt_or_ge k (done ++ [cur]).length with hlt | hge
    · rw [List.getElem_append_left hlt, List.take_append_of_le_length hlt.le]
      exact h.level k hlt i
    · have hke : k = (done ++ [cur]).length := by
        rw [List.length_append, List.length_singleton] at hk; omega
      subst hke
      rw [List.getElem_append_right (le_refl _), List.take_left]
      simp only [Nat.sub_self, List.getElem_cons_zero, hfl, List.mem_append, not_or]
      exact hmem i
  · intro b
    rw [a5, h.counter, hcount]
    have hsplit : (Finset.univ.filter fun a => M a b = 1 ∧ a ∉ done.flatten) =
        (Finset.univ.filter fun a => M a b = 1 ∧ a ∉ (done ++ [cur]).flatten) ∪
        (Finset.univ.filter fun a => M a b = 1 ∧ a ∈ cur) := by
      ext a
      simp only [Finset.mem_filter, Finset.mem_univ, true_and, Finset.mem_union, hfl, List.mem_append, not_or]
      have := hnodup.2.2 a
      tauto
    have hdisj : Disjoint (Finset.univ.filter fun a => M a b = 1 ∧ a ∉ (done ++ [cur]).flatten)
        (Finset.univ.filter fun a => M a b = 1 ∧ a ∈ cur) := by
      rw [Finset.disjoint_left]
      intro a
      simp only [Finset.mem_filter, Finset.mem_univ, true_and, hfl, List.mem_append, not_or]
      tauto
    rw [hsplit, Finset.card_union_of_disjoint hdisj]
    push_cast; omega
  · rw [h.ranked, List.flatten_append, List.length_append]
    simp [Nat.add_assoc]
  · have : 0 < added.length := List.length_pos_iff.2 hne
    omega

theorem PeelInv.canonical {M : Fin n → Fin n → ℤ} {done cur nd r} (h : PeelInv M done cur nd r) (hr : ¬ r < n) :
    CanonicalFronts (fun a b => M a b = 1) (done ++ [cur]) := by
  refine ⟨h.nodup, ?_, h.nonempty, h.level⟩
  intro i
  by_contra hcon
  have hlt : (done ++ [cur]).flatten.toFinset.card < Fintype.card (Fin n) := by
    rw [← Finset.card_univ]
    apply Finset.card_lt_card
    rw [Finset.ssubset_univ_iff]
    intro he
    have : i ∈ (done ++ [cur]).flatten.toFinset := by rw [he]; exact Finset.mem_univ i
    exact hcon (List.mem_toFinset.1 this)
  rw [List.toFinset_card_of_nodup h.nodup, ← h.ranked, Fintype.card_fin] at hlt
  exact hr hlt

theorem peelLoop_spec {M : Fin n → Fin n → ℤ} {isDom : Fin n → List (Fin n)}
    (hc : ∀ a b, (isDom a).count b = if M a b = 1 then 1 else 0)
    (hpo : HasMinimal (fun a b => M a b = 1)) (fuel : ℕ) :
    ∀ done cur nd r, PeelInv M done cur nd r → n ≤ r + fuel →
    ∃ fronts, peelLoop isDom fuel cur nd r (done ++ [cur]) = some fronts ∧
      CanonicalFronts (fun a b => M a b = 1) fronts := by
  induction fuel with
  | zero =>
    intro done cur nd r h hf
    have : ¬ r < n := by omega
    exact ⟨_, by simp [peelLoop, this], h.canonical this⟩
  | succ fuel ih =>
    intro done cur nd r h hf
    rw [peelLoop]
    by_cases hr : r < n
    · rw [if_pos hr]
      obtain ⟨h1, h2⟩ := peel_step hc hpo h hr
      exact ih _ _ _ _ h1 (by omega)
    · rw [if_neg hr]
      exact ⟨_, rfl, h.canonical hr⟩

theorem fastFromMatrix_founded (M : Fin n → Fin n → ℤ) (hM : ∀ a b, M b a = - M a b)
    (hpo : HasMinimal (fun a b => M a b = 1)) (fuel : ℕ) (hf : n ≤ fuel) :
    ∃ fronts, fastFromMatrix fuel M = some fronts ∧ CanonicalFronts (fun a b => M a b = 1) fronts := by
  unfold fastFromMatrix
  by_cases h0 : n = 0
  · rw [if_pos h0]
    refine ⟨[], rfl, ⟨by simp, ?_, by simp, by simp⟩⟩
    intro i; subst h0; exact i.elim0
  · rw [if_neg h0]
    obtain ⟨h1, h2, h3, h4⟩ := fastInit_spec hM
    apply peelLoop_spec h1 hpo fuel [] _ _ _ _ (by omega)
    have hne : (fastInit M).currentFront ≠ [] := by
      obtain ⟨i, _, hi⟩ := hpo Set.univ ⟨⟨0, by omega⟩, trivial⟩
      have : i ∈ (fastInit M).currentFront := by
        rw [h3]; simp only [List.mem_filter, List.mem_finRange, true_and, decide_eq_true_eq]
        exact fun a => hi a trivial
      exact List.ne_nil_of_mem this
    refine ⟨?_, ?_, ?_, ?_, ?_⟩
    · simp only [List.nil_append, List.flatten_cons, List.flatten_nil, List.append_nil]
      rw [h3]; exact (List.nodup_finRange n).filter _
    · simpa using hne
    · intro k hk i
      have : k = 0 := by simpa using hk
      subst this
      simp [h3]
    · intro b; rw [h2]; simp
    · rw [h4]; simp

theorem fastFromMatrix_spec (M : Fin n → Fin n → ℤ) (hM : ∀ a b, M b a = - M a b)
    (hpo : StrictPO (fun a b => M a b = 1)) (fuel : ℕ) (hf : n ≤ fuel) :
    ∃ fronts, fastFromMatrix fuel M = some fronts ∧ CanonicalFronts (fun a b => M a b = 1) fronts :=
  fastFromMatrix_founded M hM (fun s hs => StrictPO.exists_minimal hpo s hs) fuel hf

/-- The part of a matrix that the sorting looks at: the entries above the diagonal. -/
def upper (M : Fin n → Fin n → ℤ) (i j : Fin n) : ℤ := if i < j then M i j else if j < i then - M j i else 0

theorem upper_skew (M : Fin n → Fin n → ℤ) (a b : Fin n) : upper M b a = - upper M a b := by
  unfold upper
  rcases lt_trichotomy a b with h | h | h
  · rw [if_neg (not_lt.2 h.le), if_pos h, if_pos h]
  · subst h; simp
  · rw [if_pos h, if_neg (not_lt.2 h.le), if_pos h, neg_neg]

theorem fastRow_congr {M M' : Fin n → Fin n → ℤ} (h : ∀ i j, i < j → M i j = M' i j) (s : FastState n) (i : Fin n) :
    fastRow M s i = fastRow M' s i := by
  have : ∀ (l : List (Fin n)), (∀ j ∈ l, i < j) → ∀ s : FastState n, l.foldl (fastPair M i) s = l.foldl (fastPair M' i) s := by
    intro l
    induction l with
    | nil => intro _ s; rfl
    | cons j l ih =>
      intro hl s
      have e : fastPair M i s j = fastPair M' i s j := by
        unfold fastPair
        rw [h i j (hl j (by simp))]
      rw [List.foldl_cons, List.foldl_cons, e]
      exact ih (fun j hj => hl j (by simp [hj])) _
  unfold fastRow
  rw [this _ (fun j hj => by simpa using (List.mem_filter.1 hj).2)]

/-- The sorting reads a matrix only above its diagonal. -/
theorem fastFromMatrix_upper (fuel : ℕ) (M : Fin n → Fin n → ℤ) : fastFromMatrix fuel M = fastFromMatrix fuel (upper M) := by
  have e : fastInit M = fastInit (upper M) := by
    unfold fastInit
    congr 1
    funext s i
    exact fastRow_congr (fun i j h => by unfold upper; rw [if_pos h]) s i
  unfold fastFromMatrix
  rw [e]

end Lemmas
