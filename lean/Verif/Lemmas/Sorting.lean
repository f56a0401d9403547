import Verif.Model.Sorting
import Mathlib.Logic.Equiv.Basic
import Mathlib.Data.List.Perm.Basic
import Mathlib.Tactic.Common
import Mathlib.Order.Basic

set_option linter.unusedSimpArgs false

namespace Lemmas
open Model
variable {ι α : Type*}

/-! ## quicksort -/

theorem swapAt_eq (M : ℕ → ι) (a b : ℕ) : swapAt M a b = fun k => M (Equiv.swap a b k) := by
  funext k
  unfold swapAt
  by_cases h1 : k = b
  · subst h1; simp
  · by_cases h2 : k = a
    · subst h2; simp [h1]
    · simp [h1, h2, Equiv.swap_apply_of_ne_of_ne h2 h1]

/-- `I'` is `I` rearranged inside `[l, r]`. -/
def Rearr (l r : ℕ) (I I' : ℕ → ι) : Prop :=
  ∃ σ : Equiv.Perm ℕ, (∀ k, I' k = I (σ k)) ∧ ∀ k, k < l ∨ r < k → σ k = k

theorem Rearr.refl (l r : ℕ) (I : ℕ → ι) : Rearr l r I I := ⟨Equiv.refl _, fun _ => rfl, fun _ _ => rfl⟩

theorem Rearr.trans {l r : ℕ} {I J K : ℕ → ι} (h1 : Rearr l r I J) (h2 : Rearr l r J K) : Rearr l r I K := by
  obtain ⟨σ, hσ, hσ'⟩ := h1
  obtain ⟨τ, hτ, hτ'⟩ := h2
  refine ⟨τ.trans σ, fun k => ?_, fun k hk => ?_⟩
  · rw [hτ, hσ]; rfl
  · simp [hτ' k hk, hσ' k hk]

theorem Rearr.mono {l r l' r' : ℕ} {I J : ℕ → ι} (h : Rearr l r I J) (hl : l' ≤ l) (hr : r ≤ r') : Rearr l' r' I J := by
  obtain ⟨σ, hσ, hσ'⟩ := h
  exact ⟨σ, hσ, fun k hk => hσ' k (by omega)⟩

theorem Rearr.swap {l r a b : ℕ} (I : ℕ → ι) (ha : l ≤ a ∧ a ≤ r) (hb : l ≤ b ∧ b ≤ r) :
    Rearr l r I (swapAt I a b) := by
  refine ⟨Equiv.swap a b, fun k => by rw [swapAt_eq], fun k hk => ?_⟩
  exact Equiv.swap_apply_of_ne_of_ne (by omega) (by omega)

theorem Rearr.outside {l r : ℕ} {I J : ℕ → ι} (h : Rearr l r I J) {k : ℕ} (hk : k < l ∨ r < k) : J k = I k := by
  obtain ⟨σ, hσ, hσ'⟩ := h
  rw [hσ, hσ' k hk]

theorem Rearr.inside {l r : ℕ} {I J : ℕ → ι} (h : Rearr l r I J) {k : ℕ} (hk : l ≤ k ∧ k ≤ r) :
    ∃ k', l ≤ k' ∧ k' ≤ r ∧ J k = I k' := by
  obtain ⟨σ, hσ, hσ'⟩ := h
  by_cases hin : l ≤ σ k ∧ σ k ≤ r
  · exact ⟨σ k, hin.1, hin.2, hσ k⟩
  · have := hσ' (σ k) (by omega)
    have := σ.injective this
    omega

section
variable [LinearOrder α]

theorem partitionLoop_spec (A : ι → α) (pivot : α) (left : ℕ) (d : ℕ) : ∀ (I : ℕ → ι) (r : ℕ), left + d ≤ r →
    let st := partitionLoop A pivot (List.range' left d) (I, left)
    Rearr left (left + d - 1) I st.1 ∧ left ≤ st.2 ∧ st.2 ≤ left + d ∧
    (∀ k, left ≤ k → k < st.2 → A (st.1 k) ≤ pivot) ∧ (∀ k, st.2 ≤ k → k < left + d → pivot < A (st.1 k)) := by
  induction d with
  | zero =>
    intro I r _
    simp only [partitionLoop, List.range'_zero, List.foldl_nil]
    exact ⟨Rearr.refl _ _ _, le_rfl, by omega, by intro k _ _; omega, by intro k _ _; omega⟩
  | succ d ih =>
    intro I r hr
    obtain ⟨h1, h2, h3, h4, h5⟩ := ih I r (by omega)
    have hstep : partitionLoop A pivot (List.range' left (d + 1)) (I, left) =
        let st := partitionLoop A pivot (List.range' left d) (I, left)
        if A (st.1 (left + d)) ≤ pivot then (swapAt st.1 st.2 (left + d), st.2 + 1) else st := by
      rw [List.range'_1_concat]
      simp only [partitionLoop, List.foldl_append, List.foldl_cons, List.foldl_nil]
      rfl
    rw [hstep]
    generalize partitionLoop A pivot (List.range' left d) (I, left) = st at *
    obtain ⟨J, s⟩ := st
    simp only at h1 h2 h3 h4 h5 ⊢
    by_cases hA : A (J (left + d)) ≤ pivot
    · rw [if_pos hA]
      refine ⟨(h1.mono le_rfl (by omega)).trans (Rearr.swap J ⟨h2, by omega⟩ ⟨by omega, by omega⟩), by
        simp only; omega, by simp only; omega, ?_, ?_⟩
      · intro k hk1 hk2
        simp only [swapAt]
        by_cases hkd : k = left + d
        · rw [if_pos hkd]
          have : s = left + d := by simp only at hk2; omega
          rw [this]; exact hA
        · rw [if_neg hkd]
          by_cases hks : k = s
          · rw [if_pos hks]; exact hA
          · rw [if_neg hks]
            exact h4 k hk1 (by simp only at hk2; omega)
      · intro k hk1 hk2
        simp only at hk1
        simp only [swapAt]
        by_cases hkd : k = left + d
        · rw [if_pos hkd]
          exact h5 s le_rfl (by omega)
        · rw [if_neg hkd, if_neg (by omega)]
          exact h5 k (by omega) (by omega)
    · rw [if_neg hA]
      refine ⟨h1.mono le_rfl (by omega), h2, by simp only; omega, h4, ?_⟩
      intro k hk1 hk2
      by_cases hkd : k = left + d
      · subst hkd; exact not_le.1 hA
      · exact h5 k hk1 (by omega)

theorem quicksortRec_spec (A : ι → α) (pick : ℕ → ℕ → ℕ)
    (hpick : ∀ l r, l < r → l ≤ pick l r ∧ pick l r ≤ r) (fuel : ℕ) : ∀ (I : ℕ → ι) (left right : ℕ),
    right - left ≤ fuel → ∃ I', quicksortRec A pick fuel I left right = some I' ∧ Rearr left right I I' ∧
      ∀ a b, left ≤ a → a < b → b ≤ right → A (I' a) ≤ A (I' b) := by
  induction fuel with
  | zero =>
    intro I left right h
    have : ¬ left < right := by omega
    exact ⟨I, by simp [quicksortRec, this], Rearr.refl _ _ _, by intro a b _ _ _; omega⟩
  | succ fuel ih =>
    intro I left right h
    by_cases hlt : left < right
    · obtain ⟨p1, p2⟩ := hpick left right hlt
      simp only [quicksortRec, if_pos hlt]
      set I1 := swapAt I right (pick left right) with hI1
      have r1 : Rearr left right I I1 := Rearr.swap I ⟨by omega, le_rfl⟩ ⟨p1, p2⟩
      have hp := partitionLoop_spec A (A (I1 right)) left (right - left) I1 right (by omega)
      generalize hst : partitionLoop A (A (I1 right)) (List.range' left (right - left)) (I1, left) = st at *
      obtain ⟨J, s⟩ := st
      simp only at hp
      obtain ⟨q1, q2, q3, q4, q5⟩ := hp
      have e1 : left + (right - left) = right := by omega
      rw [e1] at q1 q3 q5
      have hJr : J right = I1 right := q1.outside (by omega)
      have r2 : Rearr left right J (swapAt J right s) := Rearr.swap J ⟨by omega, le_rfl⟩ ⟨q2, q3⟩
      set K := swapAt J right s with hK
      have Ks : K s = J right := by simp [hK, swapAt]
      have Klow : ∀ k, left ≤ k → k < s → A (K k) ≤ A (K s) := by
        intro k hk1 hk2
        rw [Ks, hJr]
        have : K k = J k := by
          simp only [hK, swapAt]; rw [if_neg (by omega), if_neg (by omega)]
        rw [this]; exact q4 k hk1 hk2
      have Khigh : ∀ k, s < k → k ≤ right → A (K s) ≤ A (K k) := by
        intro k hk1 hk2
        rw [Ks, hJr]
        by_cases hkr : k = right
        · have : K k = J s := by
            simp only [hK, swapAt]; rw [if_neg (by omega), if_pos hkr]
          rw [this]; exact le_of_lt (q5 s le_rfl (by omega))
        · have : K k = J k := by
            simp only [hK, swapAt]; rw [if_neg (by omega), if_neg hkr]
          rw [this]; exact le_of_lt (q5 k (by omega) (by omega))
      obtain ⟨L, l1, l2, l3⟩ := ih K left (s - 1) (by omega)
      obtain ⟨M, m1, m2, m3⟩ := ih L (s + 1) right (by omega)
      refine ⟨M, by simp [l1, m1], ?_, ?_⟩
      · exact (r1.trans (q1.mono le_rfl (by omega))).trans (r2.trans
          ((l2.mono le_rfl (by omega)).trans (m2.mono (by omega) le_rfl)))
      · -- the left recursive call leaves everything from `s` on alone
        have hL : ∀ k, s ≤ k → L k = K k := by
          intro k hk
          rcases Nat.eq_zero_or_pos s with h0 | h0
          · have hz : quicksortRec A pick fuel K left (s - 1) = some K := by
              have : ¬ left < s - 1 := by omega
              cases fuel <;> simp [quicksortRec, this]
            rw [hz] at l1
            simp only [Option.some.injEq] at l1
            rw [l1]
          · exact l2.outside (by omega)
        have hM : ∀ k, k ≤ s → M k = L k := fun k hk => m2.outside (by omega)
        have low : ∀ a, left ≤ a → a < s → A (M a) ≤ A (K s) := by
          intro a ha1 ha2
          rw [hM a (by omega)]
          obtain ⟨k', hk1, hk2, hk3⟩ := l2.inside (k := a) ⟨ha1, by omega⟩
          rw [hk3]; exact Klow k' hk1 (by omega)
        have high : ∀ b, s < b → b ≤ right → A (K s) ≤ A (M b) := by
          intro b hb1 hb2
          obtain ⟨k', hk1, hk2, hk3⟩ := m2.inside (k := b) ⟨by omega, hb2⟩
          rw [hk3, hL k' (by omega)]
          exact Khigh k' (by omega) hk2
        have hMs : M s = K s := by rw [hM s le_rfl, hL s le_rfl]
        intro a b ha hab hb
        rcases lt_trichotomy b s with hbs | hbs | hbs
        · rw [hM a (by omega), hM b (by omega)]
          exact l3 a b ha hab (by omega)
        · subst hbs; rw [hMs]; exact low a ha hab
        · rcases lt_trichotomy a s with has | has | has
          · exact le_trans (low a ha has) (high b hbs hb)
          · subst has; rw [hMs]; exact high b hbs hb
          · exact m3 a b (by omega) hab hb
    · exact ⟨I, by simp [quicksortRec, hlt], Rearr.refl _ _ _, by intro a b _ _ _; omega⟩

theorem quicksort_spec (A : ℕ → α) (n : ℕ) (pick : ℕ → ℕ → ℕ)
    (hpick : ∀ l r, l < r → l ≤ pick l r ∧ pick l r ≤ r) :
    ∃ I, quicksort A n pick = some I ∧ I.Perm (List.range n) ∧ I.Pairwise (fun a b => A a ≤ A b) := by
  obtain ⟨I', h1, h2, h3⟩ := quicksortRec_spec A pick hpick n id 0 (n - 1) (by omega)
  refine ⟨(List.range n).map I', by simp [quicksort, h1], ?_, ?_⟩
  · rcases Nat.eq_zero_or_pos n with hn | hn
    · subst hn; simp
    obtain ⟨σ, hσ, hσ'⟩ := h2
    have hI : I' = σ := by funext k; simp [hσ k]
    rw [hI, List.perm_ext_iff_of_nodup]
    · intro a
      simp only [List.mem_map, List.mem_range]
      constructor
      · rintro ⟨k, hk, rfl⟩
        by_contra hc
        have := hσ' (σ k) (by omega)
        have := σ.injective this
        omega
      · intro ha
        refine ⟨σ.symm a, ?_, by simp⟩
        by_contra hc
        have := hσ' (σ.symm a) (by omega)
        simp only [Equiv.apply_symm_apply] at this
        omega
    · exact (List.nodup_range).map σ.injective
    · exact List.nodup_range
  · rw [List.pairwise_map]
    rw [List.pairwise_iff_getElem]
    intro i j hi hj hij
    simp only [List.length_range] at hi hj
    simp only [List.getElem_range]
    exact h3 i j (by omega) hij (by omega)

end

/-! ## bubble passes -/

theorem srPass_perm (gt : ℕ → ι → ι → Bool) (l : List ι) : ∀ j, (srPass gt j l).1.Perm l := by
  induction hn : l.length using Nat.strong_induction_on generalizing l with
  | _ n ih =>
    intro j
    match l, hn with
    | [], _ => simp [srPass]
    | [a], _ => simp [srPass]
    | a :: b :: rest, hn =>
      rw [srPass]
      split_ifs
      · have := ih (rest.length + 1) (by simp at hn; omega) (a :: rest) (by simp) (j + 1)
        exact (this.cons b).trans (List.Perm.swap a b rest)
      · have := ih (rest.length + 1) (by simp at hn; omega) (b :: rest) (by simp) (j + 1)
        exact this.cons a

theorem srLoop_perm (gt : ℕ → ℕ → ι → ι → Bool) (r : ℕ) : ∀ i (I : List ι), (srLoop gt r i I).Perm I := by
  induction r with
  | zero => intro i I; simp [srLoop]
  | succ r ih =>
    intro i I
    rw [srLoop]
    split_ifs
    · exact (ih _ _).trans (srPass_perm _ _ _)
    · exact srPass_perm _ _ _

section Bubble
variable (gt : ℕ → ι → ι → Bool) (le : ι → ι → Prop)

/-- A pass without swap leaves a list whose neighbours are in order. -/
theorem srPass_noswap (hgt : ∀ j a b, gt j a b = false → le a b) (l : List ι) :
    ∀ j, (srPass gt j l).2 = false → (srPass gt j l).1 = l ∧ l.IsChain le := by
  induction hn : l.length using Nat.strong_induction_on generalizing l with
  | _ n ih =>
    intro j
    match l, hn with
    | [], _ => simp [srPass]
    | [a], _ => simp [srPass]
    | a :: b :: rest, hn =>
      rw [srPass]
      by_cases hg : gt j a b = true
      · simp [hg]
      · rw [if_neg hg]
        intro h
        obtain ⟨h1, h2⟩ := ih (rest.length + 1) (by simp at hn; omega) (b :: rest) (by simp) (j + 1) h
        refine ⟨by simp [h1], ?_⟩
        rw [List.isChain_cons_cons]
        exact ⟨hgt j a b (by simpa using hg), h2⟩

/-- A pass over `A ++ B`, where `B` is sorted and above `A`, moves a largest element of `A` to its end and
leaves `B` alone. -/
theorem srPass_bubble (htot : ∀ a b, le a b ∨ le b a) (htr : ∀ a b c, le a b → le b c → le a c)
    (hgt : ∀ j a b, gt j a b = true ↔ ¬ le a b) (B : List ι) (hB : B.Pairwise le) :
    ∀ (A : List ι), A ≠ [] → (∀ a ∈ A, ∀ b ∈ B, le a b) → ∀ j, ∃ A' x,
      (srPass gt j (A ++ B)).1 = A' ++ x :: B ∧ (A' ++ [x]).Perm A ∧ ∀ a ∈ A', le a x := by
  have hrefl : ∀ a, le a a := fun a => (htot a a).elim id id
  -- nothing happens inside a sorted list
  have hsorted : ∀ (L : List ι), L.Pairwise le → ∀ j, (srPass gt j L).1 = L := by
    intro L
    induction L with
    | nil => intro _ j; simp [srPass]
    | cons a L ihL =>
      intro hL j
      cases L with
      | nil => simp [srPass]
      | cons b L =>
        rw [List.pairwise_cons] at hL
        have : ¬ gt j a b = true := by rw [hgt]; simpa using hL.1 b (by simp)
        rw [srPass, if_neg this]
        simp only [ihL hL.2]
  intro A
  induction hn : A.length using Nat.strong_induction_on generalizing A with
  | _ n ih =>
    intro hne hAB j
    match A, hn with
    | [], _ => exact absurd rfl hne
    | [a], _ =>
      refine ⟨[], a, ?_, by simp, by simp⟩
      rw [List.singleton_append, hsorted]
      · simp
      · rw [List.pairwise_cons]; exact ⟨fun b hb => hAB a (by simp) b hb, hB⟩
    | a :: b :: rest, hn =>
      rw [List.cons_append, List.cons_append, srPass]
      by_cases hg : gt j a b = true
      · rw [if_pos hg]
        obtain ⟨A', x, h1, h2, h3⟩ := ih (rest.length + 1) (by simp at hn; omega) (a :: rest) (by simp) (by simp)
          (fun c hc => hAB c (by simp only [List.mem_cons] at hc ⊢; tauto)) (j + 1)
        refine ⟨b :: A', x, ?_, ?_, ?_⟩
        · rw [List.cons_append] at h1
          simp only [h1, List.cons_append]
        · exact (h2.cons b).trans (List.Perm.swap a b rest)
        · have hba : le b a := by
            rcases htot a b with h | h
            · exact absurd h ((hgt j a b).1 hg)
            · exact h
          have hax : le a x := by
            have : a ∈ A' ++ [x] := h2.mem_iff.2 (by simp)
            rcases List.mem_append.1 this with h | h
            · exact h3 a h
            · rw [List.mem_singleton.1 h]; exact hrefl x
          intro c hc
          rcases List.mem_cons.1 hc with rfl | h
          · exact htr _ _ _ hba hax
          · exact h3 c h
      · rw [if_neg hg]
        obtain ⟨A', x, h1, h2, h3⟩ := ih (rest.length + 1) (by simp at hn; omega) (b :: rest) (by simp) (by simp)
          (fun c hc => hAB c (by simp only [List.mem_cons] at hc ⊢; tauto)) (j + 1)
        refine ⟨a :: A', x, ?_, ?_, ?_⟩
        · rw [List.cons_append] at h1
          simp only [h1, List.cons_append]
        · exact h2.cons a
        · have hab : le a b := by
            by_contra hc
            exact hg ((hgt j a b).2 hc)
          have hbx : le b x := by
            have : b ∈ A' ++ [x] := h2.mem_iff.2 (by simp)
            rcases List.mem_append.1 this with h | h
            · exact h3 b h
            · rw [List.mem_singleton.1 h]; exact hrefl x
          intro c hc
          rcases List.mem_cons.1 hc with rfl | h
          · exact htr _ _ _ hab hbx
          · exact h3 c h

end Bubble

theorem srLoop_sorted (gt : ℕ → ℕ → ι → ι → Bool) (le : ι → ι → Prop) (htot : ∀ a b, le a b ∨ le b a)
    (htr : ∀ a b c, le a b → le b c → le a c) (hgt : ∀ i j a b, gt i j a b = true ↔ ¬ le a b) (r : ℕ) :
    ∀ i (A B : List ι), A.length ≤ r → B.Pairwise le → (∀ a ∈ A, ∀ b ∈ B, le a b) →
      (srLoop gt r i (A ++ B)).Pairwise le := by
  have : IsTrans ι le := ⟨htr⟩
  induction r with
  | zero =>
    intro i A B hA hB _
    have : A = [] := List.length_eq_zero_iff.1 (by omega)
    subst this
    simpa [srLoop] using hB
  | succ r ih =>
    intro i A B hA hB hAB
    rw [srLoop]
    by_cases hs : (srPass (gt i) 0 (A ++ B)).2 = true
    · rw [if_pos hs]
      by_cases hne : A = []
      · subst hne
        have h := srPass_perm (gt i) ([] ++ B) 0
        -- a sorted list is never changed
        exfalso
        have key : ∀ (L : List ι), L.Pairwise le → ∀ j, (srPass (gt i) j L).2 = false := by
          intro L
          induction L with
          | nil => intro _ j; simp [srPass]
          | cons a L ihL =>
            intro hL j
            cases L with
            | nil => simp [srPass]
            | cons b L =>
              rw [List.pairwise_cons] at hL
              have : ¬ gt i j a b = true := by rw [hgt]; simpa using hL.1 b (by simp)
              rw [srPass, if_neg this]
              simp only [ihL hL.2]
        rw [List.nil_append, key B hB 0] at hs
        simp at hs
      · obtain ⟨A', x, h1, h2, h3⟩ := srPass_bubble (gt i) le htot htr (hgt i) B hB A hne hAB 0
        rw [h1]
        refine ih (i + 1) A' (x :: B) ?_ ?_ ?_
        · have := h2.length_eq
          simp at this
          omega
        · rw [List.pairwise_cons]
          exact ⟨fun b hb => hAB x (h2.mem_iff.1 (by simp)) b hb, hB⟩
        · intro a ha b hb
          rcases List.mem_cons.1 hb with rfl | hb
          · exact h3 a ha
          · exact hAB a (h2.mem_iff.1 (by simp [ha])) b hb
    · rw [if_neg hs]
      obtain ⟨h1, h2⟩ := srPass_noswap (gt i) le (fun j a b h => by
        by_contra hc; simp [(hgt i j a b).2 hc] at h) (A ++ B) 0 (by simpa using hs)
      rw [h1]
      exact List.isChain_iff_pairwise.1 h2

end Lemmas
