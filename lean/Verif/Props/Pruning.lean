import Verif.Model.Pruning
import Verif.Props.CTAEA
import Verif.Lemmas.Optimum
import Mathlib.Data.List.NodupEquivFin
import Mathlib.Data.List.GetD
import Mathlib.Algebra.Order.BigOperators.Group.List
import Mathlib.Algebra.Order.BigOperators.GroupWithZero.List
import Mathlib.Tactic.Linarith
import Mathlib.Tactic.Positivity
import Mathlib.Data.Fin.VecNotation

/-! # C91: the pruning crowding metrics -/

set_option linter.unusedSimpArgs false
set_option linter.unusedVariables false
set_option linter.unusedSectionVars false

namespace Props
open Model Spec Lemmas
open scoped BigOperators

variable {K : Type*} [Field K] [LinearOrder K] [IsStrictOrderedRing K] {M : ℕ}

/-- The value of point `i` when `H` are left: infinite for an extreme point, else the metric. -/
def prVal (D : List ℕ → ℕ → WithTop K) (E H : List ℕ) (i : ℕ) : WithTop K := if i ∈ E then ⊤ else D H i

/-- What is left of `0 .. N - 1` after the removal of `ks`. -/
def left (N : ℕ) (ks : List ℕ) : List ℕ := (List.range N).filter fun i => decide (i ∉ ks)

/-- Greedy pruning: every removed point has the least value among those left when it is removed, where the values are computed anew after every removal. -/
def GreedyPruning (D : List ℕ → ℕ → WithTop K) (E : List ℕ) (N : ℕ) (ks : List ℕ) : Prop :=
  ∀ t (ht : t < ks.length), ks[t] ∈ left N (ks.take t) ∧ ∀ y ∈ left N (ks.take t), prVal D E (left N (ks.take t)) ks[t] ≤ prVal D E (left N (ks.take t)) y

theorem left_snoc (N : ℕ) (ks : List ℕ) (k : ℕ) : (left N ks).filter (fun i => decide (i ≠ k)) = left N (ks ++ [k]) := by
  unfold left
  rw [List.filter_filter]
  refine List.filter_congr fun i _ => ?_
  by_cases h : i = k <;> by_cases h' : i ∈ ks <;> simp [h, h']

theorem left_length (N : ℕ) (ks : List ℕ) (hn : ks.Nodup) (hk : ∀ k ∈ ks, k < N) : (left N ks).length = N - ks.length := by
  induction ks using List.reverseRecOn with
  | nil => simp [left]
  | append_singleton ks k ih =>
    rw [List.nodup_append] at hn
    have ih' := ih hn.1 fun a ha => hk a (by simp [ha])
    have hkk : k ∈ left N ks := by
      unfold left
      rw [List.mem_filter]
      refine ⟨List.mem_range.2 (hk k (by simp)), ?_⟩
      simp only [decide_eq_true_eq]
      exact fun h => hn.2.2 k h k (by simp) rfl
    have : (left N ks).filter (fun i => decide (i ≠ k)) = (left N ks).erase k := by
      have hnd : (left N ks).Nodup := List.nodup_range.filter _
      rw [hnd.erase_eq_filter]
      refine List.filter_congr fun i _ => ?_
      by_cases h : i = k <;> simp [h]
    rw [← left_snoc, this, List.length_erase_of_mem hkk, ih']
    simp; omega

/-- The loop, from any greedy start. -/
theorem prLoop_spec (D : List ℕ → ℕ → WithTop K) (E : List ℕ) (N r : ℕ) (ks : List ℕ) (d : ℕ → WithTop K) (hr : ks.length + r < N) (hn : ks.Nodup) (hk : ∀ k ∈ ks, k < N)
    (hg : GreedyPruning D E N ks) (hd : ∀ i ∈ left N ks, d i = prVal D E (left N ks) i) (hdk : ∀ t (ht : t < ks.length), d ks[t] = prVal D E (left N (ks.take t)) ks[t]) :
    ∃ ks', ks'.length = ks.length + r ∧ ks'.Nodup ∧ (∀ k ∈ ks', k < N) ∧ GreedyPruning D E N ks' ∧ (prLoop D E r (left N ks, d)).1 = left N ks' ∧
      (∀ i ∈ left N ks', (prLoop D E r (left N ks, d)).2 i = prVal D E (left N ks') i) ∧
      (∀ t (ht : t < ks'.length), (prLoop D E r (left N ks, d)).2 ks'[t] = prVal D E (left N (ks'.take t)) ks'[t]) := by
  induction r generalizing ks d with
  | zero => exact ⟨ks, rfl, hn, hk, hg, rfl, hd, hdk⟩
  | succ r ih =>
    have hlen := left_length N ks hn hk
    obtain ⟨a1, a2⟩ := npArgmin_spec d (left N ks)
    cases hm : npArgmin d (left N ks) with
    | none =>
      rw [a1] at hm
      rw [hm] at hlen
      simp at hlen
      omega
    | some k =>
      obtain ⟨b1, b2⟩ := a2 k hm
      have hb : k < N ∧ k ∉ ks := by simpa [left] using b1
      unfold prLoop
      simp only [hm, left_snoc]
      have htake : ∀ t, t < ks.length → (ks ++ [k]).take t = ks.take t := fun t ht => List.take_append_of_le_length (by omega)
      have := ih (ks ++ [k]) (prAssign D E (left N (ks ++ [k])) d) (by simp; omega)
        (by rw [List.nodup_append]; exact ⟨hn, by simp, fun a ha b hb' => by simp at hb'; subst hb'; exact fun h => hb.2 (h ▸ ha)⟩)
        (by intro a ha; rcases List.mem_append.1 ha with h | h; exacts [hk a h, by simp at h; rw [h]; exact hb.1]) ?_ ?_ ?_
      · obtain ⟨ks', c1, c⟩ := this
        exact ⟨ks', by rw [c1]; simp; omega, c⟩
      · intro t ht
        rcases Nat.lt_or_ge t ks.length with h | h
        · rw [htake t h, List.getElem_append_left h]
          exact hg t h
        · have : t = ks.length := by simp at ht; omega
          subst this
          rw [List.take_left']
          · rw [List.getElem_append_right le_rfl]
            simp only [Nat.sub_self, List.getElem_cons_zero]
            refine ⟨b1, fun y hy => ?_⟩
            rw [← hd k b1, ← hd y hy]
            exact b2 y hy
          · rfl
      · intro i hi
        unfold prAssign prVal
        split_ifs <;> rfl
      · intro t ht
        rcases Nat.lt_or_ge t ks.length with h | h
        · rw [htake t h, List.getElem_append_left h]
          have hno : ks[t] ∉ left N (ks ++ [k]) := by simp [left]
          unfold prAssign
          rw [if_neg hno, ← hdk t h]
          split_ifs with he
          · rw [hdk t h]; unfold prVal; rw [if_pos he]
          · rfl
        · have : t = ks.length := by simp at ht; omega
          subst this
          rw [List.take_left' rfl, List.getElem_append_right le_rfl]
          simp only [Nat.sub_self, List.getElem_cons_zero]
          have hno : k ∉ left N (ks ++ [k]) := by simp [left]
          unfold prAssign
          rw [if_neg hno, ← hd k b1]
          split_ifs with he
          · rw [hd k b1]; unfold prVal; rw [if_pos he]
          · rfl

/-- A metric whose values do not decrease when another point is removed. -/
def GrowsWhenRemoved (D : List ℕ → ℕ → WithTop K) (N : ℕ) : Prop := ∀ (H : List ℕ) (k i : ℕ), H.Nodup → (∀ a ∈ H, a < N) → i ∈ H → i ≠ k → D H i ≤ D (H.filter fun a => decide (a ≠ k)) i

/-- C91. The pruning: the points `ks` are removed greedily, with the values computed anew after every removal — one less than asked for; the points left get their value among the points left, every removed point
keeps the value it had when it was removed. The removed points are in ascending order of their values and no point left has a smaller value. -/
theorem C91_prune (D : List ℕ → ℕ → WithTop K) (E : List ℕ) (N count : ℕ) (hN : count ≤ N) (hN0 : 0 < N) (hD : GrowsWhenRemoved D N) :
    ∃ ks : List ℕ, ks.length = count - 1 ∧ ks.Nodup ∧ (∀ k ∈ ks, k < N) ∧ GreedyPruning D E N ks ∧ (prRun D E N count).1 = left N ks ∧
      (∀ i ∈ left N ks, (prRun D E N count).2 i = prVal D E (left N ks) i) ∧
      (∀ t (ht : t < ks.length), (prRun D E N count).2 ks[t] = prVal D E (left N (ks.take t)) ks[t]) ∧
      (∀ s t (hst : s ≤ t) (ht : t < ks.length), (prRun D E N count).2 (ks[s]'(by omega)) ≤ (prRun D E N count).2 ks[t]) ∧
      (∀ k ∈ ks, ∀ y ∈ left N ks, (prRun D E N count).2 k ≤ (prRun D E N count).2 y) := by
  have h0 : left N [] = List.range N := by simp [left]
  have := prLoop_spec D E N (count - 1) [] (prAssign D E (List.range N) fun _ => ⊤) (by simp; omega) (by simp) (by simp) (fun t ht => by simp at ht)
    (by intro i hi; rw [h0] at hi ⊢; unfold prAssign prVal; rw [if_pos hi]) (fun t ht => by simp at ht)
  rw [h0] at this
  obtain ⟨ks, a1, a2, a3, a4, a5, a6, a7⟩ := this
  -- values grow
  have hgrow : ∀ s t, s ≤ t → ∀ y ∈ left N (ks.take t), prVal D E (left N (ks.take s)) y ≤ prVal D E (left N (ks.take t)) y := by
    intro s t hst y hy
    induction t, hst using Nat.le_induction with
    | base => exact le_rfl
    | succ t hst ih =>
      rcases Nat.lt_or_ge t ks.length with h | h
      · have e : ks.take (t + 1) = ks.take t ++ [ks[t]] := by rw [List.take_append_getElem]
        rw [e, ← left_snoc] at hy ⊢
        obtain ⟨y1, y2⟩ := List.mem_filter.1 hy
        refine (ih y1).trans ?_
        unfold prVal
        split_ifs
        · exact le_rfl
        · exact hD _ _ _ (List.nodup_range.filter _) (fun a ha => List.mem_range.1 (List.mem_filter.1 ha).1) y1 (by simpa using y2)
      · rw [List.take_of_length_le (by omega : ks.length ≤ t + 1)] at hy ⊢
        have e : ks.take t = ks := List.take_of_length_le h
        rw [e] at ih
        exact ih hy
  refine ⟨ks, by simpa using a1, a2, a3, a4, a5, a6, a7, ?_, ?_⟩
  · intro s t hst ht
    change (prLoop D E (count - 1) _).2 _ ≤ (prLoop D E (count - 1) _).2 _
    rw [a7 s (by omega), a7 t ht]
    have hmem := (a4 t ht).1
    have hms : ks[t] ∈ left N (ks.take s) := by
      unfold left at hmem ⊢
      rw [List.mem_filter] at hmem ⊢
      refine ⟨hmem.1, ?_⟩
      simp only [decide_eq_true_eq] at hmem ⊢
      exact fun hc => hmem.2 ((List.take_sublist_take_left hst).subset hc)
    exact ((a4 s (by omega)).2 _ hms).trans (hgrow s t hst _ hmem)
  · intro k hk y hy
    obtain ⟨t, ht, rfl⟩ := List.getElem_of_mem hk
    change (prLoop D E (count - 1) _).2 _ ≤ (prLoop D E (count - 1) _).2 _
    rw [a7 t ht, a6 y hy]
    have hy' : y ∈ left N (ks.take ks.length) := by rw [List.take_length]; exact hy
    have hyt : y ∈ left N (ks.take t) := by
      unfold left at hy ⊢
      rw [List.mem_filter] at hy ⊢
      refine ⟨hy.1, ?_⟩
      simp only [decide_eq_true_eq] at hy ⊢
      exact fun hc => hy.2 (List.take_sublist t ks |>.subset hc)
    have := hgrow t ks.length ht.le y hy'
    rw [List.take_length] at this
    exact ((a4 t ht).2 y hyt).trans this

/-- C91. Consequence for the survival, which keeps the `N - count` points with the greatest values: the greedy removal of `count` points is one of its possible results, and the only one
if no point that the greedy removal keeps has the value of the point it removes last. -/
theorem C91_selection (D : List ℕ → ℕ → WithTop K) (E : List ℕ) (N count : ℕ) (hN : count ≤ N) (hc : 0 < count) (hD : GrowsWhenRemoved D N) :
    ∃ ks : List ℕ, ks.length = count ∧ ks.Nodup ∧ (∀ k ∈ ks, k < N) ∧ GreedyPruning D E N ks ∧
      (∀ k ∈ ks, ∀ y ∈ left N ks, (prRun D E N count).2 k ≤ (prRun D E N count).2 y) ∧
      (∀ last, ks.getLast? = some last → (∀ y ∈ left N ks, (prRun D E N count).2 y ≠ (prRun D E N count).2 last) →
        ∀ kept : List ℕ, kept.Nodup → (∀ i ∈ kept, i < N) → kept.length = N - count →
          (∀ i ∈ kept, ∀ y < N, y ∉ kept → (prRun D E N count).2 y ≤ (prRun D E N count).2 i) → ∀ i, i ∈ kept ↔ i ∈ left N ks) := by
  obtain ⟨ks, a1, a2, a3, a4, a5, a6, -, a7, a8⟩ := C91_prune D E N count hN (by omega) hD
  have hlen := left_length N ks a2 a3
  obtain ⟨b1, b2⟩ := npArgmin_spec (prRun D E N count).2 (left N ks)
  cases hm : npArgmin (prRun D E N count).2 (left N ks) with
  | none => rw [b1.1 hm] at hlen; simp at hlen; omega
  | some k =>
    obtain ⟨c1, c2⟩ := b2 k hm
    have hk : k < N ∧ k ∉ ks := by simpa [left] using c1
    have hnd : (ks ++ [k]).Nodup := by
      rw [List.nodup_append]
      exact ⟨a2, by simp, fun a ha b hb' => by simp at hb'; subst hb'; exact fun h => hk.2 (h ▸ ha)⟩
    have hlt : ∀ a ∈ ks ++ [k], a < N := by
      intro a ha
      rcases List.mem_append.1 ha with h | h
      · exact a3 a h
      · simp at h; rw [h]; exact hk.1
    have hsub : ∀ y ∈ left N (ks ++ [k]), y ∈ left N ks := fun y hy => by rw [← left_snoc] at hy; exact (List.mem_filter.1 hy).1
    have hle : ∀ a ∈ ks ++ [k], ∀ y ∈ left N (ks ++ [k]), (prRun D E N count).2 a ≤ (prRun D E N count).2 y := by
      intro a ha y hy
      rcases List.mem_append.1 ha with h | h
      · exact a8 a h y (hsub y hy)
      · simp at h; rw [h]; exact c2 y (hsub y hy)
    refine ⟨ks ++ [k], by simp; omega, hnd, hlt, ?_, hle, ?_⟩
    · intro t ht
      rcases Nat.lt_or_ge t ks.length with h | h
      · rw [List.take_append_of_le_length (by omega), List.getElem_append_left h]
        exact a4 t h
      · have : t = ks.length := by simp at ht; omega
        subst this
        rw [List.take_left' rfl, List.getElem_append_right le_rfl]
        simp only [Nat.sub_self, List.getElem_cons_zero]
        refine ⟨c1, fun y hy => ?_⟩
        rw [← a6 k c1, ← a6 y hy]
        exact c2 y hy
    · intro last hlast hne kept hkn hkl hklen hbest
      have hlk : last = k := by simpa using hlast.symm
      subst hlk
      -- greatest value among the removed
      have hmax : ∀ a ∈ ks ++ [last], (prRun D E N count).2 a ≤ (prRun D E N count).2 last := by
        intro a ha
        rcases List.mem_append.1 ha with h | h
        · exact a8 a h last c1
        · simp at h; rw [h]
      have hleftlen := left_length N (ks ++ [last]) hnd hlt
      have hleftnd : (left N (ks ++ [last])).Nodup := List.nodup_range.filter _
      -- everything left is kept
      have hsubk : ∀ y ∈ left N (ks ++ [last]), y ∈ kept := by
        intro y hy
        by_contra hyk
        -- then some removed point is kept
        have hyN : y < N := List.mem_range.1 (List.mem_filter.1 hy).1
        have : ∃ a ∈ kept, a ∉ left N (ks ++ [last]) := by
          by_contra hall
          push Not at hall
          have h1 : kept.Subperm ((left N (ks ++ [last])).erase y) := by
            refine List.subperm_of_subset hkn fun a ha => ?_
            rw [hleftnd.mem_erase_iff]
            exact ⟨fun h => hyk (h ▸ ha), hall a ha⟩
          have h2 := h1.length_le
          rw [List.length_erase_of_mem hy, hleftlen, hklen] at h2
          have : 0 < (left N (ks ++ [last])).length := List.length_pos_of_mem hy
          simp at *
          omega
        obtain ⟨a, ha, hal⟩ := this
        have haks : a ∈ ks ++ [last] := by
          by_contra hn
          exact hal (by unfold left; rw [List.mem_filter]; exact ⟨List.mem_range.2 (hkl a ha), by simpa using hn⟩)
        have h1 := hbest a ha y hyN hyk
        have h2 := hmax a haks
        have h3 := hle last (by simp) y hy
        exact hne y hy (le_antisymm (h1.trans h2) h3)
      intro i
      refine ⟨fun hi => ?_, hsubk i⟩
      have h1 : (left N (ks ++ [last])).Subperm kept := List.subperm_of_subset hleftnd hsubk
      have h2 : (left N (ks ++ [last])).Perm kept := h1.perm_of_length_le (by rw [hleftlen, hklen]; simp; omega)
      exact h2.mem_iff.2 hi

/-! ### The distances of `calc_pcd` -/

/-- `a` comes before `b` in the stable order of a column. -/
def Before (v : ℕ → K) (a b : ℕ) : Prop := v a < v b ∨ (v a = v b ∧ a < b)

theorem prSorted_perm (v : ℕ → K) (H : List ℕ) : (prSorted v H).Perm H := List.perm_insertionSort _ _

theorem prSorted_before (v : ℕ → K) (H : List ℕ) (hn : H.Nodup) : (prSorted v H).Pairwise (Before v) := by
  have ht : Std.Total (α := ℕ) (fun a b => v a < v b ∨ (v a = v b ∧ a ≤ b)) := ⟨fun a b => by
    rcases lt_trichotomy (v a) (v b) with h | h | h
    · exact Or.inl (Or.inl h)
    · rcases le_total a b with h' | h'
      · exact Or.inl (Or.inr ⟨h, h'⟩)
      · exact Or.inr (Or.inr ⟨h.symm, h'⟩)
    · exact Or.inr (Or.inl h)⟩
  have htr : IsTrans ℕ (fun a b => v a < v b ∨ (v a = v b ∧ a ≤ b)) := ⟨fun a b c h1 h2 => by
    rcases h1 with h1 | ⟨h1, h1'⟩ <;> rcases h2 with h2 | ⟨h2, h2'⟩
    · exact Or.inl (h1.trans h2)
    · exact Or.inl (h2 ▸ h1)
    · exact Or.inl (h1 ▸ h2)
    · exact Or.inr ⟨h1.trans h2, h1'.trans h2'⟩⟩
  have h1 := List.pairwise_insertionSort (fun a b => v a < v b ∨ (v a = v b ∧ a ≤ b)) H
  have h2 : (prSorted v H).Nodup := (prSorted_perm v H).nodup_iff.2 hn
  refine (h1.and h2).imp fun {a b} h => ?_
  rcases h.1 with h' | ⟨h', h''⟩
  · exact Or.inl h'
  · exact Or.inr ⟨h', lt_of_le_of_ne h'' h.2⟩

theorem before_asymm (v : ℕ → K) (a b : ℕ) (h : Before v a b) : ¬ Before v b a := by
  rintro (h' | ⟨h', h''⟩) <;> rcases h with h | ⟨h, h1⟩
  · exact absurd h (not_lt.2 h'.le)
  · exact absurd h h'.ne'
  · exact absurd h' h.ne'
  · omega

theorem before_index (v : ℕ → K) (S : List ℕ) (hS : S.Pairwise (Before v)) (p q : ℕ) (hp : p < S.length) (hq : q < S.length) : Before v S[p] S[q] ↔ p < q := by
  constructor
  · intro h
    by_contra hn
    rcases Nat.lt_or_ge q p with h' | h'
    · exact before_asymm v _ _ h (List.pairwise_iff_getElem.1 hS q p hq hp h')
    · have : p = q := by omega
      subst this
      exact before_asymm v _ _ h h
  · exact fun h => List.pairwise_iff_getElem.1 hS p q hp hq h

/-- C91. The gap before a point: infinite if no point comes before it, else the difference to the nearest point before it. -/
theorem C91_gap_before (v : ℕ → K) (H : List ℕ) (hn : H.Nodup) (i : ℕ) (hi : i ∈ H) :
    ((∀ a ∈ H, ¬ Before v a i) ∧ prLast v H i = ⊤) ∨ ∃ a ∈ H, Before v a i ∧ (∀ b ∈ H, Before v b i → v b ≤ v a) ∧ prLast v H i = ((v i - v a : K) : WithTop K) := by
  have hS := prSorted_before v H hn
  have hperm := prSorted_perm v H
  have hiS : i ∈ prSorted v H := hperm.mem_iff.2 hi
  have hp := List.idxOf_lt_length_of_mem hiS
  have hgi : (prSorted v H)[(prSorted v H).idxOf i] = i := List.getElem_idxOf hp
  have hb : ∀ b ∈ H, Before v b i → ∃ q, ∃ hq : q < (prSorted v H).length, q < (prSorted v H).idxOf i ∧ (prSorted v H)[q] = b := by
    intro b hbH hbi
    obtain ⟨q, hq, rfl⟩ := List.getElem_of_mem (hperm.mem_iff.2 hbH)
    refine ⟨q, hq, ?_, rfl⟩
    rw [← before_index v _ hS q _ hq hp, hgi]; exact hbi
  unfold prLast
  simp only []
  split_ifs with h0
  · refine Or.inl ⟨fun a ha hai => ?_, rfl⟩
    obtain ⟨q, -, hq, -⟩ := hb a ha hai
    omega
  · have hp1 : (prSorted v H).idxOf i - 1 < (prSorted v H).length := by omega
    refine Or.inr ⟨(prSorted v H)[(prSorted v H).idxOf i - 1], hperm.mem_iff.1 (List.getElem_mem _), ?_, ?_, ?_⟩
    · have := (before_index v _ hS ((prSorted v H).idxOf i - 1) _ hp1 hp).2 (by omega)
      rwa [hgi] at this
    · intro b hbH hbi
      obtain ⟨q, hq, hq', rfl⟩ := hb b hbH hbi
      rcases Nat.lt_or_ge q ((prSorted v H).idxOf i - 1) with h | h
      · rcases (before_index v _ hS q _ hq hp1).2 h with h | h
        · exact h.le
        · exact h.1.le
      · have : q = (prSorted v H).idxOf i - 1 := by omega
        subst this; exact le_rfl
    · rw [List.getD_eq_getElem _ _ hp1]

/-- C91. The gap after a point. -/
theorem C91_gap_after (v : ℕ → K) (H : List ℕ) (hn : H.Nodup) (i : ℕ) (hi : i ∈ H) :
    ((∀ a ∈ H, ¬ Before v i a) ∧ prNext v H i = ⊤) ∨ ∃ a ∈ H, Before v i a ∧ (∀ b ∈ H, Before v i b → v a ≤ v b) ∧ prNext v H i = ((v a - v i : K) : WithTop K) := by
  have hS := prSorted_before v H hn
  have hperm := prSorted_perm v H
  have hiS : i ∈ prSorted v H := hperm.mem_iff.2 hi
  have hp := List.idxOf_lt_length_of_mem hiS
  have hgi : (prSorted v H)[(prSorted v H).idxOf i] = i := List.getElem_idxOf hp
  have hb : ∀ b ∈ H, Before v i b → ∃ q, ∃ hq : q < (prSorted v H).length, (prSorted v H).idxOf i < q ∧ (prSorted v H)[q] = b := by
    intro b hbH hbi
    obtain ⟨q, hq, rfl⟩ := List.getElem_of_mem (hperm.mem_iff.2 hbH)
    refine ⟨q, hq, ?_, rfl⟩
    rw [← before_index v _ hS _ q hp hq, hgi]; exact hbi
  unfold prNext
  simp only []
  split_ifs with h0
  · refine Or.inr ⟨(prSorted v H)[(prSorted v H).idxOf i + 1], hperm.mem_iff.1 (List.getElem_mem _), ?_, ?_, ?_⟩
    · have := (before_index v _ hS _ ((prSorted v H).idxOf i + 1) hp h0).2 (by omega)
      rwa [hgi] at this
    · intro b hbH hbi
      obtain ⟨q, hq, hq', rfl⟩ := hb b hbH hbi
      rcases Nat.lt_or_ge ((prSorted v H).idxOf i + 1) q with h | h
      · rcases (before_index v _ hS _ q h0 hq).2 h with h | h
        · exact h.le
        · exact h.1.le
      · have : q = (prSorted v H).idxOf i + 1 := by omega
        subst this; exact le_rfl
    · rw [List.getD_eq_getElem _ _ h0]
  · refine Or.inl ⟨fun a ha hai => ?_, rfl⟩
    obtain ⟨q, h1, hq, -⟩ := hb a ha hai
    omega

theorem prLast_grows (v : ℕ → K) (H : List ℕ) (k i : ℕ) (hn : H.Nodup) (hi : i ∈ H) (hik : i ≠ k) : prLast v H i ≤ prLast v (H.filter fun a => decide (a ≠ k)) i := by
  have hi' : i ∈ H.filter fun a => decide (a ≠ k) := List.mem_filter.2 ⟨hi, by simpa using hik⟩
  rcases C91_gap_before v _ (hn.filter _) i hi' with ⟨-, h⟩ | ⟨a, ha, hai, -, h⟩
  · rw [h]; exact le_top
  · rcases C91_gap_before v H hn i hi with ⟨h1, -⟩ | ⟨b, hb, hbi, hmax, h'⟩
    · exact absurd hai (h1 a (List.mem_filter.1 ha).1)
    · rw [h, h', WithTop.coe_le_coe]
      have := hmax a (List.mem_filter.1 ha).1 hai
      linarith

theorem prNext_grows (v : ℕ → K) (H : List ℕ) (k i : ℕ) (hn : H.Nodup) (hi : i ∈ H) (hik : i ≠ k) : prNext v H i ≤ prNext v (H.filter fun a => decide (a ≠ k)) i := by
  have hi' : i ∈ H.filter fun a => decide (a ≠ k) := List.mem_filter.2 ⟨hi, by simpa using hik⟩
  rcases C91_gap_after v _ (hn.filter _) i hi' with ⟨-, h⟩ | ⟨a, ha, hai, -, h⟩
  · rw [h]; exact le_top
  · rcases C91_gap_after v H hn i hi with ⟨h1, -⟩ | ⟨b, hb, hbi, hmax, h'⟩
    · exact absurd hai (h1 a (List.mem_filter.1 ha).1)
    · rw [h, h', WithTop.coe_le_coe]
      have := hmax a (List.mem_filter.1 ha).1 hai
      linarith

theorem pcdOn_grows (N : ℕ) (x : ℕ → Fin M → K) : GrowsWhenRemoved (pcdOn N x) N := by
  intro H k i hn hlt hi hik
  unfold pcdOn
  refine List.sum_le_sum fun j _ => ?_
  split_ifs
  · exact le_rfl
  · exact add_le_add (prLast_grows _ H k i hn hi hik) (prNext_grows _ H k i hn hi hik)

theorem prCount_le (N M : ℕ) (n : ℤ) : prCount N M n ≤ N - M ∧ (prCount N M n : ℤ) ≤ max n 0 := by
  unfold prCount
  split_ifs <;> omega

/-! ### Nearest neighbours -/

theorem sorted_sublist_ge (L L' : List K) (hL : L.Pairwise (· ≤ ·)) (h : L'.Sublist L) (p : ℕ) (hp : p < L'.length) : ∃ hp' : p < L.length, L[p] ≤ L'[p] := by
  obtain ⟨f, hf⟩ := List.sublist_iff_exists_fin_orderEmbedding_get_eq.1 h
  have hge : ∀ q : ℕ, ∀ hq : q < L'.length, q ≤ (f ⟨q, hq⟩).val := by
    intro q
    induction q with
    | zero => intro _; exact Nat.zero_le _
    | succ q ih =>
      intro hq
      have h1 := ih (by omega)
      have h2 : f ⟨q, by omega⟩ < f ⟨q + 1, hq⟩ := f.lt_iff_lt.2 (by simp [Fin.lt_def])
      simp only [Fin.lt_def] at h2
      omega
  have hp' : p < L.length := lt_of_le_of_lt (hge p hp) (f ⟨p, hp⟩).2
  refine ⟨hp', ?_⟩
  have := hf ⟨p, hp⟩
  simp only [List.get_eq_getElem] at this
  rw [this]
  rcases Nat.lt_or_ge p (f ⟨p, hp⟩).val with h | h
  · exact List.pairwise_iff_getElem.1 hL _ _ _ _ h
  · have e : (f ⟨p, hp⟩).val = p := le_antisymm h (hge p hp)
    simp only [e]; exact le_rfl

theorem insertionSort_sorted (L : List K) : (L.insertionSort (· ≤ ·)).Pairwise (· ≤ ·) := by
  have : Std.Total (α := K) (· ≤ ·) := ⟨le_total⟩
  have : IsTrans K (· ≤ ·) := ⟨fun a b c => le_trans⟩
  exact List.pairwise_insertionSort _ L

theorem prod_take_drop (L L' : List K) (n : ℕ) (hn : n < L'.length) (h : ∀ p (hp : p < L'.length), ∃ hp' : p < L.length, L[p] ≤ L'[p]) (h0 : ∀ a ∈ L, 0 ≤ a) :
    ((L.drop 1).take n).prod ≤ ((L'.drop 1).take n).prod := by
  have hl : n < L.length := (h n hn).choose
  have : List.Forall₂ (· ≤ ·) ((L.drop 1).take n) ((L'.drop 1).take n) := by
    rw [List.forall₂_iff_get]
    refine ⟨by simp; omega, fun p hp hp' => ?_⟩
    simp only [List.get_eq_getElem, List.getElem_take, List.getElem_drop]
    exact (h (1 + p) (by simp at hp'; omega)).choose_spec
  have hnn : ∀ a ∈ (L.drop 1).take n, 0 ≤ a := fun a ha => h0 a (List.mem_of_mem_drop (List.mem_of_mem_take ha))
  generalize (L.drop 1).take n = A at this hnn
  generalize (L'.drop 1).take n = B at this
  clear h hn
  induction this with
  | nil => exact le_rfl
  | cons hab _ ih =>
    rw [List.prod_cons, List.prod_cons]
    have ha := hnn _ (List.mem_cons_self)
    have hp : ∀ L : List K, (∀ a ∈ L, 0 ≤ a) → 0 ≤ L.prod := fun L h => List.prod_nonneg h
    exact mul_le_mul hab (ih fun a ha => hnn a (List.mem_cons_of_mem _ ha)) (hp _ fun a ha => hnn a (List.mem_cons_of_mem _ ha)) (ha.trans hab)

theorem mnnOn_grows (dist : ℕ → ℕ → K) (hd : ∀ i a, 0 ≤ dist i a) (nb N : ℕ) : GrowsWhenRemoved (mnnOn dist nb) N := by
  intro H k i hn hlt hi hik
  unfold mnnOn
  simp only []
  have hsub : ((H.filter fun a => decide (a ≠ k)).map (dist i)).Sublist (H.map (dist i)) := List.Sublist.map _ List.filter_sublist
  have hs : (((H.filter fun a => decide (a ≠ k)).map (dist i)).insertionSort (· ≤ ·)).Sublist ((H.map (dist i)).insertionSort (· ≤ ·)) := by
    refine List.sublist_of_subperm_of_pairwise (r := (· ≤ ·)) ?_ (insertionSort_sorted _) (insertionSort_sorted _)
    exact ((List.perm_insertionSort _ _).subperm.trans hsub.subperm).trans (List.perm_insertionSort _ _).symm.subperm
  split_ifs with h1 h2
  · rw [WithTop.coe_le_coe]
    refine prod_take_drop _ _ nb h2 (fun p hp => sorted_sublist_ge _ _ (insertionSort_sorted _) hs p hp) ?_
    intro a ha
    obtain ⟨b, -, rfl⟩ := List.mem_map.1 ((List.perm_insertionSort _ _).mem_iff.1 ha)
    exact hd i b
  · exact le_top
  · exact absurd (lt_of_lt_of_le ‹nb < _› hs.length_le) h1
  · exact le_rfl


/-- C91. The metric of `calc_mnn`: the product of the `nb` smallest squared distances to other points (infinite if there are not that many). -/
theorem C91_mnn_metric (N nb : ℕ) (x : ℕ → Fin M → K) (H : List ℕ) (i : ℕ) (hi : i ∈ H) :
    ∃ near : List K, near.Perm ((H.erase i).map (mnnDist N x i)) ∧ near.Pairwise (· ≤ ·) ∧
      mnnOn (mnnDist N x) nb H i = if nb ≤ (H.erase i).length then ((near.take nb).prod : WithTop K) else ⊤ := by
  have hz : mnnDist N x i i = 0 := by simp [mnnDist]
  have hnn : ∀ a, 0 ≤ mnnDist N x i a := fun a => Finset.sum_nonneg fun j _ => sq_nonneg _
  refine ⟨((H.erase i).map (mnnDist N x i)).insertionSort (· ≤ ·), List.perm_insertionSort _ _, insertionSort_sorted _, ?_⟩
  have hrow : (H.map (mnnDist N x i)).insertionSort (· ≤ ·) = 0 :: ((H.erase i).map (mnnDist N x i)).insertionSort (· ≤ ·) := by
    refine List.Perm.eq_of_pairwise (le := (· ≤ ·)) (fun a b _ _ h1 h2 => le_antisymm h1 h2) (insertionSort_sorted _) ?_ ?_
    · rw [List.pairwise_cons]
      refine ⟨fun a ha => ?_, insertionSort_sorted _⟩
      obtain ⟨b, -, rfl⟩ := List.mem_map.1 ((List.perm_insertionSort _ _).mem_iff.1 ha)
      exact hnn b
    · refine (List.perm_insertionSort _ _).trans ?_
      have h1 : (H.map (mnnDist N x i)).Perm ((i :: H.erase i).map (mnnDist N x i)) := (List.perm_cons_erase hi).map _
      refine h1.trans ?_
      rw [List.map_cons, hz]
      exact List.Perm.cons _ (List.perm_insertionSort _ _).symm
  unfold mnnOn
  simp only [hrow, List.drop_succ_cons, List.drop_zero, List.length_cons, List.length_insertionSort, List.length_map]
  split_ifs with h1 h2 h2
  · rfl
  · omega
  · omega
  · rfl

theorem prLoop_extreme (D : List ℕ → ℕ → WithTop K) (E : List ℕ) (r : ℕ) (s : List ℕ × (ℕ → WithTop K)) (i : ℕ) (hi : i ∈ E) (h : s.2 i = ⊤) : (prLoop D E r s).2 i = ⊤ := by
  induction r generalizing s with
  | zero => exact h
  | succ r ih =>
    unfold prLoop
    split
    · exact h
    · exact ih _ (by simp [prAssign, hi])

/-- C91. For every objective a point with the least and a point with the greatest value are infinitely far from the others — for both metrics and any number of removals. -/
theorem C91_extremes (D : List ℕ → ℕ → WithTop K) (N count : ℕ) (hN : 0 < N) (x : ℕ → Fin M → K) (j : Fin M) :
    (∃ i < N, (∀ k < N, x i j ≤ x k j) ∧ (prRun D (prExtremes N x) N count).2 i = ⊤) ∧ ∃ i < N, (∀ k < N, x k j ≤ x i j) ∧ (prRun D (prExtremes N x) N count).2 i = ⊤ := by
  have hne : List.range N ≠ [] := by simp; omega
  have key : ∀ i ∈ prExtremes N x, (prRun D (prExtremes N x) N count).2 i = ⊤ := by
    intro i hi
    refine prLoop_extreme D _ _ _ i hi ?_
    unfold prAssign
    simp [hi]
  constructor
  · obtain ⟨a1, a2⟩ := npArgmin_spec (fun i => x i j) (List.range N)
    cases hm : npArgmin (fun i => x i j) (List.range N) with
    | none => exact absurd (a1.1 hm) hne
    | some i =>
      obtain ⟨b1, b2⟩ := a2 i hm
      refine ⟨i, List.mem_range.1 b1, fun k hk => b2 k (List.mem_range.2 hk), key i ?_⟩
      unfold prExtremes
      exact List.mem_append_left _ (List.mem_filterMap.2 ⟨j, List.mem_finRange j, hm⟩)
  · obtain ⟨i, hm, b1, b2⟩ := ctaArgmax_spec (fun i => x i j) (List.range N) hne
    refine ⟨i, List.mem_range.1 b1, fun k hk => b2 k (List.mem_range.2 hk), key i ?_⟩
    unfold prExtremes
    exact List.mem_append_right _ (List.mem_filterMap.2 ⟨j, List.mem_finRange j, hm⟩)

/-- C91. `calc_pcd` is greedy pruning with the crowding distance, computed anew after every removal: the removed points come last, in the order of their removal. -/
theorem C91_pcd (N : ℕ) (x : ℕ → Fin M → K) (n : ℤ) (hN : 0 < N) :
    ∃ ks : List ℕ, ks.length = prCount N M n - 1 ∧ ks.Nodup ∧ (∀ k ∈ ks, k < N) ∧ GreedyPruning (pcdOn N x) (prExtremes N x) N ks ∧
      (∀ i ∈ left N ks, calcPcd N x n i = prVal (pcdOn N x) (prExtremes N x) (left N ks) i) ∧
      (∀ s t (hst : s ≤ t) (ht : t < ks.length), calcPcd N x n (ks[s]'(by omega)) ≤ calcPcd N x n ks[t]) ∧
      (∀ k ∈ ks, ∀ y ∈ left N ks, calcPcd N x n k ≤ calcPcd N x n y) := by
  obtain ⟨ks, a1, a2, a3, a4, -, a6, -, a8, a9⟩ := C91_prune (pcdOn N x) (prExtremes N x) N (prCount N M n) ((prCount_le N M n).1.trans (Nat.sub_le _ _)) hN (pcdOn_grows N x)
  exact ⟨ks, a1, a2, a3, a4, a6, a8, a9⟩

/-- C91. `calc_mnn` and `calc_2nn` are greedy pruning with the product of the distances to the nearest neighbours, computed anew after every removal. -/
theorem C91_mnn (N : ℕ) (x : ℕ → Fin M → K) (n : ℤ) (two : Bool) (hN : M < N) (hx : ∀ j, prLo N x j ≠ prHi N x j) :
    ∃ d, calcMnn N x n two = some d ∧ ∃ ks : List ℕ, ks.length = prCount N M n - 1 ∧ ks.Nodup ∧ (∀ k ∈ ks, k < N) ∧
      GreedyPruning (mnnOn (mnnDist N x) (if two then 2 else M)) (prExtremes N x) N ks ∧
      (∀ i ∈ left N ks, d i = prVal (mnnOn (mnnDist N x) (if two then 2 else M)) (prExtremes N x) (left N ks) i) ∧
      (∀ s t (hst : s ≤ t) (ht : t < ks.length), d (ks[s]'(by omega)) ≤ d ks[t]) ∧ (∀ k ∈ ks, ∀ y ∈ left N ks, d k ≤ d y) := by
  refine ⟨_, by unfold calcMnn; rw [if_neg (by omega), if_neg (by push Not; exact hx)], ?_⟩
  obtain ⟨ks, a1, a2, a3, a4, -, a6, -, a8, a9⟩ := C91_prune (mnnOn (mnnDist N x) (if two then 2 else M)) (prExtremes N x) N (prCount N M n) ((prCount_le N M n).1.trans (Nat.sub_le _ _)) (by omega)
    (mnnOn_grows _ (fun i a => Finset.sum_nonneg fun j _ => sq_nonneg _) _ N)
  exact ⟨ks, a1, a2, a3, a4, a6, a8, a9⟩

/-- C91, refuted: with a constant objective `calc_mnn` and `calc_2nn` return NaN for every point (as soon as there are more points than objectives), although `calc_pcd` ignores such an objective. -/
theorem C91_constant_objective_refuted (N : ℕ) (x : ℕ → Fin M → K) (n : ℤ) (two : Bool) (hN : M < N) (j : Fin M) (c : K) (hc : ∀ i < N, x i j = c) :
    calcMnn N x n two = none ∧ ∀ H i, pcdOn N x H i = ((List.finRange M).map fun j' => if prLo N x j' = prHi N x j' ∨ j' = j then 0 else
      prLast (fun i => prNorm N x i j') H i + prNext (fun i => prNorm N x i j') H i).sum := by
  have hne : List.range N ≠ [] := by simp; omega
  have hlo : prLo N x j = c := by
    unfold prLo
    obtain ⟨a1, a2⟩ := npArgmin_spec (fun i => x i j) (List.range N)
    cases hm : npArgmin (fun i => x i j) (List.range N) with
    | none => exact absurd (a1.1 hm) hne
    | some i => simpa using hc i (List.mem_range.1 (a2 i hm).1)
  have hhi : prHi N x j = c := by
    unfold prHi
    obtain ⟨i, hm, b1, -⟩ := ctaArgmax_spec (fun i => x i j) (List.range N) hne
    rw [hm]; simpa using hc i (List.mem_range.1 b1)
  refine ⟨?_, fun H i => ?_⟩
  · unfold calcMnn
    rw [if_neg (by omega), if_pos ⟨j, by rw [hlo, hhi]⟩]
  · unfold pcdOn
    congr 1
    refine List.map_congr_left fun j' _ => ?_
    by_cases h : j' = j
    · subst h; rw [if_pos (by rw [hlo, hhi]), if_pos (Or.inr rfl)]
    · by_cases h' : prLo N x j' = prHi N x j'
      · rw [if_pos h', if_pos (Or.inl h')]
      · rw [if_neg h', if_neg (by tauto)]

/-- C91. The distances of `calc_pcd` are not negative. -/
theorem C91_nonneg (N : ℕ) (x : ℕ → Fin M → K) (n : ℤ) (i : ℕ) (hi : i < N) : 0 ≤ calcPcd N x n i := by
  have hon : ∀ H : List ℕ, H.Nodup → i ∈ H → 0 ≤ pcdOn N x H i := by
    intro H hn hiH
    unfold pcdOn
    refine List.sum_nonneg fun a ha => ?_
    obtain ⟨j, -, rfl⟩ := List.mem_map.1 ha
    split_ifs
    · exact le_rfl
    · refine add_nonneg ?_ ?_
      · rcases C91_gap_before (fun i => prNorm N x i j) H hn i hiH with ⟨-, h⟩ | ⟨b, -, hb, -, h⟩
        · rw [h]; exact le_top
        · rw [h, ← WithTop.coe_zero, WithTop.coe_le_coe, sub_nonneg]
          rcases hb with hb | hb
          · exact hb.le
          · exact hb.1.le
      · rcases C91_gap_after (fun i => prNorm N x i j) H hn i hiH with ⟨-, h⟩ | ⟨b, -, hb, -, h⟩
        · rw [h]; exact le_top
        · rw [h, ← WithTop.coe_zero, WithTop.coe_le_coe, sub_nonneg]
          rcases hb with hb | hb
          · exact hb.le
          · exact hb.1.le
  have hval : ∀ H : List ℕ, H.Nodup → i ∈ H → 0 ≤ prVal (pcdOn N x) (prExtremes N x) H i := by
    intro H hn hiH
    unfold prVal
    split_ifs
    · exact le_top
    · exact hon H hn hiH
  obtain ⟨ks, a1, a2, a3, a4, -, a6, a7, -, -⟩ := C91_prune (pcdOn N x) (prExtremes N x) N (prCount N M n) ((prCount_le N M n).1.trans (Nat.sub_le _ _)) (by omega) (pcdOn_grows N x)
  by_cases h : i ∈ ks
  · obtain ⟨t, ht, rfl⟩ := List.getElem_of_mem h
    change 0 ≤ (prRun (pcdOn N x) (prExtremes N x) N (prCount N M n)).2 _
    rw [a7 t ht]
    exact hval _ (List.nodup_range.filter _) (a4 t ht).1
  · have hl : i ∈ left N ks := by unfold left; rw [List.mem_filter]; exact ⟨List.mem_range.2 hi, by simpa using h⟩
    change 0 ≤ (prRun (pcdOn N x) (prExtremes N x) N (prCount N M n)).2 _
    rw [a6 i hl]
    exact hval _ (List.nodup_range.filter _) hl

/-- C91. The number of removals that is used: the one asked for, but not negative and at most the number of points less the number of objectives. -/
theorem C91_count (N M : ℕ) (n : ℤ) (h : M ≤ N) : (prCount N M n : ℤ) = min (max n 0) (N - M) := by
  unfold prCount
  split_ifs <;> omega

/-- C91. `FunctionalDiversity`: up to two points are infinitely far apart; else a duplicate of an earlier point gets zero and the others what the metric gives without the duplicates. -/
theorem C91_duplicates (close : ℕ → ℕ → Bool) (N : ℕ) (x : ℕ → Fin M → K) (f : (N : ℕ) → (ℕ → Fin M → K) → ℕ → WithTop K) (i : ℕ) (hi : i < N) :
    (N ≤ 2 → functionalDiversity close true N x f i = ⊤) ∧
    (2 < N → (∃ k < i, close i k = true) → functionalDiversity close true N x f i = 0) ∧
    (2 < N → (∀ k < i, close i k = false) → ∃ uniq : List ℕ, uniq.Sublist (List.range N) ∧ (∀ a < N, a ∈ uniq ↔ ∀ k < a, close a k = false) ∧ ∃ p, ∃ hp : p < uniq.length, uniq[p] = i ∧
      functionalDiversity close true N x f i = f uniq.length (fun p => x (uniq.getD p 0)) p) ∧
    (2 < N → functionalDiversity close false N x f i = f N (fun p => x ((List.range N).getD p 0)) i) := by
  have hmem : ∀ a, a ∈ (List.range N).filter (fun i => !((List.range i).any fun k => close i k)) ↔ a < N ∧ ∀ k < a, close a k = false := by
    intro a; simp [List.mem_filter]
  refine ⟨fun h => ?_, fun h hd => ?_, fun h hu => ?_, fun h => ?_⟩
  · unfold functionalDiversity; rw [if_pos h]
  · unfold functionalDiversity
    rw [if_neg (by omega)]
    simp only [if_true]
    rw [if_neg]
    rw [hmem]
    rintro ⟨-, h'⟩
    obtain ⟨k, hk, hc⟩ := hd
    rw [h' k hk] at hc; cases hc
  · refine ⟨(List.range N).filter (fun i => !((List.range i).any fun k => close i k)), List.filter_sublist, fun a ha => ?_, ?_⟩
    · rw [hmem]; exact ⟨fun h => h.2, fun h => ⟨ha, h⟩⟩
    · have hiu := (hmem i).2 ⟨hi, hu⟩
      refine ⟨_, List.idxOf_lt_length_of_mem hiu, List.getElem_idxOf _, ?_⟩
      unfold functionalDiversity
      rw [if_neg (by omega)]
      simp only [if_true]
      rw [if_pos hiu]
  · unfold functionalDiversity
    rw [if_neg (by omega)]
    simp only [Bool.false_eq_true, if_false, List.length_range]
    rw [if_pos (List.mem_range.2 hi)]
    congr 1
    have h1 := List.getElem_idxOf (List.idxOf_lt_length_of_mem (List.mem_range.2 hi))
    rw [List.getElem_range] at h1
    exact h1

/-- Five points on a line at `0, 1, 3, 4, 10`, and mirrored in the second objective. -/
def exPr (i : ℕ) : Fin 2 → ℚ := ![[0, 1, 3, 4, 10].getD i 0, 10 - [0, 1, 3, 4, 10].getD i 0]

/-- Non-vacuity: two of the five points are to be removed; point `1` is removed, and the distances of its neighbours are recomputed. -/
example : (prRun (pcdOn 5 exPr) (prExtremes 5 exPr) 5 (prCount 5 2 2)).1 = [0, 2, 3, 4] ∧ ((List.range 5).map (calcPcd 5 exPr 2)) = [⊤, ((3 / 5 : ℚ) : WithTop ℚ), ((4 / 5 : ℚ) : WithTop ℚ), ((7 / 5 : ℚ) : WithTop ℚ), ⊤] := by
  decide +kernel

example : ((calcMnn 5 exPr 2 false).map fun d => (List.range 5).map d) = some [⊤, ((1 / 625 : ℚ) : WithTop ℚ), ((9 / 2500 : ℚ) : WithTop ℚ), ((4 / 625 : ℚ) : WithTop ℚ), ⊤] := by
  decide +kernel

end Props
