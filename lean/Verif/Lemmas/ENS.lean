import Verif.Model.ENS
import Verif.Spec.Lex
import Verif.Lemmas.Fronts
import Verif.Lemmas.Dominator
import Verif.Props.Dominator

set_option linter.unusedSimpArgs false

namespace Lemmas
open Model Spec

section generic
variable {ι : Type*}

/-- Local description of canonical fronts: no member of a front dominates another one of the same front, and
each member of a front is dominated from every earlier front. -/
structure LocalFronts (dom : ι → ι → Prop) (fronts : List (List ι)) : Prop where
  nodup : fronts.flatten.Nodup
  nonempty : ∀ f ∈ fronts, f ≠ []
  same : ∀ k (hk : k < fronts.length), ∀ i ∈ fronts[k], ∀ j ∈ fronts[k], ¬ dom j i
  pred : ∀ k (hk : k < fronts.length), ∀ i ∈ fronts[k], ∀ l (hl : l < k), ∃ j ∈ fronts[l], dom j i

theorem front_unique {fronts : List (List ι)} (h : fronts.flatten.Nodup) {k l : ℕ} (hk : k < fronts.length)
    (hl : l < fronts.length) {i : ι} (h1 : i ∈ fronts[k]) (h2 : i ∈ fronts[l]) : k = l := by
  have := (List.nodup_flatten.1 h).2
  rw [List.pairwise_iff_getElem] at this
  rcases lt_trichotomy k l with hlt | heq | hgt
  · exact absurd h2 (this k l hk hl hlt h1)
  · exact heq
  · exact absurd h1 (this l k hl hk hgt h2)

theorem LocalFronts.canonical {dom : ι → ι → Prop} (hpo : StrictPO dom) {fronts : List (List ι)}
    (h : LocalFronts dom fronts) (hc : ∀ i, i ∈ fronts.flatten) : CanonicalFronts dom fronts := by
  have idx : ∀ i, ∃ l, ∃ hl : l < fronts.length, i ∈ fronts[l] := by
    intro i
    obtain ⟨f, hf, hi⟩ := List.mem_flatten.1 (hc i)
    obtain ⟨l, hl, rfl⟩ := List.mem_iff_getElem.1 hf
    exact ⟨l, hl, hi⟩
  refine ⟨h.nodup, hc, h.nonempty, fun k hk i => ⟨fun hi => ⟨?_, ?_⟩, ?_⟩⟩
  · intro hcon
    obtain ⟨l, hl, hlk, hil⟩ := mem_take_flatten.1 hcon
    have := front_unique h.nodup hk hl hi hil
    omega
  · intro j hd
    obtain ⟨l, hl, hjl⟩ := idx j
    rw [mem_take_flatten]
    refine ⟨l, hl, ?_, hjl⟩
    by_contra hcon
    rcases Nat.lt_or_ge k l with hkl | hkl
    · obtain ⟨j', hj', hd'⟩ := h.pred l hl j hjl k hkl
      exact h.same k hk i hi j' hj' (hpo.trans _ _ _ hd' hd)
    · have : l = k := by omega
      subst this
      exact h.same l hk i hi j hjl hd
  · rintro ⟨h1, h2⟩
    obtain ⟨l, hl, hil⟩ := idx i
    rcases lt_trichotomy l k with hlk | heq | hgt
    · exact absurd (mem_take_flatten.2 ⟨l, hl, hlk, hil⟩) h1
    · subst heq; exact hil
    · obtain ⟨j, hj, hd⟩ := h.pred l hl i hil k hgt
      obtain ⟨l', hl', hlk', hjl'⟩ := mem_take_flatten.1 (h2 j hd)
      have := front_unique h.nodup hk hl' hj hjl'
      omega

/-- Inserting a point into the first front that contains none of its dominators keeps the local
description, provided the new point dominates nobody inserted before. -/
theorem LocalFronts.insert {dom : ι → ι → Prop} {fronts : List (List ι)} (h : LocalFronts dom fronts) (p : ι)
    (hirr : ¬ dom p p) (hp : p ∉ fronts.flatten) (hlast : ∀ j ∈ fronts.flatten, ¬ dom p j) (k : ℕ)
    (hk : k ≤ fronts.length)
    (hbefore : ∀ l (hl : l < fronts.length), l < k → ∃ j ∈ fronts[l], dom j p)
    (hat : ∀ hl : k < fronts.length, ∀ j ∈ fronts[k], ¬ dom j p) :
    let r := (if k ≥ fronts.length then fronts ++ [[]] else fronts).modify k (· ++ [p])
    LocalFronts dom r ∧ r.flatten.Perm (p :: fronts.flatten) := by
  intro r
  -- a uniform description of the new list of fronts
  have hr : ∀ l (hl : l < r.length), ∃ old : List ι, (∀ hl' : l < fronts.length, old = fronts[l]) ∧
      (¬ l < fronts.length → old = []) ∧ r[l] = if k = l then old ++ [p] else old := by
    intro l hl
    simp only [r, List.length_modify] at hl
    by_cases hge : k ≥ fronts.length
    · simp only [r, hge, if_true] at hl ⊢
      by_cases hlt : l < fronts.length
      · refine ⟨fronts[l], fun _ => rfl, fun h => absurd hlt h, ?_⟩
        rw [List.getElem_modify]
        have : k ≠ l := by omega
        simp [List.getElem_append_left hlt, this]
      · refine ⟨[], fun h => absurd h hlt, fun _ => rfl, ?_⟩
        rw [List.getElem_modify]
        have : k = l := by simp at hl; omega
        subst this
        have hle : fronts.length ≤ k := by omega
        have e : k = fronts.length := by omega
        simp [List.getElem_append_right, e]
    · simp only [r, hge, if_false] at hl ⊢
      refine ⟨fronts[l], fun _ => rfl, fun h => absurd hl h, ?_⟩
      rw [List.getElem_modify]
  have hlen : r.length = if k ≥ fronts.length then fronts.length + 1 else fronts.length := by
    simp only [r, List.length_modify]; split <;> simp
  have hperm : r.flatten.Perm (p :: fronts.flatten) := by
    by_cases hge : k ≥ fronts.length
    · have e : k = fronts.length := by omega
      have : r = fronts ++ [[p]] := by
        simp only [r, hge, if_true]
        rw [List.modify_eq_take_drop, e]
        simp
      rw [this]
      simp only [List.flatten_append, List.flatten_cons, List.flatten_nil, List.append_nil]
      exact List.perm_append_comm
    · have hlt : k < fronts.length := by omega
      have e1 : r = fronts.take k ++ (fronts[k] ++ [p]) :: fronts.drop (k + 1) := by
        simp only [r, hge, if_false]
        rw [List.modify_eq_take_cons_drop hlt]
      have e2 : fronts.flatten = (fronts.take k ++ fronts[k] :: fronts.drop (k + 1)).flatten := by
        rw [List.cons_getElem_drop_succ, List.take_append_drop]
      rw [e1, e2]
      simp only [List.flatten_append, List.flatten_cons, List.append_assoc]
      have q1 : (fronts[k] ++ ([p] ++ (List.drop (k + 1) fronts).flatten)).Perm
          (p :: (fronts[k] ++ (List.drop (k + 1) fronts).flatten)) := by
        rw [List.singleton_append]; exact List.perm_middle
      exact (q1.append_left _).trans List.perm_middle
  have hmem : ∀ l (hl : l < r.length) (i : ι), i ∈ r[l] →
      (∃ hl' : l < fronts.length, i ∈ fronts[l]) ∨ (i = p ∧ l = k) := by
    intro l hl i hi
    obtain ⟨old, h1, h2, h3⟩ := hr l hl
    rw [h3] at hi
    by_cases hlt : l < fronts.length
    · rw [h1 hlt] at hi
      split at hi
      · next e =>
        rcases List.mem_append.1 hi with hi | hi
        · exact Or.inl ⟨hlt, hi⟩
        · exact Or.inr ⟨by simpa using hi, e.symm⟩
      · exact Or.inl ⟨hlt, hi⟩
    · rw [h2 hlt] at hi
      split at hi
      · next e => exact Or.inr ⟨by simpa using hi, e.symm⟩
      · simp at hi
  have hold : ∀ l (hl : l < fronts.length) (hl' : l < r.length) (i : ι), i ∈ fronts[l] → i ∈ r[l] := by
    intro l hl hl' i hi
    obtain ⟨old, h1, _, h3⟩ := hr l hl'
    rw [h3, h1 hl]
    split
    · exact List.mem_append_left _ hi
    · exact hi
  have hfl : ∀ l (hl : l < fronts.length) (i : ι), i ∈ fronts[l] → i ∈ fronts.flatten :=
    fun l hl i hi => List.mem_flatten.2 ⟨_, List.getElem_mem hl, hi⟩
  refine ⟨⟨?_, ?_, ?_, ?_⟩, hperm⟩
  · rw [hperm.nodup_iff, List.nodup_cons]; exact ⟨hp, h.nodup⟩
  · intro f hf
    obtain ⟨l, hl, rfl⟩ := List.mem_iff_getElem.1 hf
    obtain ⟨old, h1, h2, h3⟩ := hr l hl
    rw [h3]
    split
    · simp
    · next e =>
      have hlt : l < fronts.length := by
        rw [hlen] at hl
        split at hl <;> omega
      rw [h1 hlt]; exact h.nonempty _ (List.getElem_mem hlt)
  · intro l hl i hi j hj
    rcases hmem l hl i hi with ⟨hl', hi'⟩ | ⟨e1, e2⟩ <;> rcases hmem l hl j hj with ⟨hl'', hj'⟩ | ⟨e3, e4⟩
    · exact h.same l hl' i hi' j hj'
    · subst e3; exact hlast i (hfl _ hl' i hi')
    · subst e1 e2; exact hat hl'' j hj'
    · subst e1 e3; exact hirr
  · intro l hl i hi l' hl'
    have hlk : l' < fronts.length := by
      rw [hlen] at hl
      split at hl <;> omega
    rcases hmem l hl i hi with ⟨hl2, hi⟩ | ⟨rfl, rfl⟩
    · obtain ⟨j, hj, hd⟩ := h.pred l hl2 i hi l' hl'
      exact ⟨j, hold l' hlk (by omega) j hj, hd⟩
    · obtain ⟨j, hj, hd⟩ := hbefore l' hlk hl'
      exact ⟨j, hold l' hlk (by omega) j hj, hd⟩

theorem canonical_map {κ : Type*} (e : ι ≃ κ) {dom : κ → κ → Prop} {fronts : List (List ι)}
    (h : CanonicalFronts (fun a b => dom (e a) (e b)) fronts) :
    CanonicalFronts dom (fronts.map (fun f => f.map e)) := by
  have hfl : ∀ g : List (List ι), (g.map (fun f => f.map e)).flatten = g.flatten.map e := by
    intro g; rw [List.map_flatten]
  have hm : ∀ (l : List ι) x, x ∈ l.map e ↔ e.symm x ∈ l := by
    intro l x
    rw [List.mem_map]
    constructor
    · rintro ⟨a, ha, rfl⟩; simpa using ha
    · intro hx; exact ⟨_, hx, by simp⟩
  refine ⟨?_, ?_, ?_, ?_⟩
  · rw [hfl]; exact h.nodup.map e.injective
  · intro i; rw [hfl, hm]; exact h.complete _
  · intro f hf
    obtain ⟨g, hg, rfl⟩ := List.mem_map.1 hf
    simpa using h.nonempty g hg
  · intro k hk i
    rw [List.length_map] at hk
    rw [List.getElem_map, ← List.map_take, hfl, hm, h.level k hk]
    simp only [hm]
    apply and_congr_right
    intro _
    constructor
    · intro hh j hd
      exact hh (e.symm j) (by simpa using hd)
    · intro hh j hd
      simpa using hh (e j) (by simpa using hd)

end generic

variable {α : Type*} [LinearOrder α] {m n : ℕ}

theorem lexLE_not_dom {a b : Fin m → α} (h : LexLE a b) : ¬ Dominates b a := by
  rintro ⟨h1, i, hi⟩
  rcases h with rfl | ⟨k, _, hk⟩
  · exact lt_irrefl _ hi
  · exact absurd hk (not_lt.2 (h1 k))

theorem lexLELast_not_dom {a b : Fin m → α} (h : LexLELast a b) : ¬ Dominates b a := by
  rintro ⟨h1, i, hi⟩
  rcases h with rfl | ⟨k, _, hk⟩
  · exact lt_irrefl _ hi
  · exact absurd hk (not_lt.2 (h1 k))

theorem nonDominatedIn_iff (F : Fin n → Fin m → α) (i : Fin n) (front : List (Fin n)) :
    nonDominatedIn F i front = true ↔ ∀ j ∈ front, ¬ Dominates (F j) (F i) := by
  unfold nonDominatedIn
  rw [List.all_eq_true]
  simp only [List.mem_reverse, bne_iff_ne, ne_eq, (Props.C01_get_relation _ _ _ _).2.1]
  rfl

/-- The number of the first front without a dominator. -/
theorem seqLoop_spec (F : Fin n → Fin m → α) (i : Fin n) (fs : List (List (Fin n))) (k : ℕ) :
    ∃ d, seqLoop F i fs k = k + d ∧ d ≤ fs.length ∧
      (∀ l (hl : l < fs.length), l < d → ∃ j ∈ fs[l], Dominates (F j) (F i)) ∧
      (∀ hl : d < fs.length, ∀ j ∈ fs[d], ¬ Dominates (F j) (F i)) := by
  induction fs generalizing k with
  | nil => exact ⟨0, by simp [seqLoop]⟩
  | cons f fs ih =>
    rw [seqLoop]
    by_cases h : nonDominatedIn F i f = true
    · refine ⟨0, by simp [h], by simp, by simp, ?_⟩
      intro _
      simpa using (nonDominatedIn_iff F i f).1 h
    · obtain ⟨d, h1, h2, h3, h4⟩ := ih (k + 1)
      refine ⟨d + 1, by simp only [h, if_false, h1]; simp; omega, by simpa using h2, ?_, ?_⟩
      · intro l hl hld
        cases l with
        | zero =>
          rw [nonDominatedIn_iff] at h
          push Not at h
          simpa using h
        | succ l => simpa using h3 l (by simpa using hl) (by omega)
      · intro hl
        simpa using h4 (by simpa using hl)

theorem seqLoop_unique {F : Fin n → Fin m → α} {i : Fin n} {fs : List (List (Fin n))} {d d' : ℕ}
    (h2 : d ≤ fs.length) (h2' : d' ≤ fs.length)
    (h3 : ∀ l (hl : l < fs.length), l < d → ∃ j ∈ fs[l], Dominates (F j) (F i))
    (h4 : ∀ hl : d < fs.length, ∀ j ∈ fs[d], ¬ Dominates (F j) (F i))
    (h3' : ∀ l (hl : l < fs.length), l < d' → ∃ j ∈ fs[l], Dominates (F j) (F i))
    (h4' : ∀ hl : d' < fs.length, ∀ j ∈ fs[d'], ¬ Dominates (F j) (F i)) : d = d' := by
  rcases lt_trichotomy d d' with h | h | h
  · obtain ⟨j, hj, hd⟩ := h3' d (by omega) h
    exact absurd hd (h4 (by omega) j hj)
  · exact h
  · obtain ⟨j, hj, hd⟩ := h3 d' (by omega) h
    exact absurd hd (h4' (by omega) j hj)

theorem sequentialSearch_unique (F : Fin n → Fin m → α) (i : Fin n) (fs : List (List (Fin n))) {d : ℕ}
    (h2 : d ≤ fs.length)
    (h3 : ∀ l (hl : l < fs.length), l < d → ∃ j ∈ fs[l], Dominates (F j) (F i))
    (h4 : ∀ hl : d < fs.length, ∀ j ∈ fs[d], ¬ Dominates (F j) (F i)) : sequentialSearch F i fs = d := by
  obtain ⟨d', h1', h2', h3', h4'⟩ := seqLoop_spec F i fs 0
  unfold sequentialSearch
  rw [h1', Nat.zero_add]
  exact seqLoop_unique h2' h2 h3' h4' h3 h4

/-- The binary search finds the same front, provided domination by front `l` is inherited downwards. -/
theorem binLoop_spec (F : Fin n → Fin m → α) (i : Fin n) (fs : List (List (Fin n)))
    (mono : ∀ l l' (hl : l < fs.length) (hl' : l' < fs.length), l' ≤ l →
      nonDominatedIn F i fs[l'] = true → nonDominatedIn F i fs[l] = true)
    (fuel : ℕ) : ∀ kMin kMax k, kMin < kMax → kMax ≤ fs.length → kMin < k → k ≤ kMax →
    (k < kMax ∨ (kMax = fs.length ∧ k = kMin + 1) ∨ (kMin = 0 ∧ kMax = fs.length)) →
    (∀ l (hl : l < fs.length), l < kMin → nonDominatedIn F i fs[l] = false) →
    (kMax < fs.length → ∀ hl : kMax - 1 < fs.length, nonDominatedIn F i fs[kMax - 1] = true) →
    2 * (kMax - kMin) + 1 ≤ fuel + (if k < kMax then 1 else 0) →
    binLoop F i fs fuel kMin kMax k = some (sequentialSearch F i fs) := by
  induction fuel with
  | zero => intro kMin kMax k h1 h2 h3 h4 h5 h6 h7 hf; split at hf <;> omega
  | succ fuel ih =>
    intro kMin kMax k h1 h2 h3 h4 h5 h6 h7 hf
    rw [binLoop]
    have hk0 : k ≠ 0 := by omega
    have hk1 : k - 1 < fs.length := by omega
    rw [if_neg hk0, List.getElem?_eq_getElem hk1]
    simp only
    have dom_of : ∀ l (hl : l < fs.length), nonDominatedIn F i fs[l] = false →
        ∃ j ∈ fs[l], Dominates (F j) (F i) := by
      intro l hl h
      have : ¬ (nonDominatedIn F i fs[l] = true) := by simp [h]
      rw [nonDominatedIn_iff] at this
      push Not at this
      exact this
    by_cases hnd : nonDominatedIn F i fs[k - 1] = true
    · simp only [hnd, if_true]
      by_cases hk : k = kMin + 1
      · rw [if_pos hk]
        congr 1
        symm
        refine sequentialSearch_unique F i fs (by omega) (fun l hl hlk => dom_of l hl (h6 l hl (by omega))) ?_
        intro hl
        exact (nonDominatedIn_iff F i _).1 hnd
      · rw [if_neg hk]
        have hm : midpoint k kMin < k ∧ kMin < midpoint k kMin := by unfold midpoint; omega
        refine ih kMin k (midpoint k kMin) (by omega) (by omega) hm.2 (by omega) (Or.inl hm.1) h6 ?_ ?_
        · intro _ _; exact hnd
        · rw [if_pos hm.1]
          split at hf <;> omega
    · have hnd' : nonDominatedIn F i fs[k - 1] = false := by simpa using hnd
      simp only [hnd', Bool.false_eq_true, if_false]
      have hdom : ∀ l (hl : l < fs.length), l < k → nonDominatedIn F i fs[l] = false := by
        intro l hl hlk
        by_contra hcon
        have := mono (k - 1) l hk1 hl (by omega) (by simpa using hcon)
        rw [this] at hnd'; exact absurd hnd' (by simp)
      by_cases hc : kMax = k + 1 ∧ kMax < fs.length
      · rw [if_pos hc]
        congr 1
        symm
        refine sequentialSearch_unique F i fs (by omega) (fun l hl hlk => dom_of l hl (hdom l hl (by omega))) ?_
        intro hl
        exact (nonDominatedIn_iff F i _).1 (h7 hc.2 hl)
      · rw [if_neg hc]
        by_cases hk : k = fs.length
        · rw [if_pos hk]
          congr 1
          symm
          exact sequentialSearch_unique F i fs (le_refl _) (fun l hl hlk => dom_of l hl (hdom l hl (by omega)))
            (fun hl => absurd hl (lt_irrefl _))
        · rw [if_neg hk]
          -- `k = kMax` is impossible here: the front `kMax - 1` is known not to dominate
          have hklt : k < kMax := by
            by_contra hcon
            have e : k = kMax := by omega
            subst e
            have := h7 (by omega) hk1
            rw [this] at hnd'; exact absurd hnd' (by simp)
          have hm : k < midpoint kMax k ∧ midpoint kMax k ≤ kMax := by unfold midpoint; omega
          refine ih k kMax (midpoint kMax k) hklt h2 hm.1 hm.2 ?_ hdom h7 ?_
          · by_cases hlt : midpoint kMax k < kMax
            · exact Or.inl hlt
            · right; left
              unfold midpoint at *
              constructor
              · by_contra hcon
                apply hc; constructor
                · omega
                · omega
              · omega
          · rw [if_pos hklt] at hf
            split <;> omega

theorem binarySearch_eq (F : Fin n → Fin m → α) (i : Fin n) (fs : List (List (Fin n)))
    (mono : ∀ l l' (hl : l < fs.length) (hl' : l' < fs.length), l' ≤ l →
      nonDominatedIn F i fs[l'] = true → nonDominatedIn F i fs[l] = true) :
    binarySearch F i fs = some (sequentialSearch F i fs) := by
  unfold binarySearch
  by_cases h0 : fs.length = 0
  · rw [if_pos h0]
    have : fs = [] := List.length_eq_zero_iff.1 h0
    subst this
    simp [sequentialSearch, seqLoop]
  · rw [if_neg h0]
    apply binLoop_spec F i fs mono
    · omega
    · omega
    · unfold midpoint; omega
    · unfold midpoint; omega
    · exact Or.inr (Or.inr ⟨rfl, rfl⟩)
    · intro l hl h; omega
    · intro h; omega
    · split <;> omega

theorem LocalFronts.mono {F : Fin n → Fin m → α} {fronts : List (List (Fin n))}
    (h : LocalFronts (fun a b => Dominates (F a) (F b)) fronts) (i : Fin n)
    (l l' : ℕ) (hl : l < fronts.length) (hl' : l' < fronts.length) (hll : l' ≤ l)
    (hn : nonDominatedIn F i fronts[l'] = true) : nonDominatedIn F i fronts[l] = true := by
  rcases Nat.eq_or_lt_of_le hll with rfl | hlt
  · exact hn
  · rw [nonDominatedIn_iff] at *
    intro j hj hd
    obtain ⟨j', hj', hd'⟩ := h.pred l hl j hj l' hlt
    exact hn j' hj' (dominates_strictPO.trans _ _ _ hd' hd)

theorem ensSearch_eq (st : EnsStrategy) {F : Fin n → Fin m → α} {fronts : List (List (Fin n))}
    (h : LocalFronts (fun a b => Dominates (F a) (F b)) fronts) (i : Fin n) :
    ensSearch st F i fronts = some (sequentialSearch F i fronts) := by
  cases st with
  | sequential => rfl
  | binary => exact binarySearch_eq F i fronts (h.mono i)

theorem ensInsert_spec (st : EnsStrategy) {F : Fin n → Fin m → α} (L : List (Fin n)) :
    ∀ fronts, LocalFronts (fun a b => Dominates (F a) (F b)) fronts → (fronts.flatten ++ L).Nodup →
    (∀ a ∈ fronts.flatten, ∀ b ∈ L, ¬ Dominates (F b) (F a)) →
    L.Pairwise (fun a b => ¬ Dominates (F b) (F a)) →
    ∃ r, ensInsert st F L fronts = some r ∧ LocalFronts (fun a b => Dominates (F a) (F b)) r ∧
      r.flatten.Perm (fronts.flatten ++ L) ∧ ensInsert .sequential F L fronts = some r := by
  induction L with
  | nil => intro fronts h _ _ _; exact ⟨fronts, rfl, h, by simp, rfl⟩
  | cons p L ih =>
    intro fronts h hnd hle hpw
    rw [List.pairwise_cons] at hpw
    obtain ⟨d, h1, h2, h3, h4⟩ := seqLoop_spec F p fronts 0
    have hp : p ∉ fronts.flatten := by
      rw [List.nodup_append] at hnd
      intro hcon
      exact hnd.2.2 p hcon p (by simp) rfl
    obtain ⟨i1, i2⟩ := h.insert p (dominates_strictPO.irrefl _) hp
      (fun j hj => hle j hj p (by simp)) d h2 h3 h4
    have e : sequentialSearch F p fronts = d := by unfold sequentialSearch; rw [h1, Nat.zero_add]
    obtain ⟨r, r1, r2, r3, r4⟩ := ih (appendToFront fronts d p) i1 (by
        refine ((i2.append_right L).nodup_iff).2 ?_
        have : (p :: fronts.flatten ++ L).Perm (fronts.flatten ++ p :: L) := List.perm_middle.symm
        exact this.nodup_iff.2 hnd) (by
        intro a ha b hb
        replace ha := (List.Perm.mem_iff i2).1 ha
        rcases List.mem_cons.1 ha with rfl | ha
        · exact hpw.1 b hb
        · exact hle a ha b (by simp [hb])) hpw.2
    refine ⟨r, ?_, r2, ?_, ?_⟩
    · rw [ensInsert, ensSearch_eq st h p]; simp only [e]; exact r1
    · refine r3.trans ((i2.append_right L).trans ?_)
      exact List.perm_middle.symm
    · rw [ensInsert, ensSearch_eq .sequential h p]; simp only [e]; exact r4

theorem efficientSort_spec (st : EnsStrategy) (I : Equiv.Perm (Fin n)) (F : Fin n → Fin m → α)
    (hI : SortedBy LexLE I F) :
    ∃ fronts, efficientSort st I F = some fronts ∧
      CanonicalFronts (fun i j => Dominates (F i) (F j)) fronts ∧
      efficientSort .sequential I F = some fronts := by
  have hpw : (List.finRange n).Pairwise (fun a b => ¬ Dominates (F (I b)) (F (I a))) := by
    have := List.pairwise_lt_finRange n
    exact this.imp (fun h => lexLE_not_dom (hI _ _ h))
  obtain ⟨r, r1, r2, r3, r4⟩ := ensInsert_spec st (F := fun i => F (I i)) (List.finRange n) []
    ⟨by simp, by simp, by simp, by simp⟩ (by simpa using List.nodup_finRange n) (by simp) hpw
  refine ⟨r.map (fun f => f.map I), by simp [efficientSort, r1], ?_, by simp [efficientSort, r4]⟩
  apply canonical_map I (dom := fun i j => Dominates (F i) (F j))
  apply r2.canonical
  · exact ⟨fun i => dominates_strictPO.irrefl _, fun i j k => dominates_strictPO.trans _ _ _⟩
  · intro i
    rw [List.Perm.mem_iff r3]; simp

end Lemmas
