import Verif.Model.Permutation
import Verif.Spec.Tour
import Mathlib.Data.List.Perm.Basic
import Mathlib.Data.List.Nodup
import Mathlib.Data.Set.Basic
import Mathlib.Data.Set.Insert

set_option linter.unusedSectionVars false
set_option linter.unusedSimpArgs false

namespace Lemmas
open Model Spec

variable {ι : Type*} [DecidableEq ι]

theorem mem_setAdd (s : List ι) (v w : ι) : w ∈ setAdd s v ↔ w ∈ s ∨ w = v := by
  unfold setAdd
  split_ifs with h
  · constructor
    · exact Or.inl
    · rintro (h' | rfl) <;> assumption
  · simp

theorem nodup_setAdd (s : List ι) (v : ι) (h : s.Nodup) : (setAdd s v).Nodup := by
  unfold setAdd
  split_ifs with hv
  · exact h
  · rw [List.nodup_append]
    exact ⟨h, List.nodup_singleton _, fun a ha b hb => by
      rw [List.mem_singleton] at hb; subst hb; exact fun h => hv (h ▸ ha)⟩

/-- What the adjacency dictionary contains after some entries were added. -/
structure AdjInv (H0 H : Adj ι) (S : Set (ι × ι × ι)) : Prop where
  keysNodup : H.keys.Nodup
  keys : ∀ e, e ∈ H.keys ↔ e ∈ H0.keys ∨ ∃ p s, (e, p, s) ∈ S
  nbNodup : ∀ e ∈ H.keys, (H.nb e).Nodup
  nb : ∀ e ∈ H.keys, ∀ v, v ∈ H.nb e ↔ (e ∈ H0.keys ∧ v ∈ H0.nb e) ∨ ∃ p s, (e, p, s) ∈ S ∧ (v = p ∨ v = s)

theorem AdjInv.add {H0 H : Adj ι} {S : Set (ι × ι × ι)} (h : AdjInv H0 H S) (k p s : ι) :
    AdjInv H0 (adjAdd H k p s) (S ∪ {(k, p, s)}) := by
  have hkeys : ∀ e, e ∈ (adjAdd H k p s).keys ↔ e ∈ H.keys ∨ e = k := by
    intro e
    unfold adjAdd
    simp only
    split_ifs with hk
    · constructor
      · exact Or.inl
      · rintro (h' | rfl) <;> assumption
    · simp
  refine ⟨?_, ?_, ?_, ?_⟩
  · unfold adjAdd
    simp only
    split_ifs with hk
    · exact h.keysNodup
    · rw [List.nodup_append]
      exact ⟨h.keysNodup, List.nodup_singleton _, fun a ha b hb => by
        rw [List.mem_singleton] at hb; subst hb; exact fun h => hk (h ▸ ha)⟩
  · intro e
    rw [hkeys, h.keys]
    simp only [Set.mem_union, Set.mem_singleton_iff, Prod.mk.injEq]
    constructor
    · rintro ((h | ⟨p, s, h⟩) | rfl)
      · exact Or.inl h
      · exact Or.inr ⟨p, s, Or.inl h⟩
      · exact Or.inr ⟨p, s, Or.inr ⟨rfl, rfl, rfl⟩⟩
    · rintro (h | ⟨p, s, h | ⟨h, -, -⟩⟩)
      · exact Or.inl (Or.inl h)
      · exact Or.inl (Or.inr ⟨p, s, h⟩)
      · exact Or.inr h
  · intro e he
    by_cases hek : e = k
    · subst hek
      simp only [adjAdd, Function.update_self]
      refine nodup_setAdd _ _ (nodup_setAdd _ _ ?_)
      split_ifs with hk
      · exact h.nbNodup e hk
      · exact List.nodup_nil
    · simp only [adjAdd, Function.update_of_ne hek]
      refine h.nbNodup e ?_
      rcases (hkeys e).1 he with h' | h'
      · exact h'
      · exact absurd h' hek
  · intro e he v
    simp only [Set.mem_union, Set.mem_singleton_iff, Prod.mk.injEq]
    by_cases hek : e = k
    · subst hek
      simp only [adjAdd, Function.update_self]
      rw [mem_setAdd, mem_setAdd]
      by_cases hk : e ∈ H.keys
      · rw [if_pos hk, h.nb e hk]
        constructor
        · rintro (((h' | ⟨p', s', h1, h2⟩) | rfl) | rfl)
          · exact Or.inl h'
          · exact Or.inr ⟨p', s', Or.inl h1, h2⟩
          · exact Or.inr ⟨v, s, Or.inr ⟨trivial, rfl, rfl⟩, Or.inl rfl⟩
          · exact Or.inr ⟨p, v, Or.inr ⟨trivial, rfl, rfl⟩, Or.inr rfl⟩
        · rintro (h' | ⟨p', s', h1 | ⟨-, rfl, rfl⟩, h2⟩)
          · exact Or.inl (Or.inl (Or.inl h'))
          · exact Or.inl (Or.inl (Or.inr ⟨p', s', h1, h2⟩))
          · rcases h2 with h2 | h2
            · exact Or.inl (Or.inr h2)
            · exact Or.inr h2
      · rw [if_neg hk]
        have hk' : ¬ (e ∈ H0.keys ∨ ∃ p s, (e, p, s) ∈ S) := fun h' => hk ((h.keys e).2 h')
        simp only [not_or, not_exists] at hk'
        constructor
        · rintro ((h' | rfl) | rfl)
          · simp at h'
          · exact Or.inr ⟨v, s, Or.inr ⟨trivial, rfl, rfl⟩, Or.inl rfl⟩
          · exact Or.inr ⟨p, v, Or.inr ⟨trivial, rfl, rfl⟩, Or.inr rfl⟩
        · rintro (h' | ⟨p', s', h1 | ⟨-, rfl, rfl⟩, h2⟩)
          · exact absurd h'.1 hk'.1
          · exact absurd h1 (hk'.2 p' s')
          · rcases h2 with h2 | h2
            · exact Or.inl (Or.inr h2)
            · exact Or.inr h2
    · simp only [adjAdd, Function.update_of_ne hek]
      have he' : e ∈ H.keys := by
        rcases (hkeys e).1 he with h' | h'
        · exact h'
        · exact absurd h' hek
      rw [h.nb e he']
      simp [hek]

theorem calcAdj_spec (x : List ι) (H0 : Adj ι) (h0 : H0.keys.Nodup) (h1 : ∀ e ∈ H0.keys, (H0.nb e).Nodup) :
    (calcAdj x H0).keys.Nodup ∧ (∀ e, e ∈ (calcAdj x H0).keys ↔ e ∈ H0.keys ∨ e ∈ x) ∧
    (∀ e ∈ (calcAdj x H0).keys, ((calcAdj x H0).nb e).Nodup) ∧
    (∀ e ∈ (calcAdj x H0).keys, ∀ v, v ∈ (calcAdj x H0).nb e ↔ (e ∈ H0.keys ∧ v ∈ H0.nb e) ∨ CycNext x e v) := by
  let tr : Fin x.length → ι × ι × ι := fun k => (x.get k, x.get ⟨(k.1 + x.length - 1) % x.length, Nat.mod_lt _ k.pos⟩,
      x.get ⟨(k.1 + 1) % x.length, Nat.mod_lt _ k.pos⟩)
  have key : ∀ (L : List (Fin x.length)) (H : Adj ι) (S : Set (ι × ι × ι)), AdjInv H0 H S →
      AdjInv H0 (L.foldl (fun H (k : Fin x.length) =>
        adjAdd H (x.get k) (x.get ⟨(k.1 + x.length - 1) % x.length, Nat.mod_lt _ k.pos⟩)
          (x.get ⟨(k.1 + 1) % x.length, Nat.mod_lt _ k.pos⟩)) H) (S ∪ {t | ∃ k ∈ L, t = tr k}) := by
    intro L
    induction L with
    | nil => intro H S h; simpa using h
    | cons k L ih =>
      intro H S h
      have := ih _ _ (h.add (x.get k) (x.get ⟨(k.1 + x.length - 1) % x.length, Nat.mod_lt _ k.pos⟩)
        (x.get ⟨(k.1 + 1) % x.length, Nat.mod_lt _ k.pos⟩))
      rw [List.foldl_cons]
      convert this using 1
      ext t
      simp only [Set.mem_union, Set.mem_ofPred_eq, List.mem_cons, exists_eq_or_imp, Set.mem_singleton_iff]
      exact or_assoc.symm
  have hinit : AdjInv H0 H0 ∅ := ⟨h0, by simp, h1, by
    intro e he v; simp [he]⟩
  have := key (List.finRange x.length) H0 ∅ hinit
  have heq : calcAdj x H0 = (List.finRange x.length).foldl (fun H (k : Fin x.length) =>
        adjAdd H (x.get k) (x.get ⟨(k.1 + x.length - 1) % x.length, Nat.mod_lt _ k.pos⟩)
          (x.get ⟨(k.1 + 1) % x.length, Nat.mod_lt _ k.pos⟩)) H0 := rfl
  rw [← heq] at this
  refine ⟨this.keysNodup, fun e => ?_, this.nbNodup, fun e he v => ?_⟩
  · rw [this.keys]
    refine or_congr_right ?_
    rw [List.mem_iff_get]
    simp only [Set.empty_union, Set.mem_ofPred_eq, List.mem_finRange, true_and, tr, Prod.mk.injEq]
    constructor
    · rintro ⟨p, s, k, h, -⟩; exact ⟨k, h.symm⟩
    · rintro ⟨k, h⟩; exact ⟨_, _, k, h.symm, rfl, rfl⟩
  · rw [this.nb e he]
    refine or_congr_right ?_
    simp only [Set.empty_union, Set.mem_ofPred_eq, List.mem_finRange, true_and, tr, Prod.mk.injEq, CycNext]
    constructor
    · rintro ⟨p, s, ⟨k, h1, h2, h3⟩, h4⟩
      refine ⟨k, h1.symm, ?_⟩
      rw [← h2, ← h3]; exact h4
    · rintro ⟨k, h1, h2⟩
      exact ⟨_, _, ⟨k, h1.symm, rfl, rfl⟩, h2⟩

theorem cycNext_symm (x : List ι) (u v : ι) (h : CycNext x u v) : CycNext x v u := by
  obtain ⟨k, rfl, h⟩ := h
  have hk := k.2
  rcases h with rfl | rfl
  · refine ⟨_, rfl, Or.inr ?_⟩
    congr 1
    ext
    simp only
    rcases Nat.eq_zero_or_pos k.1 with h0 | h0
    · rw [h0, Nat.zero_add, Nat.mod_eq_of_lt (by omega : x.length - 1 < x.length), Nat.sub_add_cancel (by omega),
        Nat.mod_self]
    · have e : k.1 + x.length - 1 = (k.1 - 1) + x.length := by omega
      rw [e, Nat.add_mod_right, Nat.mod_eq_of_lt (by omega : k.1 - 1 < x.length), Nat.sub_add_cancel h0,
        Nat.mod_eq_of_lt hk]
  · refine ⟨_, rfl, Or.inl ?_⟩
    congr 1
    ext
    simp only
    rcases Nat.lt_or_ge (k.1 + 1) x.length with h0 | h0
    · rw [Nat.mod_eq_of_lt h0]
      have e : k.1 + 1 + x.length - 1 = k.1 + x.length := by omega
      rw [e, Nat.add_mod_right, Nat.mod_eq_of_lt hk]
    · have e : k.1 + 1 = x.length := by omega
      rw [e, Nat.mod_self, Nat.zero_add, Nat.mod_eq_of_lt (by omega)]
      omega

theorem cycNext_irrefl (x : List ι) (hn : x.Nodup) (hl : 2 ≤ x.length) (u : ι) : ¬ CycNext x u u := by
  rintro ⟨k, h1, h2⟩
  have hinj := List.nodup_iff_injective_get.1 hn
  have hk := k.2
  rcases h2 with h2 | h2
  · have := hinj (h1.trans h2)
    have := congrArg Fin.val this
    simp only at this
    rcases Nat.eq_zero_or_pos k.1 with h0 | h0
    · rw [h0, Nat.zero_add, Nat.mod_eq_of_lt (by omega)] at this; omega
    · have e : k.1 + x.length - 1 = (k.1 - 1) + x.length := by omega
      rw [e, Nat.add_mod_right, Nat.mod_eq_of_lt (by omega)] at this; omega
  · have := hinj (h1.trans h2)
    have := congrArg Fin.val this
    simp only at this
    rcases Nat.lt_or_ge (k.1 + 1) x.length with h0 | h0
    · rw [Nat.mod_eq_of_lt h0] at this; omega
    · have e : k.1 + 1 = x.length := by omega
      rw [e, Nat.mod_self] at this; omega

theorem cycNext_mem (x : List ι) (u v : ι) (h : CycNext x u v) : u ∈ x ∧ v ∈ x := by
  obtain ⟨k, rfl, h | h⟩ := h
  · exact ⟨List.get_mem .., h ▸ List.get_mem ..⟩
  · exact ⟨List.get_mem .., h ▸ List.get_mem ..⟩

theorem adjRemoveLoop_spec (val : ι) (keys : List ι) (es : List ι) : ∀ nb : ι → List ι, es.Nodup →
    (∀ e ∈ es, e ∈ keys ∧ val ∈ nb e) →
    ∃ nb', adjRemoveLoop val keys es nb = some nb' ∧ (∀ e ∈ es, nb' e = (nb e).erase val) ∧
      (∀ e, e ∉ es → nb' e = nb e) := by
  induction es with
  | nil => intro nb _ _; exact ⟨nb, rfl, by simp, by simp⟩
  | cons e es ih =>
    intro nb hnd h
    obtain ⟨hne, hnd'⟩ := List.nodup_cons.1 hnd
    obtain ⟨nb', h1, h2, h3⟩ := ih (Function.update nb e ((nb e).erase val)) hnd' (fun e' he' => by
      have : e' ≠ e := fun h => hne (h ▸ he')
      rw [Function.update_of_ne this]
      exact h e' (List.mem_cons_of_mem _ he'))
    refine ⟨nb', by rw [adjRemoveLoop, if_pos (h e (List.mem_cons_self ..))]; exact h1, ?_, ?_⟩
    · intro e' he'
      rcases List.mem_cons.1 he' with rfl | he'
      · rw [h3 e' hne, Function.update_self]
      · rw [h2 e' he', Function.update_of_ne (fun h : e' = e => hne (h ▸ he'))]
    · intro e' he'
      rw [List.mem_cons, not_or] at he'
      rw [h3 e' he'.2, Function.update_of_ne he'.1]

/-- The adjacency dictionary describes the relation `N` restricted to the remaining keys. -/
structure HoldsAdj (N : ι → ι → Prop) (H : Adj ι) : Prop where
  keysNodup : H.keys.Nodup
  nbNodup : ∀ e ∈ H.keys, (H.nb e).Nodup
  nb : ∀ e ∈ H.keys, ∀ v, v ∈ H.nb e ↔ N e v ∧ v ∈ H.keys

theorem adjRemove_spec {N : ι → ι → Prop} (hs : ∀ u v, N u v → N v u) (_hi : ∀ u, ¬ N u u) {H : Adj ι}
    (h : HoldsAdj N H) (val : ι) (hv : val ∈ H.keys) :
    ∃ H', adjRemove H val = some H' ∧ H'.keys = H.keys.erase val ∧ HoldsAdj N H' := by
  obtain ⟨nb', h1, h2, h3⟩ := adjRemoveLoop_spec val H.keys (H.nb val) H.nb (h.nbNodup val hv) (by
    intro e he
    obtain ⟨hN, hek⟩ := (h.nb val hv e).1 he
    exact ⟨hek, (h.nb e hek val).2 ⟨hs _ _ hN, hv⟩⟩)
  refine ⟨⟨H.keys.erase val, nb'⟩, by rw [adjRemove, if_pos hv, h1]; rfl, rfl, h.keysNodup.erase _, ?_, ?_⟩
  · intro e he
    have he' := List.mem_of_mem_erase he
    show (nb' e).Nodup
    by_cases hm : e ∈ H.nb val
    · rw [h2 e hm]; exact (h.nbNodup e he').erase _
    · rw [h3 e hm]; exact h.nbNodup e he'
  · intro e he v
    obtain ⟨hne, he'⟩ := (h.keysNodup.mem_erase_iff).1 he
    show v ∈ nb' e ↔ N e v ∧ v ∈ H.keys.erase val
    rw [h.keysNodup.mem_erase_iff]
    by_cases hm : e ∈ H.nb val
    · rw [h2 e hm, (h.nbNodup e he').mem_erase_iff, h.nb e he']
      tauto
    · rw [h3 e hm, h.nb e he']
      constructor
      · rintro ⟨a, b⟩
        refine ⟨a, fun hval => hm ?_, b⟩
        rw [h.nb val hv]
        exact ⟨hs _ _ (hval ▸ a), he'⟩
      · tauto

theorem erxNext_spec (pick : List ι → ι) (hp : ∀ l, l ≠ [] → pick l ∈ l) (neighbors : List ι) (H : Adj ι)
    (hne : H.keys ≠ []) (hnb : ∀ e ∈ neighbors, e ∈ H.keys) :
    ∃ next, erxNext pick neighbors H = some next ∧ next ∈ H.keys ∧ (neighbors = [] ∨
      next ∈ neighbors ∧ ∀ e ∈ neighbors, (H.nb next).length ≤ (H.nb e).length) := by
  unfold erxNext
  by_cases h0 : neighbors.length = 0
  · rw [if_pos h0]
    exact ⟨pick H.keys, by simp [choice, hne], hp _ hne, Or.inl (List.length_eq_zero_iff.1 h0)⟩
  · rw [if_neg h0]
    have hall : (neighbors.all fun e => decide (e ∈ H.keys)) = true := by
      rw [List.all_eq_true]; intro e he; simpa using hnb e he
    rw [if_pos hall]
    cases hm : (neighbors.map fun e => (H.nb e).length).min? with
    | none =>
      rw [List.min?_eq_none_iff, List.map_eq_nil_iff] at hm
      exact absurd (by rw [hm]; rfl) h0
    | some m =>
      simp only
      obtain ⟨h1, h2⟩ := List.min?_eq_some_iff.1 hm
      obtain ⟨e0, he0, hem⟩ := List.mem_map.1 h1
      have hF : neighbors.filter (fun e => decide ((H.nb e).length = m)) ≠ [] :=
        List.ne_nil_of_mem (List.mem_filter.2 ⟨he0, by simpa using hem⟩)
      have hmem := List.mem_filter.1 (hp _ hF)
      refine ⟨pick _, by rw [choice, if_neg hF], hnb _ hmem.1, Or.inr ⟨hmem.1, fun e he => ?_⟩⟩
      have := hmem.2
      rw [decide_eq_true_iff] at this
      rw [this]
      exact h2 _ (List.mem_map.2 ⟨e, he, rfl⟩)

theorem erxLoop_spec {N : ι → ι → Prop} (hs : ∀ u v, N u v → N v u) (hi : ∀ u, ¬ N u u) (a : List ι)
    (hN : ∀ u v, N u v → u ∈ a ∧ v ∈ a)
    (pick : ℕ → List ι → ι) (hp : ∀ k l, l ≠ [] → pick k l ∈ l) : ∀ fuel k H y next, HoldsAdj N H →
    (y ++ H.keys).Perm a → next ∈ H.keys → GoodTour N (y ++ [next]) → a.length ≤ y.length + fuel →
    ∃ res, erxLoop pick a.length fuel k H y next = some res ∧ res.Perm a ∧ GoodTour N res := by
  intro fuel
  induction fuel with
  | zero =>
    intro k H y next hH hperm hnext hg hf
    have := hperm.length_eq
    rw [List.length_append] at this
    have := List.length_pos_of_mem hnext
    omega
  | succ fuel ih =>
    intro k H y next hH hperm hnext hg hf
    have hperm' : (y ++ [next] ++ H.keys.erase next).Perm a := by
      rw [List.append_assoc, List.singleton_append]
      exact ((List.perm_cons_erase hnext).symm.append_left y).trans hperm
    rw [erxLoop]
    by_cases hl : (y ++ [next]).length = a.length
    · rw [if_pos hl]
      refine ⟨_, rfl, ?_, hg⟩
      have hlen := hperm'.length_eq
      rw [List.length_append, hl] at hlen
      have : H.keys.erase next = [] := List.length_eq_zero_iff.1 (by omega)
      rwa [this, List.append_nil] at hperm'
    · rw [if_neg hl, if_pos hnext]
      obtain ⟨H', h1, h2, h3⟩ := adjRemove_spec hs hi hH next hnext
      have hne : H'.keys ≠ [] := by
        intro h
        rw [h2] at h
        rw [h, List.append_nil] at hperm'
        exact hl hperm'.length_eq
      obtain ⟨nx, e1, e2, e3⟩ := erxNext_spec (pick k) (hp k) (H.nb next) H' hne (by
        intro e he
        obtain ⟨hN', hek⟩ := (hH.nb next hnext e).1 he
        rw [h2, hH.keysNodup.mem_erase_iff]
        exact ⟨fun h => hi next (h ▸ hN'), hek⟩)
      rw [h1]
      simp only [Option.bind_some, e1]
      refine ih (k + 1) H' (y ++ [next]) nx h3 (by rw [h2]; exact hperm') e2 ?_ ?_
      · intro j hj
        rcases Nat.lt_or_ge (j + 1) (y ++ [next]).length with hj' | hj'
        · have := hg j hj'
          rw [List.getElem_append_left (by omega), List.getElem_append_left hj',
            List.take_append_of_le_length (by omega)]
          exact this
        · have hjl : j = y.length := by
            rw [List.length_append, List.length_singleton] at hj hj'
            rw [List.length_append, List.length_singleton] at hj
            omega
          subst hjl
          have g1 : (y ++ [next] ++ [nx])[y.length] = next := by simp
          have g2 : (y ++ [next] ++ [nx])[y.length + 1] = nx := by
            rw [List.getElem_append_right (by simp)]; simp
          rw [g1, g2]
          rcases e3 with e3 | e3
          · right
            intro v hv
            have : v ∉ H.keys := fun hvk => by
              have := (hH.nb next hnext v).2 ⟨hv, hvk⟩
              rw [e3] at this; simp at this
            have hva : v ∈ y ++ H.keys := hperm.mem_iff.2 (hN _ _ hv).2
            rw [List.mem_append] at hva
            rw [List.append_assoc, List.take_left']
            · tauto
            · rfl
          · exact Or.inl ((hH.nb next hnext nx).1 e3.1).1
      · rw [List.length_append, List.length_singleton]; omega

end Lemmas
