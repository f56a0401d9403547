import Verif.Model.Compiled
import Verif.Props.Compiled
import Verif.Lemmas.ENS
import Mathlib.Data.List.Sort
import Mathlib.Data.Fin.VecNotation

/-!
# Best order sort (C121)

`best_order_sort` and `fast_best_order_sort` exist as compiled routines only. Both go through the solutions objective by objective and compare a new
solution only with those already seen for the same objective. That is sound if every dominator of a solution is seen before the solution itself *for each
objective*, i.e. if each column of the order is a linear extension of the dominance relation. Ties break this.
-/

set_option linter.unusedSimpArgs false
set_option linter.unusedVariables false
set_option linter.unusedSectionVars false

namespace Props
open Model Spec Lemmas

variable {n m : ℕ} {α : Type*} [LinearOrder α]

/-- `s` was visited for objective `j` during the visits `done`. -/
def BosSeen (Q : Fin m → List (Fin n)) (done : List (ℕ × Fin m)) (j : Fin m) (s : Fin n) : Prop := ∃ i, (i, j) ∈ done ∧ (Q j)[i]? = some s

/-- What holds after the visits `done`. -/
structure BosInv (dom : Fin n → Fin n → Prop) (Q : Fin m → List (Fin n)) (done : List (ℕ × Fin m)) (st : BosSt n m) : Prop where
  fronts : LocalFronts dom st.fronts
  rank : ∀ s k, st.rank s = some k ↔ ∃ h : k < st.fronts.length, s ∈ st.fronts[k]
  len : ∀ j, (st.L j).length = st.fronts.length
  mem : ∀ j k (hk : k < (st.L j).length) s, s ∈ (st.L j)[k] ↔ BosSeen Q done j s ∧ st.rank s = some k
  seen : ∀ j s, BosSeen Q done j s → ∃ k, st.rank s = some k
  closed : ∀ s k, st.rank s = some k → ∀ e, dom e s → ∃ l, st.rank e = some l
  from_seen : ∀ s k, st.rank s = some k → ∃ j, BosSeen Q done j s

theorem bosPairs_earlier {done rest : List (ℕ × Fin m)} {i : ℕ} {j : Fin m} (h : bosPairs n m = done ++ (i, j) :: rest) {i' : ℕ} (hi : i' < i) :
    (i', j) ∈ done := by
  have hsort : (bosPairs n m).Pairwise fun p q => p.1 ≤ q.1 := by
    unfold bosPairs
    rw [List.pairwise_flatMap]
    refine ⟨fun a _ => ?_, ?_⟩
    · rw [List.pairwise_map]; exact List.pairwise_of_forall (fun _ _ => le_refl _)
    · refine List.pairwise_lt_range.imp ?_
      intro a b hab x hx y hy
      simp only [List.mem_map, List.mem_finRange, true_and] at hx hy
      obtain ⟨_, rfl⟩ := hx
      obtain ⟨_, rfl⟩ := hy
      exact hab.le
  have hin : (i, j) ∈ bosPairs n m := by rw [h]; simp
  have hin' : (i', j) ∈ bosPairs n m := by
    simp only [bosPairs, List.mem_flatMap, List.mem_range, List.mem_map, List.mem_finRange, true_and, Prod.mk.injEq] at hin ⊢
    obtain ⟨a, ha, b, rfl, rfl⟩ := hin
    exact ⟨i', by omega, b, rfl, rfl⟩
  rw [h] at hin' hsort
  rcases List.mem_append.1 hin' with h1 | h1
  · exact h1
  · rcases List.mem_cons.1 h1 with h2 | h2
    · simp only [Prod.mk.injEq] at h2; omega
    · have := (List.pairwise_cons.1 (List.pairwise_append.1 hsort).2.1).1 _ h2
      simp at this; omega

theorem bosSeen_append (Q : Fin m → List (Fin n)) (done : List (ℕ × Fin m)) (i : ℕ) (j l : Fin m) (s : Fin n) :
    BosSeen Q (done ++ [(i, j)]) l s ↔ BosSeen Q done l s ∨ (l = j ∧ (Q j)[i]? = some s) := by
  unfold BosSeen
  simp only [List.mem_append, List.mem_singleton, Prod.mk.injEq]
  constructor
  · rintro ⟨i', h1 | ⟨rfl, rfl⟩, h2⟩
    · exact Or.inl ⟨i', h1, h2⟩
    · exact Or.inr ⟨rfl, h2⟩
  · rintro (⟨i', h1, h2⟩ | ⟨rfl, h2⟩)
    · exact ⟨i', Or.inl h1, h2⟩
    · exact ⟨i, Or.inr ⟨rfl, rfl⟩, h2⟩

/-- One visit keeps the invariant. -/
theorem bosVisit_inv {dom : Fin n → Fin n → Prop} (hpo : StrictPO dom) {Q : Fin m → List (Fin n)} {done : List (ℕ × Fin m)} {st : BosSt n m}
    (inv : BosInv dom Q done st) (i : ℕ) (j : Fin m) (s : Fin n) (hs : (Q j)[i]? = some s) (blocks : List (Fin n) → Bool)
    (hearlier : ∀ e, dom e s → BosSeen Q done j e)
    (hblocks : st.rank s = none → ∀ k (hk : k < (st.L j).length), blocks (st.L j)[k] = true ↔ ∃ e ∈ (st.L j)[k], dom e s) :
    BosInv dom Q (done ++ [(i, j)]) (bosVisit blocks st j s) := by
  unfold bosVisit
  cases hr : st.rank s with
  | some r =>
    refine ⟨inv.fronts, inv.rank, ?_, ?_, ?_, inv.closed, ?_⟩
    · intro l
      dsimp only
      by_cases hl : l = j
      · subst hl; rw [if_pos rfl, List.length_modify]; exact inv.len l
      · rw [if_neg hl]; exact inv.len l
    · intro l k hk t
      dsimp only at hk ⊢
      rw [bosSeen_append]
      by_cases hl : l = j
      · subst hl
        simp only [if_true, List.length_modify] at hk
        simp only [if_true, List.getElem_modify]
        by_cases hrk : r = k
        · subst hrk
          simp only [if_true, List.mem_append, List.mem_singleton, inv.mem l r hk, true_and]
          constructor
          · rintro (⟨h1, h2⟩ | rfl)
            · exact ⟨Or.inl h1, h2⟩
            · exact ⟨Or.inr hs, hr⟩
          · rintro ⟨h1 | h1, h2⟩
            · exact Or.inl ⟨h1, h2⟩
            · rw [hs] at h1; exact Or.inr (Option.some.inj h1).symm
        · simp only [if_neg hrk, inv.mem l k hk, true_and]
          constructor
          · rintro ⟨h1, h2⟩; exact ⟨Or.inl h1, h2⟩
          · rintro ⟨h1 | h1, h2⟩
            · exact ⟨h1, h2⟩
            · rw [hs] at h1; cases h1; rw [hr] at h2; cases h2; exact absurd rfl hrk
      · simp only [if_neg hl] at hk ⊢
        rw [inv.mem l k hk]
        simp only [hl, false_and, or_false]
    · intro l t ht
      rw [bosSeen_append] at ht
      rcases ht with ht | ⟨_, ht⟩
      · exact inv.seen l t ht
      · rw [hs] at ht; cases ht; exact ⟨r, hr⟩
    · intro t k hk
      obtain ⟨l, hl⟩ := inv.from_seen t k hk
      exact ⟨l, (bosSeen_append ..).2 (Or.inl hl)⟩
  | none =>
    have hb := hblocks hr
    dsimp only
    set k := (st.L j).findIdx fun f => !blocks f with hkdef
    have hlenj := inv.len j
    have hkle : k ≤ st.fronts.length := by rw [← hlenj]; exact List.findIdx_le_length
    have hnotin : s ∉ st.fronts.flatten := by
      intro hin
      obtain ⟨f, hf, hsf⟩ := List.mem_flatten.1 hin
      obtain ⟨l, hl, rfl⟩ := List.mem_iff_getElem.1 hf
      have := (inv.rank s l).2 ⟨hl, hsf⟩
      rw [hr] at this; cases this
    have hranked : ∀ t, t ∈ st.fronts.flatten → ∃ l, st.rank t = some l := by
      intro t ht
      obtain ⟨f, hf, hsf⟩ := List.mem_flatten.1 ht
      obtain ⟨l, hl, rfl⟩ := List.mem_iff_getElem.1 hf
      exact ⟨l, (inv.rank t l).2 ⟨hl, hsf⟩⟩
    have hlast : ∀ t ∈ st.fronts.flatten, ¬ dom s t := by
      intro t ht hd
      obtain ⟨l, hl⟩ := hranked t ht
      obtain ⟨l', hl'⟩ := inv.closed t l hl s hd
      rw [hr] at hl'; cases hl'
    have hbefore : ∀ l (hl : l < st.fronts.length), l < k → ∃ e ∈ st.fronts[l], dom e s := by
      intro l hl hlk
      have h1 : l < (st.L j).length := by omega
      have h2 := List.not_of_lt_findIdx (p := fun f => !blocks f) (xs := st.L j) hlk
      obtain ⟨e, he, hd⟩ := (hb l h1).1 (by simpa using h2)
      obtain ⟨h3, h4⟩ := (inv.rank e l).1 ((inv.mem j l h1 e).1 he).2
      exact ⟨e, h4, hd⟩
    have hat : ∀ hl : k < st.fronts.length, ∀ e ∈ st.fronts[k], ¬ dom e s := by
      intro hl e he hd
      have h1 : k < (st.L j).length := by omega
      have h2 := List.findIdx_getElem (p := fun f => !blocks f) (xs := st.L j) (w := h1)
      have h3 : blocks (st.L j)[k] = true := (hb k h1).2 ⟨e, (inv.mem j k h1 e).2 ⟨hearlier e hd, (inv.rank e k).2 ⟨hl, he⟩⟩, hd⟩
      rw [h3] at h2; cases h2
    obtain ⟨hloc, hperm⟩ := inv.fronts.insert s (hpo.irrefl s) hnotin hlast k hkle hbefore hat
    set F' := (if k ≥ st.fronts.length then st.fronts ++ [[]] else st.fronts).modify k (· ++ [s]) with hF'
    have hlen' : F'.length = max st.fronts.length (k + 1) := by
      rw [hF', List.length_modify]
      split
      · simp; omega
      · omega
    -- the members of the extended lists
    have hext : ∀ (X : List (List (Fin n))), X.length = st.fronts.length → ∀ l (hl : l < (if k ≥ st.fronts.length then X ++ [[]] else X).length) t,
        t ∈ (if k ≥ st.fronts.length then X ++ [[]] else X)[l] ↔ ∃ h : l < X.length, t ∈ X[l] := by
      intro X hX l hl t
      by_cases hge : k ≥ st.fronts.length
      · simp only [hge, if_true] at hl ⊢
        by_cases h1 : l < X.length
        · simp [List.getElem_append_left h1, h1]
        · have h2 : l = X.length := by simp at hl; omega
          subst h2
          simp
      · simp only [hge, if_false] at hl ⊢
        exact ⟨fun h => ⟨hl, h⟩, fun ⟨_, h⟩ => h⟩
    have hextlen : ∀ (X : List (List (Fin n))), X.length = st.fronts.length → (if k ≥ st.fronts.length then X ++ [[]] else X).length = F'.length := by
      intro X hX
      rw [hlen']
      split
      · simp; omega
      · omega
    have hk' : k < F'.length := by rw [hlen']; omega
    have hmemF : ∀ l (hl : l < F'.length) t, t ∈ F'[l] ↔ (∃ h : l < st.fronts.length, t ∈ st.fronts[l]) ∨ (l = k ∧ t = s) := by
      intro l hl t
      have h0 := hextlen st.fronts rfl
      have h1 := hext st.fronts rfl l (by omega) t
      simp only [hF', List.getElem_modify]
      by_cases hkl : k = l
      · rw [if_pos hkl, List.mem_append, h1, List.mem_singleton]
        simp [hkl]
      · rw [if_neg hkl, h1]
        have : l ≠ k := fun h => hkl h.symm
        simp [this]
    have hrank' : ∀ t l, Function.update st.rank s (some k) t = some l ↔ (st.rank t = some l) ∨ (l = k ∧ t = s) := by
      intro t l
      by_cases hts : t = s
      · subst hts
        rw [Function.update_self, hr]
        simp [eq_comm]
      · rw [Function.update_of_ne hts]; simp [hts]
    have hseen_old : ∀ l, ¬ BosSeen Q done l s := by
      intro l hl
      obtain ⟨r, h⟩ := inv.seen l s hl
      rw [hr] at h; cases h
    refine ⟨hloc, ?_, ?_, ?_, ?_, ?_, ?_⟩
    · intro t l
      dsimp only [bosPut]
      rw [hrank', inv.rank]
      constructor
      · rintro (⟨h1, h2⟩ | ⟨rfl, rfl⟩)
        · have hl : l < F'.length := by rw [hlen']; omega
          exact ⟨hl, (hmemF l hl t).2 (Or.inl ⟨h1, h2⟩)⟩
        · exact ⟨hk', (hmemF _ hk' t).2 (Or.inr ⟨rfl, rfl⟩)⟩
      · rintro ⟨hl, h⟩
        exact (hmemF l hl t).1 h
    · intro l
      dsimp only [bosPut]
      by_cases hl : l = j
      · rw [if_pos hl, List.length_modify]; exact hextlen _ (inv.len l)
      · rw [if_neg hl]; exact hextlen _ (inv.len l)
    · intro l a ha t
      dsimp only [bosPut] at ha ⊢
      rw [bosSeen_append, hrank']
      by_cases hl : l = j
      · subst hl
        simp only [if_true] at ha ⊢
        rw [List.length_modify] at ha
        have h1 := hext (st.L l) (inv.len l) a ha t
        have hmem1 : t ∈ (if k ≥ st.fronts.length then st.L l ++ [[]] else st.L l)[a] ↔ BosSeen Q done l t ∧ st.rank t = some a := by
          rw [h1]
          constructor
          · rintro ⟨h2, h3⟩; exact (inv.mem l a h2 t).1 h3
          · rintro h2
            have h3 : a < (st.L l).length := by rw [inv.len]; exact ((inv.rank t a).1 h2.2).1
            exact ⟨h3, (inv.mem l a h3 t).2 h2⟩
        rw [List.getElem_modify]
        by_cases hka : k = a
        · rw [if_pos hka, List.mem_append, hmem1, List.mem_singleton]
          constructor
          · rintro (⟨h2, h3⟩ | rfl)
            · exact ⟨Or.inl h2, Or.inl h3⟩
            · exact ⟨Or.inr ⟨trivial, hs⟩, Or.inr ⟨hka.symm, rfl⟩⟩
          · rintro ⟨h2 | ⟨_, h2⟩, h3⟩
            · rcases h3 with h3 | ⟨_, rfl⟩
              · exact Or.inl ⟨h2, h3⟩
              · exact absurd h2 (hseen_old l)
            · rw [hs] at h2; exact Or.inr (Option.some.inj h2).symm
        · rw [if_neg hka, hmem1]
          constructor
          · rintro ⟨h2, h3⟩; exact ⟨Or.inl h2, Or.inl h3⟩
          · rintro ⟨h2, h3 | ⟨rfl, _⟩⟩
            · rcases h2 with h2 | ⟨_, h2⟩
              · exact ⟨h2, h3⟩
              · rw [hs] at h2; cases h2; rw [hr] at h3; cases h3
            · exact absurd rfl hka
      · simp only [if_neg hl] at ha ⊢
        rw [hext (st.L l) (inv.len l) a ha t]
        simp only [hl, false_and, or_false]
        constructor
        · rintro ⟨h2, h3⟩
          have := (inv.mem l a h2 t).1 h3
          exact ⟨this.1, Or.inl this.2⟩
        · rintro ⟨h2, h3 | ⟨_, rfl⟩⟩
          · have h4 : a < (st.L l).length := by rw [inv.len]; exact ((inv.rank t a).1 h3).1
            exact ⟨h4, (inv.mem l a h4 t).2 ⟨h2, h3⟩⟩
          · exact absurd h2 (hseen_old l)
    · intro l t ht
      dsimp only [bosPut]
      rw [bosSeen_append] at ht
      rcases ht with ht | ⟨_, ht⟩
      · obtain ⟨a, ha⟩ := inv.seen l t ht
        exact ⟨a, (hrank' t a).2 (Or.inl ha)⟩
      · rw [hs] at ht; cases ht; exact ⟨k, (hrank' s k).2 (Or.inr ⟨rfl, rfl⟩)⟩
    · intro t a ha e hd
      dsimp only [bosPut] at ha ⊢
      rw [hrank'] at ha
      have : ∃ b, st.rank e = some b := by
        rcases ha with ha | ⟨_, rfl⟩
        · exact inv.closed t a ha e hd
        · exact inv.seen j e (hearlier e hd)
      obtain ⟨b, hb'⟩ := this
      exact ⟨b, (hrank' e b).2 (Or.inl hb')⟩
    · intro t a ha
      dsimp only [bosPut] at ha
      rw [hrank'] at ha
      rcases ha with ha | ⟨_, rfl⟩
      · obtain ⟨l, hl⟩ := inv.from_seen t a ha
        exact ⟨l, (bosSeen_append ..).2 (Or.inl hl)⟩
      · exact ⟨j, (bosSeen_append ..).2 (Or.inr ⟨rfl, hs⟩)⟩

theorem bosInit_inv {dom : Fin n → Fin n → Prop} (Q : Fin m → List (Fin n)) : BosInv dom Q [] (BosSt.init : BosSt n m) := by
  refine ⟨⟨by simp [BosSt.init], by simp [BosSt.init], by simp [BosSt.init], by simp [BosSt.init]⟩, ?_, ?_, ?_, ?_, ?_, ?_⟩ <;> simp [BosSt.init, BosSeen]

/-- Every visit sees all dominators earlier: then the fronts are the Pareto fronts. -/
theorem bos_canonical {dom : Fin n → Fin n → Prop} (hpo : StrictPO dom) {Q : Fin m → List (Fin n)} (hm : 0 < m)
    (hall : ∀ j s, s ∈ Q j) (hlen : ∀ j, (Q j).length = n) {st : BosSt n m} (inv : BosInv dom Q (bosPairs n m) st) : CanonicalFronts dom st.fronts := by
  refine inv.fronts.canonical hpo fun s => ?_
  obtain ⟨i, hi, he⟩ := List.mem_iff_getElem.1 (hall ⟨0, hm⟩ s)
  obtain ⟨k, hk⟩ := inv.seen ⟨0, hm⟩ s ⟨i, by simp [bosPairs, ← hlen ⟨0, hm⟩, hi], by rw [List.getElem?_eq_getElem hi, he]⟩
  obtain ⟨h1, h2⟩ := (inv.rank s k).1 hk
  exact List.mem_flatten.2 ⟨_, List.getElem_mem h1, h2⟩


/-! ### The orders -/

theorem sorted_earlier {r : Fin n → Fin n → Prop} [DecidableRel r] [Std.Total r] [IsTrans (Fin n) r] {s e : Fin n} (hne : ¬ r s e) {i : ℕ}
    (hi : ((List.finRange n).insertionSort r)[i]? = some s) : ∃ i' < i, ((List.finRange n).insertionSort r)[i']? = some e := by
  have hp := List.pairwise_insertionSort r (List.finRange n)
  have he : e ∈ (List.finRange n).insertionSort r := (List.mem_insertionSort _).2 (List.mem_finRange e)
  obtain ⟨i', hi', rfl⟩ := List.mem_iff_getElem.1 he
  obtain ⟨h1, h2⟩ := List.getElem?_eq_some_iff.1 hi
  refine ⟨i', ?_, List.getElem?_eq_getElem hi'⟩
  by_contra hcon
  rcases Nat.lt_or_ge i i' with hlt | hge
  · have := List.pairwise_iff_getElem.1 hp i i' h1 hi' hlt
    rw [h2] at this
    exact hne this
  · have : i = i' := by omega
    subst this
    subst h2
    rcases Std.Total.total (r := r) (((List.finRange n).insertionSort r)[i]) (((List.finRange n).insertionSort r)[i]) with h | h <;> exact hne h

theorem not_lex {a b : List α} (h : List.Forall₂ (· ≤ ·) a b) : ¬ List.Lex (· < ·) b a := by
  induction h with
  | nil => intro h; cases h
  | cons h1 h2 ih =>
    intro h
    cases h with
    | rel h => exact absurd h1 (not_le.2 h)
    | cons h => exact ih h

instance bosKey_total (T : Fin n → List α) : Std.Total fun a b : Fin n => List.Lex (· < ·) (T a) (T b) ∨ (T a = T b ∧ a ≤ b) := by
  constructor
  intro a b
  rcases lt_trichotomy (T a) (T b) with h | h | h
  · exact Or.inl (Or.inl h)
  · rcases le_total a b with h' | h'
    · exact Or.inl (Or.inr ⟨h, h'⟩)
    · exact Or.inr (Or.inr ⟨h.symm, h'⟩)
  · exact Or.inr (Or.inl h)

instance bosKey_trans (T : Fin n → List α) : IsTrans (Fin n) fun a b : Fin n => List.Lex (· < ·) (T a) (T b) ∨ (T a = T b ∧ a ≤ b) := by
  constructor
  intro a b c h1 h2
  rcases h1 with h1 | ⟨h1, h1'⟩
  · rcases h2 with h2 | ⟨h2, _⟩
    · exact Or.inl (lt_trans (a := T a) (b := T b) (c := T c) h1 h2)
    · rw [← h2]; exact Or.inl h1
  · rw [h1]
    rcases h2 with h2 | ⟨h2, h2'⟩
    · exact Or.inl h2
    · exact Or.inr ⟨h2, h1'.trans h2'⟩

instance fboKey_total (g : Fin n → α) (u : Fin n → ℕ) : Std.Total fun a b : Fin n => g a < g b ∨ (g a = g b ∧ u a ≤ u b) := by
  constructor
  intro a b
  rcases lt_trichotomy (g a) (g b) with h | h | h
  · exact Or.inl (Or.inl h)
  · rcases le_total (u a) (u b) with h' | h'
    · exact Or.inl (Or.inr ⟨h, h'⟩)
    · exact Or.inr (Or.inr ⟨h.symm, h'⟩)
  · exact Or.inr (Or.inl h)

instance fboKey_trans (g : Fin n → α) (u : Fin n → ℕ) : IsTrans (Fin n) fun a b : Fin n => g a < g b ∨ (g a = g b ∧ u a ≤ u b) := by
  constructor
  intro a b c h1 h2
  rcases h1 with h1 | ⟨h1, h1'⟩
  · rcases h2 with h2 | ⟨h2, _⟩
    · exact Or.inl (h1.trans h2)
    · rw [← h2]; exact Or.inl h1
  · rw [h1]
    rcases h2 with h2 | ⟨h2, h2'⟩
    · exact Or.inl h2
    · exact Or.inr ⟨h2, h1'.trans h2'⟩

theorem ofFn_forall₂ {a b : Fin m → α} (h : ∀ c, a c ≤ b c) (j : ℕ) : List.Forall₂ (· ≤ ·) ((List.ofFn a).drop j) ((List.ofFn b).drop j) := by
  rw [List.forall₂_iff_get]
  refine ⟨by simp, fun i h1 h2 => ?_⟩
  simp only [List.get_eq_getElem, List.getElem_drop, List.getElem_ofFn]
  exact h _

theorem dom_row_ne {F : Fin n → Fin m → α} {e s : Fin n} (h : Dominates (F e) (F s)) : List.ofFn (F e) ≠ List.ofFn (F s) := by
  intro h'
  have := List.ofFn_injective h'
  obtain ⟨c, hc⟩ := h.2
  rw [this] at hc; exact lt_irrefl _ hc

theorem bosOrder_earlier {F : Fin n → Fin m → α} {e s : Fin n} {j : Fin m} (hd : Dominates (F e) (F s))
    (ht : (List.ofFn (F e)).drop j ≠ (List.ofFn (F s)).drop j) {i : ℕ} (hi : (bosOrder F j)[i]? = some s) : ∃ i' < i, (bosOrder F j)[i']? = some e := by
  unfold bosOrder at hi ⊢
  refine sorted_earlier ?_ hi
  rintro (h | ⟨h, _⟩)
  · exact not_lex (ofFn_forall₂ hd.1 j) h
  · exact ht h.symm

theorem fboOrder_earlier {F : Fin n → Fin m → α} {e s : Fin n} {j : Fin m} (hd : Dominates (F e) (F s)) (ht : F e j ≠ F s j) {i : ℕ}
    (hi : (fboOrder F j)[i]? = some s) : ∃ i' < i, (fboOrder F j)[i']? = some e := by
  unfold fboOrder at hi ⊢
  dsimp only at hi ⊢
  by_cases hj : j.val = 0
  · rw [if_pos hj] at hi ⊢
    refine sorted_earlier ?_ hi
    rintro (h | ⟨h, _⟩)
    · exact not_lex (by simpa using ofFn_forall₂ hd.1 0) h
    · exact dom_row_ne hd h.symm
  · rw [if_neg hj] at hi ⊢
    have := fboKey_total (fun a => F a j) fun a => ((((List.finRange n).insertionSort fun a b => List.Lex (· < ·) (List.ofFn (F a)) (List.ofFn (F b)) ∨
      (List.ofFn (F a) = List.ofFn (F b) ∧ a ≤ b)).getD a a).val)
    have := fboKey_trans (fun a => F a j) fun a => ((((List.finRange n).insertionSort fun a b => List.Lex (· < ·) (List.ofFn (F a)) (List.ofFn (F b)) ∨
      (List.ofFn (F a) = List.ofFn (F b) ∧ a ≤ b)).getD a a).val)
    refine sorted_earlier ?_ hi
    rintro (h | ⟨h, _⟩)
    · exact absurd (hd.1 j) (not_le.2 h)
    · exact ht h.symm

theorem fboOrder_perm (F : Fin n → Fin m → α) (j : Fin m) : (fboOrder F j).Perm (List.finRange n) := by
  unfold fboOrder
  dsimp only
  split <;> exact List.perm_insertionSort _ _

/-! ### `best_order_sort` -/

section Bos
variable [AddCommGroup α]

theorem bos_fold {F : Fin n → Fin m → α} {Q : Fin m → List (Fin n)}
    (hQ : ∀ j e s, Dominates (F e) (F s) → ∀ i : ℕ, (Q j)[i]? = some s → ∃ i' < i, (Q j)[i']? = some e) :
    ∀ (rest done : List (ℕ × Fin m)) (st : BosSt n m), bosPairs n m = done ++ rest → BosInv (fun a b => Dominates (F a) (F b)) Q done st →
      BosInv (fun a b => Dominates (F a) (F b)) Q (bosPairs n m) (rest.foldl (bosStep F Q) st) := by
  have hpo : StrictPO fun a b => Dominates (F a) (F b) := ⟨fun a => (dominates_strictPO (m := m) (α := α)).irrefl (F a), fun a b c => (dominates_strictPO (m := m) (α := α)).trans (F a) (F b) (F c)⟩
  intro rest
  induction rest with
  | nil => intro done st h inv; rw [List.append_nil] at h; rw [h]; exact inv
  | cons p rest ih =>
    intro done st h inv
    obtain ⟨i, j⟩ := p
    rw [List.foldl_cons]
    refine ih (done ++ [(i, j)]) _ (by rw [h, List.append_assoc]; rfl) ?_
    unfold bosStep
    dsimp only
    cases hs : (Q j)[i]? with
    | none =>
      have hsame : ∀ l t, BosSeen Q (done ++ [(i, j)]) l t ↔ BosSeen Q done l t := by
        intro l t; rw [bosSeen_append, hs]; simp
      exact ⟨inv.fronts, inv.rank, inv.len, fun l k hk t => by rw [hsame]; exact inv.mem l k hk t, fun l t ht => inv.seen l t ((hsame l t).1 ht), inv.closed,
        fun t k hk => by obtain ⟨l, hl⟩ := inv.from_seen t k hk; exact ⟨l, (hsame l t).2 hl⟩⟩
    | some s =>
      refine bosVisit_inv hpo inv i j s hs _ ?_ ?_
      · intro e hd
        obtain ⟨i', hi', he⟩ := hQ j e s hd i hs
        exact ⟨i', bosPairs_earlier h hi', he⟩
      · intro _ k hk
        simp only [List.any_eq_true, beq_iff_eq, (C120_relation (F s) (F _)).2.1]

/-- C121: the compiled `best_order_sort` returns the Pareto fronts if no solution agrees with one of its dominators in an objective and all objectives after
it. (Missing: without this hypothesis the claim is false, `C121_best_order_ties_refuted`.) -/
theorem C121_best_order_partial (F : Fin n → Fin m → α) (hm : 0 < m)
    (htail : ∀ e s, Dominates (F e) (F s) → ∀ j : Fin m, ∃ c, j ≤ c ∧ F e c ≠ F s c) :
    CanonicalFronts (fun a b => Dominates (F a) (F b)) (bosSort F) := by
  have hpo : StrictPO fun a b => Dominates (F a) (F b) := ⟨fun a => (dominates_strictPO (m := m) (α := α)).irrefl (F a), fun a b c => (dominates_strictPO (m := m) (α := α)).trans (F a) (F b) (F c)⟩
  have hlen : ∀ j, (bosOrder F j).length = n := by intro j; simp [bosOrder, List.length_insertionSort]
  refine bos_canonical hpo hm (Q := bosOrder F) ?_ hlen (bos_fold ?_ _ [] _ rfl (bosInit_inv _))
  · intro j s; exact (List.mem_insertionSort _).2 (List.mem_finRange s)
  · intro j e s hd i hi
    refine bosOrder_earlier hd ?_ hi
    obtain ⟨c, hjc, hc⟩ := htail e s hd j
    intro h
    refine hc ?_
    have h1 : ((List.ofFn (F e)).drop j)[c.val - j.val]? = ((List.ofFn (F s)).drop j)[c.val - j.val]? := by rw [h]
    have h2 : j.val + (c.val - j.val) = c.val := by have : j.val ≤ c.val := hjc; omega
    simpa [List.getElem?_drop, h2, List.getElem?_ofFn, c.isLt] using h1

end Bos

example : let F : Fin 4 → Fin 2 → ℤ := ![![3, 1], ![1, 2], ![2, 3], ![4, 4]]
    (∀ e s, Dominates (F e) (F s) → ∀ j : Fin 2, ∃ c, j ≤ c ∧ F e c ≠ F s c) ∧ bosSort F = [[1, 0], [2], [3]] := by decide +kernel

/-- C121 refuted: two solutions with the same second objective: the dominated one gets into the first front. -/
theorem C121_best_order_ties_refuted : ∃ F : Fin 2 → Fin 2 → ℤ, Dominates (F 1) (F 0) ∧ bosSort F = [[1, 0]] ∧
    ¬ CanonicalFronts (fun a b => Dominates (F a) (F b)) (bosSort F) := by
  refine ⟨![![2, 1], ![1, 1]], by decide, by decide +kernel, fun h => ?_⟩
  have h0 : bosSort (![![2, 1], ![1, 1]] : Fin 2 → Fin 2 → ℤ) = [[1, 0]] := by decide +kernel
  rw [h0] at h
  have := ((h.level 0 (by simp) 0).1 (by simp)).2 1 (by decide)
  simp at this

/-! ### `fast_best_order_sort` -/

theorem fboScan_any (F : Fin n → Fin m → α) (C : Fin n → List (Fin m)) (next : Fin n → Option (Option (Fin n))) (s : Fin n) (k : ℕ) :
    ∀ f : List (Fin n), (∀ e ∈ f, ¬ ∀ c, F s c = F e c) → fboScan F C next s k f (false, false) = (f.any fun e => fboDom F C e s k, false) := by
  intro f
  induction f with
  | nil => intro _; rfl
  | cons e f ih =>
    intro h
    have h1 := h e List.mem_cons_self
    have h2 := ih fun e' he' => h e' (List.mem_cons_of_mem _ he')
    rw [fboScan, List.any_cons]
    simp only [h1, decide_false, ite_self, Bool.or_false]
    cases hd : fboDom F C e s k
    · simpa [hd] using h2
    · simp [hd]

theorem fbo_fold {F : Fin n → Fin m → α} {Q : Fin m → List (Fin n)} (hperm : ∀ j, (Q j).Perm (List.finRange n))
    (hQ : ∀ j e s, Dominates (F e) (F s) → ∀ i : ℕ, (Q j)[i]? = some s → ∃ i' < i, (Q j)[i']? = some e)
    (hle : ∀ (j : Fin m) (i i' : ℕ) (e s : Fin n), (Q j)[i']? = some e → (Q j)[i]? = some s → i' < i → F e j < F s j) :
    ∀ (rest done : List (ℕ × Fin m)) (st : BosSt n m), bosPairs n m = done ++ rest → BosInv (fun a b => Dominates (F a) (F b)) Q done st →
      (∀ s, (∀ j, ¬ BosSeen Q done j s) → st.counter s = 0) →
      BosInv (fun a b => Dominates (F a) (F b)) Q (bosPairs n m) (rest.foldl (fboStep F Q) st) := by
  have hpo : StrictPO fun a b => Dominates (F a) (F b) := ⟨fun a => (dominates_strictPO (m := m) (α := α)).irrefl (F a), fun a b c => (dominates_strictPO (m := m) (α := α)).trans (F a) (F b) (F c)⟩
  intro rest
  induction rest with
  | nil => intro done st h inv _; rw [List.append_nil] at h; rw [h]; exact inv
  | cons p rest ih =>
    intro done st h inv hcnt
    obtain ⟨i, j⟩ := p
    rw [List.foldl_cons]
    have hin : i < n := by
      have : (i, j) ∈ bosPairs n m := by rw [h]; simp
      simp only [bosPairs, List.mem_flatMap, List.mem_range, List.mem_map, List.mem_finRange, true_and, Prod.mk.injEq] at this
      obtain ⟨a, ha, b, rfl, rfl⟩ := this
      exact ha
    have hlenj : (Q j).length = n := by rw [(hperm j).length_eq, List.length_finRange]
    obtain ⟨s, hs⟩ : ∃ s, (Q j)[i]? = some s := ⟨_, List.getElem?_eq_getElem (by omega)⟩
    set st' : BosSt n m := { st with
      counter := Function.update st.counter s (st.counter s + 1)
      next := match (Q j)[i + 1]? with
        | none => st.next
        | some t => Function.update st.next s (match st.next s with
          | none => some (some t)
          | some q => if q = some t then some q else some none) } with hst'
    have inv' : BosInv (fun a b => Dominates (F a) (F b)) Q done st' := ⟨inv.fronts, inv.rank, inv.len, inv.mem, inv.seen, inv.closed, inv.from_seen⟩
    set blk : List (Fin n) → Bool := fun f => let r := fboScan F (fboObjs Q) st'.next s (st'.counter s) f (false, false); r.1 && !r.2 with hblk
    have hstep : fboStep F Q st (i, j) = bosVisit blk st' j s := by
      unfold fboStep
      dsimp only
      rw [hs]
      rfl
    refine ih (done ++ [(i, j)]) _ (by rw [h, List.append_assoc]; rfl) ?_ ?_
    · rw [hstep]
      refine bosVisit_inv hpo inv' i j s hs _ ?_ ?_
      · intro e hd
        obtain ⟨i', hi', he⟩ := hQ j e s hd i hs
        exact ⟨i', bosPairs_earlier h hi', he⟩
      · intro hnone k hk
        have hunseen : ∀ l, ¬ BosSeen Q done l s := by
          intro l hl
          obtain ⟨r, hr⟩ := inv'.seen l s hl
          rw [hnone] at hr; cases hr
        have hone : st'.counter s = 1 := by simp [hst', hcnt s hunseen]
        -- the members of a front of this objective come earlier in it
        have hlt : ∀ e ∈ (st'.L j)[k], F e j < F s j := by
          intro e he
          obtain ⟨⟨i', hi', he'⟩, _⟩ := (inv'.mem j k hk e).1 he
          have hii : i' < i := by
            by_contra hcon
            have hne : e ≠ s := fun h' => hunseen j ⟨i', hi', h' ▸ he'⟩
            rcases Nat.lt_or_ge i i' with h1 | h1
            · have hsort : (i', j) ∈ done := hi'
              have : (bosPairs n m).Pairwise fun p q => p.1 ≤ q.1 := by
                unfold bosPairs
                rw [List.pairwise_flatMap]
                refine ⟨fun a _ => ?_, ?_⟩
                · rw [List.pairwise_map]; exact List.pairwise_of_forall (fun _ _ => le_refl _)
                · refine List.pairwise_lt_range.imp ?_
                  intro a b hab x hx y hy
                  simp only [List.mem_map, List.mem_finRange, true_and] at hx hy
                  obtain ⟨_, rfl⟩ := hx
                  obtain ⟨_, rfl⟩ := hy
                  exact hab.le
              rw [h] at this
              have := (List.pairwise_append.1 this).2.2 _ hsort (i, j) (by simp)
              simp at this; omega
            · have : i' = i := by omega
              subst this
              rw [he'] at hs; exact hne (Option.some.inj hs)
          exact hle j i i' e s he' hs hii
        have hall : ∀ c, c ≠ j → c ∈ (fboObjs Q s).drop 1 := by
          intro c hc
          have hC : fboObjs Q s = j :: (rest.filter fun p => (Q p.2)[p.1]? == some s).map (·.2) := by
            unfold fboObjs
            rw [h, List.filter_append, List.filter_cons]
            have : done.filter (fun p => (Q p.2)[p.1]? == some s) = [] := by
              rw [List.filter_eq_nil_iff]
              rintro ⟨a, l⟩ ha hcon
              exact hunseen l ⟨a, ha, by simpa using hcon⟩
            rw [this]
            simp [hs]
          rw [hC, List.drop_one, List.tail_cons]
          have hsc : s ∈ Q c := (hperm c).mem_iff.2 (List.mem_finRange s)
          obtain ⟨a, ha, has⟩ := List.mem_iff_getElem.1 hsc
          have hac : (a, c) ∈ bosPairs n m := by
            have : (Q c).length = n := by rw [(hperm c).length_eq, List.length_finRange]
            simp [bosPairs, ← this, ha]
          have hget : (Q c)[a]? = some s := by rw [List.getElem?_eq_getElem ha, has]
          rw [h] at hac
          rcases List.mem_append.1 hac with h1 | h1
          · exact absurd ⟨a, h1, hget⟩ (hunseen c)
          · rcases List.mem_cons.1 h1 with h2 | h2
            · simp only [Prod.mk.injEq] at h2; exact absurd h2.2 hc
            · exact List.mem_map.2 ⟨(a, c), List.mem_filter.2 ⟨h2, by simpa using hget⟩, rfl⟩
        have hdom : ∀ e ∈ (st'.L j)[k], (fboDom F (fboObjs Q) e s 1 = true ↔ Dominates (F e) (F s)) := by
          intro e he
          unfold fboDom
          simp only [List.all_eq_true, Bool.not_eq_true', decide_eq_false_iff_not, not_lt]
          constructor
          · intro h1
            refine ⟨fun c => ?_, j, hlt e he⟩
            by_cases hc : c = j
            · subst hc; exact (hlt e he).le
            · exact h1 c (hall c hc)
          · intro h1 c _; exact h1.1 c
        have hneq : ∀ e ∈ (st'.L j)[k], ¬ ∀ c, F s c = F e c := fun e he h1 => lt_irrefl _ ((h1 j) ▸ hlt e he)
        rw [hblk]
        dsimp only
        rw [fboScan_any _ _ _ _ _ _ hneq, hone]
        simp only [Bool.not_false, Bool.and_true, List.any_eq_true]
        constructor
        · rintro ⟨e, he, h1⟩; exact ⟨e, he, (hdom e he).1 h1⟩
        · rintro ⟨e, he, h1⟩; exact ⟨e, he, (hdom e he).2 h1⟩
    · intro t ht
      have hts : t ≠ s := fun h' => ht j ((bosSeen_append ..).2 (Or.inr ⟨rfl, by rw [h']; exact hs⟩))
      have h1 : st.counter t = 0 := hcnt t fun l hl => ht l ((bosSeen_append ..).2 (Or.inl hl))
      rw [hstep]
      have h2 : (bosVisit blk st' j s).counter = st'.counter := by
        unfold bosVisit
        cases st'.rank s <;> rfl
      rw [h2, hst']
      simp [Function.update_of_ne hts, h1]

/-- C121: the compiled `fast_best_order_sort` returns the Pareto fronts if no two solutions agree in an objective. (Missing: without this hypothesis the claim
is false, `C121_fast_best_order_ties_refuted`.) -/
theorem C121_fast_best_order_partial (F : Fin n → Fin m → α) (hm : 0 < m) (hinj : ∀ a b, a ≠ b → ∀ j, F a j ≠ F b j) :
    CanonicalFronts (fun a b => Dominates (F a) (F b)) (fboSort F) := by
  have hpo : StrictPO fun a b => Dominates (F a) (F b) := ⟨fun a => (dominates_strictPO (m := m) (α := α)).irrefl (F a), fun a b c => (dominates_strictPO (m := m) (α := α)).trans (F a) (F b) (F c)⟩
  have hne : ∀ {e s}, Dominates (F e) (F s) → e ≠ s := fun h h' => hpo.irrefl _ (h' ▸ h)
  refine bos_canonical hpo hm (Q := fboOrder F) ?_ ?_ (fbo_fold (fboOrder_perm F) ?_ ?_ _ [] _ rfl (bosInit_inv _) (fun _ _ => rfl))
  · intro j s; exact (fboOrder_perm F j).mem_iff.2 (List.mem_finRange s)
  · intro j; rw [(fboOrder_perm F j).length_eq, List.length_finRange]
  · intro j e s hd i hi
    exact fboOrder_earlier hd (hinj e s (hne hd) j) hi
  · intro j i i' e s he hs hlt
    have hes : e ≠ s := by
      rintro rfl
      have hnd : (fboOrder F j).Nodup := (fboOrder_perm F j).nodup_iff.2 (List.nodup_finRange n)
      obtain ⟨h1, h2⟩ := List.getElem?_eq_some_iff.1 he
      obtain ⟨h3, h4⟩ := List.getElem?_eq_some_iff.1 hs
      have := (List.Nodup.getElem_inj_iff hnd).1 (h2.trans h4.symm)
      omega
    refine lt_of_le_of_ne ?_ (hinj e s hes j)
    by_contra hcon
    rw [not_le] at hcon
    -- sorted by the objective
    obtain ⟨h1, h2⟩ := List.getElem?_eq_some_iff.1 he
    obtain ⟨h3, h4⟩ := List.getElem?_eq_some_iff.1 hs
    have hp : (fboOrder F j).Pairwise fun a b => F a j ≤ F b j := by
      unfold fboOrder
      dsimp only
      split
      · next hj =>
        refine (List.pairwise_insertionSort _ (List.finRange n)).imp ?_
        intro a b hab
        have hj0 : j = ⟨0, hm⟩ := Fin.ext hj
        obtain ⟨m', rfl⟩ := Nat.exists_eq_succ_of_ne_zero hm.ne'
        have hj0' : j = 0 := hj0
        subst hj0'
        simp only [List.ofFn_succ] at hab
        rcases hab with hab | ⟨hab, _⟩
        · by_contra hcon
          rw [not_le] at hcon
          have h' : (F a 0 :: List.ofFn fun i : Fin m' => F a i.succ) < (F b 0 :: List.ofFn fun i : Fin m' => F b i.succ) := hab
          exact lt_asymm (List.Lex.rel hcon : (F b 0 :: List.ofFn fun i : Fin m' => F b i.succ) < (F a 0 :: List.ofFn fun i : Fin m' => F a i.succ)) h'
        · exact le_of_eq (List.cons.inj hab).1
      · have := fboKey_total (fun a => F a j) fun a => ((((List.finRange n).insertionSort fun a b => List.Lex (· < ·) (List.ofFn (F a)) (List.ofFn (F b)) ∨
          (List.ofFn (F a) = List.ofFn (F b) ∧ a ≤ b)).getD a a).val)
        have := fboKey_trans (fun a => F a j) fun a => ((((List.finRange n).insertionSort fun a b => List.Lex (· < ·) (List.ofFn (F a)) (List.ofFn (F b)) ∨
          (List.ofFn (F a) = List.ofFn (F b) ∧ a ≤ b)).getD a a).val)
        refine (List.pairwise_insertionSort _ (List.finRange n)).imp ?_
        intro a b hab
        rcases hab with hab | ⟨hab, _⟩
        · exact hab.le
        · exact hab.le
    have := List.pairwise_iff_getElem.1 hp i' i h1 h3 hlt
    rw [h2, h4] at this
    exact absurd this (not_le.2 hcon)

example : let F : Fin 4 → Fin 2 → ℤ := ![![3, 1], ![1, 2], ![2, 3], ![4, 4]]
    (∀ a b, a ≠ b → ∀ j, F a j ≠ F b j) ∧ fboSort F = [[1, 0], [2], [3]] := by decide +kernel

/-- C121 refuted: three solutions with the same second objective; a dominated one gets into the first front because it is looked at before its dominator. -/
theorem C121_fast_best_order_ties_refuted : ∃ F : Fin 3 → Fin 2 → ℤ, ¬ CanonicalFronts (fun a b => Dominates (F a) (F b)) (fboSort F) := by
  refine ⟨![![3, 1], ![1, 1], ![2, 1]], fun h => ?_⟩
  have h0 : fboSort (![![3, 1], ![1, 1], ![2, 1]] : Fin 3 → Fin 2 → ℤ) = [[1, 2], [0]] := by decide +kernel
  rw [h0] at h
  have := ((h.level 0 (by simp) 2).1 (by simp)).2 1 (by decide)
  simp at this

end Props
