import Verif.Model.Optimum
import Verif.Spec.Best
import Verif.Lemmas.Duplicate
import Verif.Lemmas.Fronts
import Verif.Props.NonDominatedSorting
import Verif.Props.Duplicate

set_option linter.unusedSectionVars false

namespace Lemmas
open Model Spec

variable {ι α β : Type*} {m : ℕ}

theorem npArgmin_spec [LinearOrder β] (f : ι → β) (l : List ι) :
    (npArgmin f l = none ↔ l = []) ∧ ∀ x, npArgmin f l = some x → x ∈ l ∧ ∀ y ∈ l, f x ≤ f y := by
  cases l with
  | nil => simp [npArgmin]
  | cons a xs =>
    refine ⟨by simp [npArgmin], fun x hx => ?_⟩
    simp only [npArgmin, Option.some.injEq] at hx
    subst hx
    have : ∀ (xs : List ι) (a : ι), (xs.foldl (fun best y => if f y < f best then y else best) a) ∈ a :: xs ∧
        ∀ y ∈ a :: xs, f (xs.foldl (fun best y => if f y < f best then y else best) a) ≤ f y := by
      intro xs
      induction xs with
      | nil => intro a; simp
      | cons b xs ih =>
        intro a
        rw [List.foldl_cons]
        obtain ⟨h1, h2⟩ := ih (if f b < f a then b else a)
        refine ⟨?_, ?_⟩
        · rw [List.mem_cons] at h1
          rcases h1 with h1 | h1
          · rw [h1]; split_ifs <;> simp
          · simp [h1]
        · have h0 := h2 _ (List.mem_cons_self ..)
          intro y hy
          simp only [List.mem_cons] at hy
          rcases hy with rfl | rfl | hy
          · refine h0.trans ?_; split_ifs with h
            · exact h.le
            · exact le_refl _
          · refine h0.trans ?_; split_ifs with h
            · exact le_refl _
            · exact not_lt.1 h
          · exact h2 y (List.mem_cons_of_mem _ hy)
    exact this xs a

theorem dominates_one [LinearOrder α] (a b : Fin 1 → α) : Dominates a b ↔ a 0 < b 0 := by
  constructor
  · rintro ⟨-, i, hi⟩
    have : i = 0 := Subsingleton.elim _ _
    rwa [this] at hi
  · intro h
    refine ⟨fun i => ?_, 0, h⟩
    have : i = 0 := Subsingleton.elim _ _
    rw [this]; exact h.le

/-- On distinct objects: which are kept by the default self-elimination. -/
theorem dfl_mem_iff (near : ι → ι → Bool) (off : List ι) : ∀ (pre : List ι) (_ : off.Nodup) (k : ℕ)
    (hk : k < off.length), off[k] ∈ dfl near pre off ↔
      (∀ p ∈ pre, near off[k] p = false) ∧ ∀ j (hj : j < k), near off[k] off[j] = false := by
  induction off with
  | nil => intro pre _ k hk; simp at hk
  | cons a xs ih =>
    intro pre hnd k hk
    obtain ⟨ha, hxs⟩ := List.nodup_cons.1 hnd
    have hsub : ∀ x ∈ dfl near (pre ++ [a]) xs, x ∈ xs := (dfl_sublist near xs _).subset
    cases k with
    | zero =>
      have hs : (∀ p ∈ pre, near (a :: xs)[0] p = false) ∧ (∀ j (hj : j < 0), near (a :: xs)[0] (a :: xs)[j] = false) ↔
          ∀ p ∈ pre, near a p = false := ⟨fun h => h.1, fun h => ⟨h, fun j hj => absurd hj (Nat.not_lt_zero _)⟩⟩
      rw [hs, List.getElem_cons_zero, dfl]
      split_ifs with h
      · constructor
        · intro hm; exact absurd (hsub a hm) ha
        · intro hall
          obtain ⟨p, hp, hn⟩ := List.any_eq_true.1 h
          rw [hall p hp] at hn; simp at hn
      · refine ⟨fun _ p hp => ?_, fun _ => List.mem_cons_self ..⟩
        by_contra hn
        exact h (List.any_eq_true.2 ⟨p, hp, by simpa using hn⟩)
    | succ k =>
      have hk' : k < xs.length := by simpa using hk
      have := ih (pre ++ [a]) hxs k hk'
      have hne : xs[k] ≠ a := fun h => ha (h ▸ List.getElem_mem hk')
      simp only [List.getElem_cons_succ]
      have h1 : xs[k] ∈ dfl near pre (a :: xs) ↔ xs[k] ∈ dfl near (pre ++ [a]) xs := by
        rw [dfl]
        split_ifs
        · rfl
        · rw [List.mem_cons]; simp [hne]
      rw [h1, this]
      constructor
      · rintro ⟨h2, h3⟩
        refine ⟨fun p hp => h2 p (List.mem_append_left _ hp), fun j hj => ?_⟩
        cases j with
        | zero => exact h2 a (by simp)
        | succ j => exact h3 j (by omega)
      · rintro ⟨h2, h3⟩
        refine ⟨fun p hp => ?_, fun j hj => by simpa using h3 (j + 1) (by omega)⟩
        rw [List.mem_append, List.mem_singleton] at hp
        rcases hp with hp | rfl
        · exact h2 p hp
        · simpa using h3 0 (by omega)

section
variable [LinearOrder β]

theorem minimal_spec (v : ι → β) (l : List ι) (hl : l ≠ []) :
    ∃ res, minimal v l = some res ∧ res.Sublist l ∧ ∀ x, x ∈ res ↔ x ∈ l ∧ ∀ y ∈ l, v x ≤ v y := by
  obtain ⟨h1, h2⟩ := npArgmin_spec v l
  cases hx : npArgmin v l with
  | none => exact absurd (h1.1 hx) hl
  | some x =>
    obtain ⟨hm, hmin⟩ := h2 x hx
    refine ⟨l.filter fun y => decide (v y = v x), by simp [minimal, hx], List.filter_sublist, fun y => ?_⟩
    rw [List.mem_filter, decide_eq_true_iff]
    constructor
    · rintro ⟨hy, he⟩; exact ⟨hy, fun z hz => he ▸ hmin z hz⟩
    · rintro ⟨hy, hle⟩; exact ⟨hy, le_antisymm (hle x hm) (hmin y hy)⟩

variable [LinearOrder α] [AddCommGroup α] [IsOrderedAddMonoid α]

theorem ndsPop_spec (paretoRank : ∀ n, (Fin n → Fin m → α) → Fin n → ℕ)
    (hpr : ∀ n F, IsParetoRank (fun i j => Dominates (F i) (F j)) (paretoRank n F)) (F : ι → Fin m → α) (pop : List ι) :
    ∃ I : List (Fin pop.length), ndsPop paretoRank F pop = some (I.map pop.get) ∧ I.Nodup ∧
      ∀ i, i ∈ I ↔ ∀ y ∈ pop, ¬ Dominates (F y) (F (pop.get i)) := by
  obtain ⟨I, h1, h2, h3⟩ := Props.C10_first (paretoRank pop.length) (hpr pop.length) none 0 (fun i => F (pop.get i))
  refine ⟨I, by rw [ndsPop, h1]; rfl, h2, fun i => ?_⟩
  rw [h3]
  constructor
  · intro h y hy
    obtain ⟨j, rfl⟩ := List.mem_iff_get.1 hy
    exact h j
  · intro h j
    exact h _ (List.get_mem ..)

theorem ndsPop_mem (paretoRank : ∀ n, (Fin n → Fin m → α) → Fin n → ℕ)
    (hpr : ∀ n F, IsParetoRank (fun i j => Dominates (F i) (F j)) (paretoRank n F)) (F : ι → Fin m → α) (pop : List ι) :
    ∃ res, ndsPop paretoRank F pop = some res ∧ (pop.Nodup → res.Nodup) ∧
      ∀ x, x ∈ res ↔ x ∈ pop ∧ ∀ y ∈ pop, ¬ Dominates (F y) (F x) := by
  obtain ⟨I, h1, h2, h3⟩ := ndsPop_spec paretoRank hpr F pop
  refine ⟨_, h1, fun hn => h2.map (List.nodup_iff_injective_get.1 hn), fun x => ?_⟩
  rw [List.mem_map]
  constructor
  · rintro ⟨i, hi, rfl⟩
    exact ⟨List.get_mem .., (h3 i).1 hi⟩
  · rintro ⟨hx, h⟩
    obtain ⟨i, rfl⟩ := List.mem_iff_get.1 hx
    exact ⟨i, (h3 i).2 h, rfl⟩

/-- `x` beats `y`. -/
def beats (at' : Attrs ι α β m) (x y : ι) : Prop :=
  Beats (at'.F x) (at'.feas x) (at'.cv x) (at'.F y) (at'.feas y) (at'.cv y)

theorem beats_po (at' : Attrs ι α β m) : StrictPO (beats at') where
  irrefl x h := by
    rcases h with ⟨h1, h2⟩ | ⟨-, -, h⟩ | ⟨-, -, h⟩
    · rw [h1] at h2; exact absurd h2 (by simp)
    · exact dominates_strictPO.irrefl _ h
    · exact lt_irrefl _ h
  trans x y z h1 h2 := by
    rcases h1 with ⟨a1, a2⟩ | ⟨a1, a2, a3⟩ | ⟨a1, a2, a3⟩ <;>
      rcases h2 with ⟨b1, b2⟩ | ⟨b1, b2, b3⟩ | ⟨b1, b2, b3⟩
    · rw [a2] at b1; exact absurd b1 (by simp)
    · rw [a2] at b1; exact absurd b1 (by simp)
    · exact Or.inl ⟨a1, b2⟩
    · exact Or.inl ⟨a1, b2⟩
    · exact Or.inr (Or.inl ⟨a1, b2, dominates_strictPO.trans _ _ _ a3 b3⟩)
    · rw [a2] at b1; exact absurd b1 (by simp)
    · rw [a2] at b1; exact absurd b1 (by simp)
    · rw [a2] at b1; exact absurd b1 (by simp)
    · exact Or.inr (Or.inr ⟨a1, b2, a3.trans b3⟩)

/-- A search for the best individuals returns exactly the unbeaten ones. -/
structure FindsBest (at' : Attrs ι α β m) (findOpt : List ι → Option (List ι)) : Prop where
  empty : findOpt [] = none
  spec : ∀ sols, sols ≠ [] → ∃ res, findOpt sols = some res ∧
    ∀ x, x ∈ res ↔ x ∈ sols ∧ ∀ y ∈ sols, ¬ beats at' y x

theorem not_beats_feas (at' : Attrs ι α β m) (sols : List ι) (hany : sols.any at'.feas = true) (x : ι) :
    (∀ y ∈ sols, ¬ beats at' y x) ↔
      at'.feas x = true ∧ ∀ y ∈ sols.filter at'.feas, ¬ Dominates (at'.F y) (at'.F x) := by
  obtain ⟨z, hz, hzf⟩ := List.any_eq_true.1 hany
  constructor
  · intro h
    have hx : at'.feas x = true := by
      by_contra hx
      exact h z hz (Or.inl ⟨hzf, by simpa using hx⟩)
    refine ⟨hx, fun y hy hd => ?_⟩
    rw [List.mem_filter] at hy
    exact h y hy.1 (Or.inr (Or.inl ⟨hy.2, hx, hd⟩))
  · rintro ⟨hx, h⟩ y hy hb
    rcases hb with ⟨a, b⟩ | ⟨a, b, c⟩ | ⟨a, b, c⟩
    · rw [hx] at b; exact absurd b (by simp)
    · exact h y (List.mem_filter.2 ⟨hy, a⟩) c
    · rw [hx] at b; exact absurd b (by simp)

theorem not_beats_infeas (at' : Attrs ι α β m) (sols : List ι) (hany : ¬ sols.any at'.feas = true) (x : ι)
    (hx : x ∈ sols) : (∀ y ∈ sols, ¬ beats at' y x) ↔ ∀ y ∈ sols, at'.cv x ≤ at'.cv y := by
  have hf : ∀ y ∈ sols, at'.feas y = false := by
    intro y hy
    by_contra h
    exact hany (List.any_eq_true.2 ⟨y, hy, by simpa using h⟩)
  constructor
  · intro h y hy
    by_contra hlt
    exact h y hy (Or.inr (Or.inr ⟨hf y hy, hf x hx, not_le.1 hlt⟩))
  · rintro h y hy (⟨a, -⟩ | ⟨a, -⟩ | ⟨-, -, c⟩)
    · rw [hf y hy] at a; exact absurd a (by simp)
    · rw [hf y hy] at a; exact absurd a (by simp)
    · exact absurd (h y hy) (not_le.2 c)

theorem findOptMulti_best (paretoRank : ∀ n, (Fin n → Fin m → α) → Fin n → ℕ)
    (hpr : ∀ n F, IsParetoRank (fun i j => Dominates (F i) (F j)) (paretoRank n F)) (at' : Attrs ι α β m) :
    FindsBest at' (findOptMulti paretoRank at') where
  empty := by simp [findOptMulti, minimal, npArgmin]
  spec sols hs := by
    unfold findOptMulti
    by_cases hany : sols.any at'.feas = true
    · rw [if_pos hany]
      obtain ⟨res, h1, -, h2⟩ := ndsPop_mem paretoRank hpr at'.F (sols.filter at'.feas)
      refine ⟨res, h1, fun x => ?_⟩
      rw [h2, not_beats_feas at' sols hany, List.mem_filter]
      tauto
    · rw [if_neg hany]
      obtain ⟨res, h1, -, h2⟩ := minimal_spec at'.cv sols hs
      refine ⟨res, h1, fun x => ?_⟩
      rw [h2]
      exact and_congr_right fun hx => (not_beats_infeas at' sols hany x hx).symm

theorem findOptSingle_best (at' : Attrs ι α β 1) : FindsBest at' (findOptSingle at') where
  empty := by simp [findOptSingle, minimal, npArgmin]
  spec sols hs := by
    unfold findOptSingle
    by_cases hany : sols.any at'.feas = true
    · rw [if_pos hany]
      obtain ⟨z, hz, hzf⟩ := List.any_eq_true.1 hany
      obtain ⟨res, h1, -, h2⟩ := minimal_spec (fun x => at'.F x 0) (sols.filter at'.feas)
        (List.ne_nil_of_mem (List.mem_filter.2 ⟨hz, hzf⟩))
      refine ⟨res, h1, fun x => ?_⟩
      rw [h2, not_beats_feas at' sols hany, List.mem_filter]
      simp only [dominates_one, not_lt]
      tauto
    · rw [if_neg hany]
      obtain ⟨res, h1, -, h2⟩ := minimal_spec at'.cv sols hs
      refine ⟨res, h1, fun x => ?_⟩
      rw [h2]
      exact and_congr_right fun hx => (not_beats_infeas at' sols hany x hx).symm

/-- Below every member of a finite list there is an unbeaten one. -/
theorem exists_unbeaten (at' : Attrs ι α β m) (S : List ι) (x : ι) (hx : x ∈ S) :
    ∃ y ∈ S, (y = x ∨ beats at' y x) ∧ ∀ z ∈ S, ¬ beats at' z y := by
  have hpo : StrictPO (fun i j : Fin S.length => beats at' (S.get i) (S.get j)) :=
    ⟨fun i => (beats_po at').irrefl _, fun i j k => (beats_po at').trans _ _ _⟩
  obtain ⟨i, hi⟩ := List.mem_iff_get.1 hx
  obtain ⟨j, hj, hmin⟩ 
    := StrictPO.exists_minimal hpo {j | S.get j = x ∨ beats at' (S.get j) x} ⟨i, Or.inl hi⟩
  refine ⟨S.get j, List.get_mem .., hj, fun z hz hb => ?_⟩
  obtain ⟨k, rfl⟩ := List.mem_iff_get.1 hz
  refine hmin k (Or.inr ?_) hb
  rcases hj with h | h
  · rw [h] at hb; exact hb
  · exact (beats_po at').trans _ _ _ hb h

/-- Equal attributes. -/
def SameKey (at' : Attrs ι α β m) (x y : ι) : Prop := at'.F x = at'.F y ∧ at'.feas x = at'.feas y ∧ at'.cv x = at'.cv y

theorem dfl_cover_key {κ : Type*} (key : ι → κ) (near : ι → ι → Bool) (hn : ∀ x y, near x y = true → key x = key y)
    (pop : List ι) : ∀ pre, ∀ x ∈ pop, (∃ y ∈ dfl near pre pop, key y = key x) ∨ ∃ y ∈ pre, key y = key x := by
  induction pop with
  | nil => intro pre x hx; simp at hx
  | cons a xs ih =>
    intro pre
    have ha : (∃ y ∈ dfl near pre (a :: xs), key y = key a) ∨ ∃ y ∈ pre, key y = key a := by
      rw [dfl]
      split_ifs with h
      · obtain ⟨y, hy, hny⟩ := List.any_eq_true.1 h
        exact Or.inr ⟨y, hy, (hn _ _ hny).symm⟩
      · exact Or.inl ⟨a, List.mem_cons_self .., rfl⟩
    intro x hx
    rcases List.mem_cons.1 hx with rfl | hx
    · exact ha
    · rcases ih (pre ++ [a]) x hx with ⟨y, hy, hk⟩ | ⟨y, hy, hk⟩
      · left
        refine ⟨y, ?_, hk⟩
        rw [dfl]
        split_ifs
        · exact hy
        · exact List.mem_cons_of_mem _ hy
      · rw [List.mem_append, List.mem_singleton] at hy
        rcases hy with hy | rfl
        · exact Or.inr ⟨y, hy, hk⟩
        · rcases ha with ⟨z, hz, hzk⟩ | ⟨z, hz, hzk⟩
          · exact Or.inl ⟨z, hz, hzk.trans hk⟩
          · exact Or.inr ⟨z, hz, hzk.trans hk⟩

/-- The duplicate elimination step of an archive. -/
def archDedup (near : Option (ι → ι → Bool)) (opt : List ι) : List ι :=
  match near with
  | some near => dedup (defaultMasks near) true opt []
  | none => opt

theorem archDedup_sub (near : Option (ι → ι → Bool)) (opt : List ι) :
    (archDedup near opt).Sublist opt ∧ (opt ≠ [] → archDedup near opt ≠ []) := by
  cases near with
  | none => exact ⟨List.Sublist.refl _, id⟩
  | some near =>
    have e : archDedup (some near) opt = dfl near [] opt := by
      show dedup (defaultMasks near) true opt [] = _
      rw [Props.dedup_default_eq]; simp
    rw [e]
    refine ⟨dfl_sublist _ _ _, fun h => ?_⟩
    cases opt with
    | nil => exact absurd rfl h
    | cons a xs => simp [dfl]

theorem archDedup_cover {κ : Type*} (key : ι → κ) (near : Option (ι → ι → Bool))
    (hn : ∀ f, near = some f → ∀ x y, f x y = true → key x = key y) (opt : List ι) :
    ∀ x ∈ opt, ∃ y ∈ archDedup near opt, key y = key x := by
  cases near with
  | none => exact fun x hx => ⟨x, hx, rfl⟩
  | some near =>
    have e : archDedup (some near) opt = dfl near [] opt := by
      show dedup (defaultMasks near) true opt [] = _
      rw [Props.dedup_default_eq]; simp
    rw [e]
    intro x hx
    simpa using dfl_cover_key key near (hn near rfl) opt [] x hx

/-- The limits of a usable archive: at least one individual may stay. -/
def LimitsOK (cfg : ArchiveCfg ι) : Prop := ∀ k t, cfg.limits = some (k, t) → t ≤ k ∧ 1 ≤ t

theorem archiveAdd_some (cfg : ArchiveCfg ι) (at' : Attrs ι α β m) (findOpt : List ι → Option (List ι))
    (hfo : FindsBest at' findOpt) (trunc : List ι → ℕ → List ι) (ht : TruncOK trunc) (hl : LimitsOK cfg)
    (self sols : List ι) :
    (self ++ sols = [] → archiveAdd cfg findOpt trunc self sols = none) ∧
    (self ++ sols ≠ [] → ∃ opt res, archiveAdd cfg findOpt trunc self sols = some res ∧
      (∀ x, x ∈ opt ↔ x ∈ self ++ sols ∧ ∀ y ∈ self ++ sols, ¬ beats at' y x) ∧
      res ≠ [] ∧ (∀ x ∈ res, x ∈ archDedup cfg.near opt) ∧
      (cfg.limits = none → res = archDedup cfg.near opt) ∧
      (∀ k t, cfg.limits = some (k, t) → res.length ≤ k)) := by
  have hcat : (if self.length > 0 then (if sols.length = 0 then self else self ++ sols) else sols) = self ++ sols := by
    split_ifs with h1 h2
    · rw [List.length_eq_zero_iff.1 h2, List.append_nil]
    · rfl
    · rw [List.length_eq_zero_iff.1 (by omega : self.length = 0), List.nil_append]
  unfold archiveAdd
  rw [hcat]
  refine ⟨fun h => by rw [h]; simp [hfo.empty], fun h => ?_⟩
  obtain ⟨opt, h1, h2⟩ := hfo.spec _ h
  have hopt : opt ≠ [] := by
    obtain ⟨x, hx⟩ := List.exists_mem_of_ne_nil _ h
    obtain ⟨y, hy, -, hu⟩ := exists_unbeaten at' _ x hx
    exact List.ne_nil_of_mem ((h2 y).2 ⟨hy, hu⟩)
  have hd := (archDedup_sub cfg.near opt).2 hopt
  have hdlen : 0 < (archDedup cfg.near opt).length := List.length_pos_iff.2 hd
  refine ⟨opt, match cfg.limits with
    | some (k, t) => if k ≠ 0 ∧ (archDedup cfg.near opt).length > k then trunc (archDedup cfg.near opt) t
      else archDedup cfg.near opt
    | none => archDedup cfg.near opt, ?_, h2, ?_⟩
  · simp only [h1]; rfl
  · rcases hlim : cfg.limits with _ | ⟨k, t⟩
    · exact ⟨hd, fun x hx => hx, fun _ => rfl, fun k t he => by simp at he⟩
    · obtain ⟨htk, ht1⟩ := hl k t hlim
      simp only
      by_cases hc : k ≠ 0 ∧ (archDedup cfg.near opt).length > k
      · rw [if_pos hc]
        obtain ⟨a, b⟩ := ht (archDedup cfg.near opt) t (by omega)
        refine ⟨fun he => ?_, b, fun he => by simp at he, fun k' t' he => ?_⟩
        · rw [he, List.length_nil] at a; omega
        · simp only [Option.some.injEq, Prod.mk.injEq] at he
          omega
      · rw [if_neg hc]
        refine ⟨hd, fun x hx => hx, fun he => by simp at he, fun k' t' he => ?_⟩
        simp only [Option.some.injEq, Prod.mk.injEq] at he
        omega

end

end Lemmas
