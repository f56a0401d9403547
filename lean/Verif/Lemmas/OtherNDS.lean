import Verif.Model.OtherNDS
import Verif.Lemmas.Peel
import Mathlib.Algebra.Order.Group.Basic
import Mathlib.Algebra.BigOperators.Fin
import Mathlib.Data.Fintype.BigOperators
import Mathlib.Algebra.Order.BigOperators.Group.Finset
import Mathlib.Tactic.Linarith

set_option linter.unusedSimpArgs false

namespace Lemmas
open Model Spec
variable {α : Type*} [LinearOrder α] {m n : ℕ}

/-! ### bi-objective -/

/-- The pass keeps exactly the elements strictly below the running minimum. -/
theorem biobjPass_spec (G : Fin n → Fin 2 → α) (L : List (Fin n)) : ∀ v : Option α,
    (∀ i, i ∈ (biobjPass G L v).1 ∨ i ∈ (biobjPass G L v).2 ↔ i ∈ L) ∧
    (biobjPass G L v).1.Sublist L ∧ (biobjPass G L v).2.Sublist L ∧
    (L.Nodup → ∀ i ∈ (biobjPass G L v).1, i ∉ (biobjPass G L v).2) ∧
    (v = none → L ≠ [] → (biobjPass G L v).1 ≠ []) := by
  induction L with
  | nil => intro v; simp [biobjPass]
  | cons a L ih =>
    intro v
    cases v with
    | none =>
      rw [biobjPass]
      obtain ⟨h1, h2, h3, h4, _⟩ := ih (some (G a 1))
      refine ⟨?_, h2.cons_cons a, h3.cons a, ?_, by simp⟩
      · intro i; simp only [List.mem_cons, or_assoc, h1]
      · intro hn i hi
        rw [List.nodup_cons] at hn
        rcases List.mem_cons.1 hi with rfl | hi
        · exact fun hc => hn.1 (h3.subset hc)
        · exact h4 hn.2 i hi
    | some v =>
      rw [biobjPass]
      split
      · obtain ⟨h1, h2, h3, h4, _⟩ := ih (some v)
        refine ⟨?_, h2.cons a, h3.cons_cons a, ?_, by simp⟩
        · intro i; simp only [List.mem_cons, or_left_comm, h1]
        · intro hn i hi
          rw [List.nodup_cons] at hn
          rw [List.mem_cons, not_or]
          exact ⟨fun e => hn.1 (e ▸ h2.subset hi), h4 hn.2 i hi⟩
      · obtain ⟨h1, h2, h3, h4, _⟩ := ih (some (min v (G a 1)))
        refine ⟨?_, h2.cons_cons a, h3.cons a, ?_, by simp⟩
        · intro i; simp only [List.mem_cons, or_assoc, h1]
        · intro hn i hi
          rw [List.nodup_cons] at hn
          rcases List.mem_cons.1 hi with rfl | hi
          · exact fun hc => hn.1 (h3.subset hc)
          · exact h4 hn.2 i hi

/-- Membership in a pass: strictly below the bound and strictly below everything before. -/
theorem biobjPass_mem (G : Fin n → Fin 2 → α) (L : List (Fin n)) (hL : L.Nodup) :
    ∀ v : Option α, ∀ i, i ∈ (biobjPass G L v).1 ↔
      ∃ pre post, L = pre ++ i :: post ∧ (∀ w, v = some w → G i 1 < w) ∧ ∀ j ∈ pre, G i 1 < G j 1 := by
  induction L with
  | nil => intro v i; simp [biobjPass]
  | cons a L ih =>
    rw [List.nodup_cons] at hL
    intro v i
    have split : ∀ P : List (Fin n) → Prop,
        (∃ pre post, a :: L = pre ++ i :: post ∧ P pre) ↔
        (i = a ∧ P []) ∨ ∃ pre post, L = pre ++ i :: post ∧ P (a :: pre) := by
      intro P
      constructor
      · rintro ⟨pre, post, h, hp⟩
        cases pre with
        | nil => simp at h; exact Or.inl ⟨h.1.symm, hp⟩
        | cons b pre =>
          simp at h
          obtain ⟨rfl, h⟩ := h
          exact Or.inr ⟨pre, post, h, hp⟩
      · rintro (⟨rfl, hp⟩ | ⟨pre, post, rfl, hp⟩)
        · exact ⟨[], L, rfl, hp⟩
        · exact ⟨a :: pre, post, rfl, hp⟩
    have key := split (fun pre => (∀ w, v = some w → G i 1 < w) ∧ ∀ j ∈ pre, G i 1 < G j 1)
    rw [key]
    have inL : ∀ {pre post}, L = pre ++ i :: post → i ≠ a := by
      rintro pre post rfl rfl; exact hL.1 (by simp)
    cases v with
    | none =>
      rw [biobjPass]
      simp only [List.mem_cons, ih hL.2]
      simp only [reduceCtorEq, false_implies, implies_true, true_and, Option.some.injEq, forall_eq',
        List.not_mem_nil, and_true, List.mem_cons, forall_eq_or_imp]
    | some v =>
      rw [biobjPass]
      split_ifs with hge
      · simp only [ih hL.2, Option.some.injEq, forall_eq', List.not_mem_nil, false_implies, implies_true,
          and_true, List.mem_cons, forall_eq_or_imp]
        constructor
        · rintro ⟨pre, post, h1, h2, h3⟩
          exact Or.inr ⟨pre, post, h1, h2, lt_of_lt_of_le h2 hge, h3⟩
        · rintro (⟨rfl, h⟩ | ⟨pre, post, h1, h2, _, h3⟩)
          · exact absurd h (not_lt.2 hge)
          · exact ⟨pre, post, h1, h2, h3⟩
      · simp only [List.mem_cons, ih hL.2, Option.some.injEq, forall_eq', List.not_mem_nil, false_implies,
          implies_true, and_true, forall_eq_or_imp, lt_min_iff]
        rw [ge_iff_le, not_le] at hge
        constructor
        · rintro (rfl | ⟨pre, post, h1, h2, h3⟩)
          · exact Or.inl ⟨rfl, hge⟩
          · exact Or.inr ⟨pre, post, h1, h2.1, h2.2, h3⟩
        · rintro (⟨rfl, h⟩ | ⟨pre, post, h1, h2, h2', h3⟩)
          · exact Or.inl rfl
          · exact Or.inr ⟨pre, post, h1, ⟨h2, h2'⟩, h3⟩

/-- If the first objective is strictly increasing along the list, a pass computes the non-dominated points. -/
theorem biobjPass_nondom (G : Fin n → Fin 2 → α) (L : List (Fin n))
    (hL : L.Pairwise (fun a b => G a 0 < G b 0)) (i : Fin n) :
    i ∈ (biobjPass G L none).1 ↔ i ∈ L ∧ ∀ j ∈ L, ¬ Dominates (G j) (G i) := by
  have hn : L.Nodup := hL.imp (fun h e => by rw [e] at h; exact lt_irrefl _ h)
  rw [biobjPass_mem G L hn]
  simp only [reduceCtorEq, false_implies, implies_true, true_and]
  constructor
  · rintro ⟨pre, post, rfl, h⟩
    refine ⟨by simp, fun j hj hd => ?_⟩
    rw [List.pairwise_append] at hL
    rcases List.mem_append.1 hj with hj | hj
    · exact absurd (h j hj) (not_lt.2 (hd.1 1))
    · rcases List.mem_cons.1 hj with rfl | hj
      · exact dominates_strictPO.irrefl _ hd
      · have := (List.pairwise_cons.1 hL.2.1).1 j hj
        exact absurd this (not_lt.2 (hd.1 0))
  · rintro ⟨hi, h⟩
    obtain ⟨pre, post, rfl⟩ := List.append_of_mem hi
    refine ⟨pre, post, rfl, fun j hj => ?_⟩
    by_contra hcon
    rw [not_lt] at hcon
    rw [List.pairwise_append] at hL
    have h0 := hL.2.2 j hj i (by simp)
    refine h j (by simp [hj]) ⟨fun c => ?_, 0, h0⟩
    match c with
    | ⟨0, _⟩ => exact h0.le
    | ⟨1, _⟩ => exact hcon

theorem biobjLoop_spec (G : Fin n → Fin 2 → α) (fuel : ℕ) : ∀ L : List (Fin n), L.length ≤ fuel →
    L.Pairwise (fun a b => G a 0 < G b 0) →
    ∃ r, biobjLoop G fuel L = some r ∧ PeelFrom (fun a b => Dominates (G a) (G b)) (fun i => i ∈ L) r := by
  induction fuel with
  | zero =>
    intro L hl _
    have : L = [] := List.length_eq_zero_iff.1 (by omega)
    subst this
    exact ⟨[], by simp [biobjLoop], PeelFrom.nil (by simp)⟩
  | succ fuel ih =>
    intro L hl hpw
    cases L with
    | nil => exact ⟨[], by simp [biobjLoop], PeelFrom.nil (by simp)⟩
    | cons a L =>
      have hn : (a :: L).Nodup := hpw.imp (fun h e => by rw [e] at h; exact lt_irrefl _ h)
      obtain ⟨h1, h2, h3, h4, h5⟩ := biobjPass_spec G (a :: L) none
      have hne := h5 rfl (by simp)
      have hlen : (biobjPass G (a :: L) none).2.length ≤ fuel := by
        have hlt : (biobjPass G (a :: L) none).2.length < (a :: L).length := by
          apply lt_of_le_of_ne h3.length_le
          intro he
          have := h3.eq_of_length he
          obtain ⟨x, hx⟩ := List.exists_mem_of_ne_nil _ hne
          exact h4 hn x hx (by rw [this]; exact (h1 x).1 (Or.inl hx))
        omega
      obtain ⟨r, r1, r2⟩ := ih _ hlen (hpw.sublist h3)
      refine ⟨(biobjPass G (a :: L) none).1 :: r, ?_, ?_⟩
      · rw [biobjLoop, if_neg hne, r1]
        · rfl
        · simp
      · refine PeelFrom.cons hne (hn.sublist h2) (biobjPass_nondom G _ hpw) ?_ r2
        intro i
        constructor
        · intro hi
          exact ⟨(h1 i).1 (Or.inr hi), fun hc => h4 hn i hc hi⟩
        · rintro ⟨hi, hc⟩
          exact ((h1 i).2 hi).resolve_left hc

/-! ### find_non_dominated -/

section find
variable [AddCommGroup α] [IsOrderedAddMonoid α]

theorem findInner_spec (eps : α) (heps : 0 ≤ eps) (fj fi : Fin m → α) (L : List (Fin m)) : ∀ better,
    ((findInner eps fj fi L better).1 = true ↔ ∀ c ∈ L, fj c ≤ fi c + eps) ∧
    ((∀ c ∈ L, fj c ≤ fi c + eps) →
      ((findInner eps fj fi L better).2 = true ↔ better = true ∨ ∃ c ∈ L, fj c + eps < fi c)) := by
  induction L with
  | nil => intro better; simp [findInner]
  | cons c L ih =>
    intro better
    rw [findInner]
    split_ifs with h1 h2
    · obtain ⟨i1, i2⟩ := ih true
      have hle : fj c ≤ fi c + eps := by
        have a1 : fj c ≤ fj c + eps := le_add_of_nonneg_right heps
        have a2 : fi c ≤ fi c + eps := le_add_of_nonneg_right heps
        exact a1.trans (h1.le.trans a2)
      refine ⟨by rw [i1]; simp [hle], fun hall => ?_⟩
      rw [i2 (fun c hc => hall c (by simp [hc]))]
      simp [h1]
    · refine ⟨?_, fun hall => absurd h2 (not_lt.2 (hall c (by simp)))⟩
      simp only [Bool.false_eq_true, false_iff]
      intro hall
      exact absurd h2 (not_lt.2 (hall c (by simp)))
    · obtain ⟨i1, i2⟩ := ih better
      have hle : fj c ≤ fi c + eps := not_lt.1 h2
      refine ⟨by rw [i1]; simp [hle], fun hall => ?_⟩
      rw [i2 (fun c hc => hall c (by simp [hc]))]
      simp [h1]

theorem findNonDominated_mem (eps : α) (heps : 0 ≤ eps) (F : Fin n → Fin m → α) (i : Fin n) :
    i ∈ findNonDominated eps F ↔
      ¬ ∃ j, j ≠ i ∧ (∃ c, F j c + eps < F i c) ∧ ∀ c, F j c ≤ F i c + eps := by
  unfold findNonDominated findIsDominated
  simp only [List.mem_filter, List.mem_finRange, true_and, Bool.not_eq_true', Bool.eq_false_iff, ne_eq,
    List.any_eq_true]
  apply not_congr
  apply exists_congr
  intro j
  obtain ⟨h1, h2⟩ := findInner_spec eps heps (F j) (F i) (List.finRange m) false
  simp only [List.mem_finRange, true_and, true_implies, Bool.false_eq_true, false_or, forall_const] at h1 h2
  by_cases hij : i = j
  · subst hij; simp
  · simp only [hij, not_false_eq_true, if_true, Bool.and_eq_true, Ne.symm hij, true_and]
    constructor
    · rintro ⟨a, b⟩
      have hall := h1.1 a
      exact ⟨(h2 hall).1 b, hall⟩
    · rintro ⟨a, b⟩
      exact ⟨h1.2 b, (h2 b).2 a⟩

end find

/-! ### dominance degree -/

theorem compLoop_spec (vec : Fin n → α) (rest : List (Fin n)) : ∀ (pre : List (Fin n)) (prev : Fin n)
    (c : Fin n → Fin n → ℤ),
    (pre ++ prev :: rest).Nodup → (pre ++ prev :: rest).Pairwise (fun a b => vec a ≤ vec b) →
    (∀ b, b ∈ pre ++ prev :: rest) →
    (∀ a ∈ pre ++ [prev], ∀ b, c a b = if vec a ≤ vec b then 1 else 0) →
    (∀ a ∈ rest, ∀ b, c a b = 0) →
    ∀ a b, compLoop vec prev rest c a b = if vec a ≤ vec b then 1 else 0 := by
  induction rest with
  | nil =>
    intro pre prev c hn hs hall h1 h2 a b
    exact h1 a (hall a) b
  | cons s rest ih =>
    intro pre prev c hn hs hall h1 h2 a b
    have e : pre ++ prev :: s :: rest = (pre ++ [prev]) ++ s :: rest := by simp
    rw [e] at hn hs hall
    have hdisj : ∀ x ∈ pre ++ [prev], x ∉ s :: rest := by
      intro x hx hx'
      exact (List.nodup_append.1 hn).2.2 x hx x hx' rfl
    have hs1 : s ∉ pre ++ [prev] := fun h => hdisj s h (by simp)
    have hs2 : s ∉ rest := (List.nodup_cons.1 (List.nodup_append.1 hn).2.1).1
    rw [compLoop]
    by_cases heq : vec s = vec prev
    · rw [if_pos heq]
      refine ih (pre ++ [prev]) s _ hn hs hall ?_ ?_ a b
      · intro x hx b
        rw [List.mem_append, List.mem_singleton] at hx
        rcases hx with hx | rfl
        · have : x ≠ s := fun h => hs1 (h ▸ hx)
          rw [Function.update_of_ne this]; exact h1 x hx b
        · rw [Function.update_self, h1 prev (by simp), heq]
      · intro x hx b
        have : x ≠ s := fun h => hs2 (h ▸ hx)
        rw [Function.update_of_ne this]; exact h2 x (by simp [hx]) b
    · rw [if_neg heq]
      refine ih (pre ++ [prev]) s _ hn hs hall ?_ ?_ a b
      · intro x hx b
        rw [List.mem_append, List.mem_singleton] at hx
        rcases hx with hx | rfl
        · have : x ≠ s := fun h => hs1 (h ▸ hx)
          rw [Function.update_of_ne this]; exact h1 x hx b
        · rw [Function.update_self]
          rw [List.pairwise_append] at hs
          have hle : ∀ y ∈ pre ++ [prev], vec y < vec x := by
            intro y hy
            have hp : vec prev < vec x :=
              lt_of_le_of_ne (hs.2.2 prev (by simp) x (by simp)) (fun h => heq h.symm)
            have : vec y ≤ vec prev := by
              rw [List.mem_append, List.mem_singleton] at hy
              rcases hy with hy | rfl
              · exact (List.pairwise_append.1 hs.1).2.2 y hy prev (by simp)
              · exact le_refl _
            exact lt_of_le_of_lt this hp
          by_cases hb : b ∈ x :: rest
          · rw [if_pos hb]
            have : vec x ≤ vec b := by
              rcases List.mem_cons.1 hb with rfl | hb
              · exact le_refl _
              · exact (List.pairwise_cons.1 hs.2.1).1 b hb
            rw [if_pos this]
          · rw [if_neg hb, h2 x (by simp)]
            have hb' : b ∈ pre ++ [prev] := (List.mem_append.1 (hall b)).resolve_right hb
            rw [if_neg (not_le.2 (hle b hb'))]
      · intro x hx b
        have : x ≠ s := fun h => hs2 (h ▸ hx)
        rw [Function.update_of_ne this]; exact h2 x (by simp [hx]) b

/-- What is assumed about an argsort of a column: a rearrangement of all indices, in non-decreasing order. -/
structure ArgSorted (vec : Fin n → α) (idx : List (Fin n)) : Prop where
  perm : idx.Perm (List.finRange n)
  sorted : idx.Pairwise (fun a b => vec a ≤ vec b)

theorem compMatrix_spec (vec : Fin n → α) (idx : List (Fin n)) (h : ArgSorted vec idx) (hn : 0 < n) :
    ∃ c, compMatrix vec idx = some c ∧ ∀ a b, c a b = if vec a ≤ vec b then 1 else 0 := by
  cases idx with
  | nil =>
    have := h.perm.length_eq
    simp at this; omega
  | cons s rest =>
    refine ⟨_, rfl, ?_⟩
    have hnd : (s :: rest).Nodup := h.perm.nodup_iff.2 (List.nodup_finRange n)
    refine compLoop_spec vec rest [] s _ hnd h.sorted (fun b => ?_) ?_ ?_
    · rw [List.nil_append, h.perm.mem_iff]; simp
    · intro a ha b
      have ha : a = s := by simpa using ha
      subst ha
      rw [Function.update_self]
      have : vec a ≤ vec b := by
        have hb : b ∈ a :: rest := by rw [h.perm.mem_iff]; simp
        rcases List.mem_cons.1 hb with rfl | hb
        · exact le_refl _
        · exact (List.pairwise_cons.1 h.sorted).1 b hb
      rw [if_pos this]
    · intro a ha b
      have : a ≠ s := fun e => (List.nodup_cons.1 hnd).1 (e ▸ ha)
      rw [Function.update_of_ne this]

theorem degreeLoop_spec (F : Fin n → Fin m → α) (b : Fin m → List (Fin n))
    (hb : ∀ c, ArgSorted (fun i => F i c) (b c)) (hn : 0 < n) (cs : List (Fin m)) : ∀ d,
    ∃ d', degreeLoop F b cs d = some d' ∧
      ∀ i j, d' i j = d i j + ((cs.countP fun c => decide (F i c ≤ F j c) : ℕ) : ℤ) := by
  induction cs with
  | nil => intro d; exact ⟨d, rfl, by simp⟩
  | cons c cs ih =>
    intro d
    obtain ⟨x, hx1, hx2⟩ := compMatrix_spec _ _ (hb c) hn
    obtain ⟨d', h1, h2⟩ := ih (fun i j => d i j + x i j)
    refine ⟨d', by rw [degreeLoop, hx1]; exact h1, fun i j => ?_⟩
    rw [h2, hx2, List.countP_cons]
    by_cases h : F i c ≤ F j c
    · simp [h]; omega
    · simp [h]

theorem degreeMatrix_spec (F : Fin n → Fin m → α) (b : Fin m → List (Fin n))
    (hb : ∀ c, ArgSorted (fun i => F i c) (b c)) (hn : 0 < n) (hm : 0 < m) :
    ∃ d, degreeMatrix F b = some d ∧ (∀ i j, d i j = (m : ℤ) ↔ Dominates (F i) (F j)) ∧
      (∀ i j, 0 ≤ d i j ∧ d i j ≤ m) := by
  obtain ⟨d', h1, h2⟩ := degreeLoop_spec F b hb hn (List.finRange m) (fun _ _ => 0)
  have hcount : ∀ i j, d' i j = (m : ℤ) ↔ ∀ c, F i c ≤ F j c := by
    intro i j
    rw [h2, zero_add]
    have : (List.finRange m).countP (fun c => decide (F i c ≤ F j c)) = m ↔ ∀ c, F i c ≤ F j c := by
      have hl : (List.finRange m).length = m := List.length_finRange
      conv_lhs => rhs; rw [← hl]
      rw [List.countP_eq_length]; simp
    rw [← this]; norm_cast
  have hbound : ∀ i j, 0 ≤ d' i j ∧ d' i j ≤ m := by
    intro i j
    rw [h2, zero_add]
    have := List.countP_le_length (p := fun c => decide (F i c ≤ F j c)) (l := List.finRange m)
    rw [List.length_finRange] at this
    constructor
    · positivity
    · exact_mod_cast this
  refine ⟨_, by rw [degreeMatrix, h1]; rfl, ?_, ?_⟩
  · intro i j
    have hm' : (0 : ℤ) ≠ m := by exact_mod_cast hm.ne
    beta_reduce
    split_ifs with hc
    · simp only [hm', false_iff]
      rintro ⟨_, k, hk⟩
      exact absurd ((hcount j i).1 hc.2 k) (not_le.2 hk)
    · rw [hcount]
      constructor
      · intro hle
        refine ⟨hle, ?_⟩
        by_contra hcon
        push Not at hcon
        exact hc ⟨(hcount i j).2 hle, (hcount j i).2 hcon⟩
      · exact fun h => h.1
  · intro i j
    simp only
    split_ifs
    · exact ⟨le_refl _, by positivity⟩
    · exact hbound i j

theorem degreeMatrix_diag {F : Fin n → Fin m → α} {b : Fin m → List (Fin n)}
    (hb : ∀ c, ArgSorted (fun i => F i c) (b c)) (hn : 0 < n) {d} (h : degreeMatrix F b = some d) (i : Fin n) :
    d i i = 0 := by
  obtain ⟨d', h1, h2⟩ := degreeLoop_spec F b hb hn (List.finRange m) (fun _ _ => 0)
  rw [degreeMatrix, h1] at h
  simp only [Option.map_some, Option.some.injEq] at h
  subst h
  have : d' i i = m := by rw [h2]; simp
  simp [this]

/-- Invariant of DDA-NS: entries of removed points are -1, the others are the degrees. -/
theorem ddaFront_mem (m : ℕ) {dom : Fin n → Fin n → Prop} {d0 d : Fin n → Fin n → ℤ} {S : Fin n → Prop}
    (hd0 : ∀ i j, d0 i j = (m : ℤ) ↔ dom i j) (hb0 : ∀ i j, 0 ≤ d0 i j ∧ d0 i j ≤ m)
    (hin : ∀ i j, S i → S j → d i j = d0 i j) (hout : ∀ i j, ¬ (S i ∧ S j) → d i j = -1) (i : Fin n) :
    i ∈ ddaFront m d ↔ S i ∧ ∀ j, S j → ¬ dom j i := by
  unfold ddaFront
  simp only [List.mem_filter, List.mem_finRange, true_and]
  cases hmax : ((List.finRange n).map fun j => d j i).max? with
  | none =>
    rw [List.max?_eq_none_iff, List.map_eq_nil_iff] at hmax
    have : i ∈ List.finRange n := List.mem_finRange i
    rw [hmax] at this; simp at this
  | some v =>
    rw [List.max?_eq_some_iff] at hmax
    obtain ⟨hv, hle⟩ := hmax
    simp only [List.mem_map, List.mem_finRange, true_and, forall_exists_index, forall_apply_eq_imp_iff] at hv hle
    obtain ⟨j0, hj0⟩ := hv
    simp only [decide_eq_true_eq]
    by_cases hS : S i
    · simp only [hS, true_and]
      have h0 : 0 ≤ v := by
        have := hle i
        rw [hin i i hS hS] at this
        exact (hb0 i i).1.trans this
      simp only [h0, true_and]
      constructor
      · intro hv j hj hdom
        have := hle j
        rw [hin j i hj hS, (hd0 j i).2 hdom] at this
        omega
      · intro hall
        have hj : S j0 := by
          by_contra hc
          rw [hout j0 i (fun h => hc h.1)] at hj0
          omega
        rw [← hj0, hin j0 i hj hS]
        refine lt_of_le_of_ne (hb0 j0 i).2 ?_
        intro he
        exact hall j0 hj ((hd0 j0 i).1 he)
    · simp only [hS, false_and, iff_false, not_and]
      intro h
      rw [hout j0 i (fun hh => hS hh.2)] at hj0
      omega

theorem ddaLoop_spec (m : ℕ) {dom : Fin n → Fin n → Prop} (hpo : StrictPO dom) {d0 : Fin n → Fin n → ℤ}
    (hd0 : ∀ i j, d0 i j = (m : ℤ) ↔ dom i j) (hb0 : ∀ i j, 0 ≤ d0 i j ∧ d0 i j ≤ m) (fuel : ℕ) :
    ∀ (S : Finset (Fin n)) (d : Fin n → Fin n → ℤ) (count : ℕ),
    (∀ i j, i ∈ S → j ∈ S → d i j = d0 i j) → (∀ i j, ¬ (i ∈ S ∧ j ∈ S) → d i j = -1) →
    count + S.card = n → S.card ≤ fuel →
    ∃ r, ddaLoop m fuel d count = some r ∧ PeelFrom dom (fun i => i ∈ S) r := by
  induction fuel with
  | zero =>
    intro S d count h1 h2 h3 h4
    have hS : S = ∅ := Finset.card_eq_zero.1 (by omega)
    refine ⟨[], ?_, PeelFrom.nil (by simp [hS])⟩
    rw [ddaLoop, if_neg (by simp [hS] at h3; omega)]
  | succ fuel ih =>
    intro S d count h1 h2 h3 h4
    rw [ddaLoop]
    by_cases hc : count < n
    · rw [if_pos hc]
      have hmem := ddaFront_mem m (S := fun i => i ∈ S) hd0 hb0 h1 h2
      have hnd : (ddaFront m d).Nodup := (List.nodup_finRange n).filter _
      have hne : ddaFront m d ≠ [] := by
        have hS : (↑S : Set (Fin n)).Nonempty := by
          rw [Finset.coe_nonempty, ← Finset.card_pos]; omega
        obtain ⟨i, hi, hmin⟩ := StrictPO.exists_minimal hpo ↑S hS
        exact List.ne_nil_of_mem ((hmem i).2 ⟨hi, hmin⟩)
      have hsub : (ddaFront m d).toFinset ⊆ S := by
        intro i hi
        exact ((hmem i).1 (List.mem_toFinset.1 hi)).1
      have hcard : (S \ (ddaFront m d).toFinset).card = S.card - (ddaFront m d).length := by
        rw [Finset.card_sdiff_of_subset hsub, List.toFinset_card_of_nodup hnd]
      have hle : (ddaFront m d).length ≤ S.card := by
        rw [← List.toFinset_card_of_nodup hnd]; exact Finset.card_le_card hsub
      have hpos : 0 < (ddaFront m d).length := List.length_pos_iff.2 hne
      obtain ⟨r, r1, r2⟩ := ih (S \ (ddaFront m d).toFinset)
        (fun i j => if i ∈ ddaFront m d ∨ j ∈ ddaFront m d then -1 else d i j)
        (count + (ddaFront m d).length) (by
          intro i j hi hj
          simp only [Finset.mem_sdiff, List.mem_toFinset] at hi hj
          simp only [hi.2, hj.2, or_self, if_false]
          exact h1 i j hi.1 hj.1) (by
          intro i j hij
          simp only [Finset.mem_sdiff, List.mem_toFinset] at hij
          split_ifs with h
          · rfl
          · rw [not_or] at h
            apply h2
            rintro ⟨a, b⟩
            exact hij ⟨⟨a, h.1⟩, b, h.2⟩) (by omega) (by omega)
      refine ⟨ddaFront m d :: r, by simp only [r1]; rfl, PeelFrom.cons hne hnd hmem ?_ r2⟩
      intro i
      simp [Finset.mem_sdiff]
    · rw [if_neg hc]
      have hS : S = ∅ := Finset.card_eq_zero.1 (by omega)
      exact ⟨[], rfl, PeelFrom.nil (by simp [hS])⟩

theorem ddaInsert_eq (m : ℕ) {dom : Fin n → Fin n → Prop} {d : Fin n → Fin n → ℤ}
    (hd : ∀ i j, d i j = (m : ℤ) ↔ dom i j) (s : Fin n) (fs : List (List (Fin n))) :
    ∃ k, k ≤ fs.length ∧ (∀ l (hl : l < fs.length), l < k → ∃ j ∈ fs[l], dom j s) ∧
      (∀ hl : k < fs.length, ∀ j ∈ fs[k], ¬ dom j s) ∧
      ddaInsert m d s fs = (if k ≥ fs.length then fs ++ [[]] else fs).modify k (· ++ [s]) := by
  induction fs with
  | nil => exact ⟨0, by simp [ddaInsert]⟩
  | cons f fs ih =>
    rw [ddaInsert]
    by_cases h : (f.any fun j => decide (d j s = (m : ℤ))) = true
    · obtain ⟨k, k1, k2, k3, k4⟩ := ih
      refine ⟨k + 1, by simpa using k1, ?_, ?_, ?_⟩
      · intro l hl hlk
        cases l with
        | zero =>
          rw [List.any_eq_true] at h
          obtain ⟨j, hj, hh⟩ := h
          exact ⟨j, by simpa using hj, (hd j s).1 (by simpa using hh)⟩
        | succ l => simpa using k2 l (by simpa using hl) (by omega)
      · intro hl
        simpa using k3 (by simpa using hl)
      · simp only [h, Bool.not_true, Bool.false_eq_true, if_false, k4, List.length_cons]
        by_cases hk : k ≥ fs.length
        · rw [if_pos hk, if_pos (by omega)]; simp
        · rw [if_neg hk, if_neg (by omega)]; simp
    · refine ⟨0, by simp, by simp, ?_, ?_⟩
      · intro _ j hj hdom
        apply h
        rw [List.any_eq_true]
        exact ⟨j, by simpa using hj, by simpa using (hd j s).2 hdom⟩
      · simp [h]

theorem ddaEns_fold (m : ℕ) {dom : Fin n → Fin n → Prop} (hpo : StrictPO dom) {d : Fin n → Fin n → ℤ}
    (hd : ∀ i j, d i j = (m : ℤ) ↔ dom i j) (L : List (Fin n)) :
    ∀ fronts, LocalFronts dom fronts → (fronts.flatten ++ L).Nodup →
    (∀ a ∈ fronts.flatten, ∀ b ∈ L, ¬ dom b a) → L.Pairwise (fun a b => ¬ dom b a) →
    LocalFronts dom (L.foldl (fun fronts s => ddaInsert m d s fronts) fronts) ∧
    (L.foldl (fun fronts s => ddaInsert m d s fronts) fronts).flatten.Perm (fronts.flatten ++ L) := by
  induction L with
  | nil => intro fronts h _ _ _; exact ⟨h, by simp⟩
  | cons p L ih =>
    intro fronts h hnd hle hpw
    rw [List.pairwise_cons] at hpw
    obtain ⟨k, k1, k2, k3, k4⟩ := ddaInsert_eq m hd p fronts
    have hp : p ∉ fronts.flatten := by
      rw [List.nodup_append] at hnd
      intro hcon
      exact hnd.2.2 p hcon p (by simp) rfl
    obtain ⟨i1, i2⟩ := h.insert p (hpo.irrefl _) hp (fun j hj => hle j hj p (by simp)) k k1 k2 k3
    rw [← k4] at i1 i2
    rw [List.foldl_cons]
    obtain ⟨r1, r2⟩ := ih (ddaInsert m d p fronts) i1 (by
        refine ((i2.append_right L).nodup_iff).2 ?_
        have : (p :: fronts.flatten ++ L).Perm (fronts.flatten ++ p :: L) := List.perm_middle.symm
        exact this.nodup_iff.2 hnd) (by
        intro a ha b hb
        replace ha := (List.Perm.mem_iff i2).1 ha
        rcases List.mem_cons.1 ha with rfl | ha
        · exact hpw.1 b hb
        · exact hle a ha b (by simp [hb])) hpw.2
    exact ⟨r1, r2.trans ((i2.append_right L).trans List.perm_middle.symm)⟩

/-! ### tree-based sorting -/

section tree
variable {b : ℕ} (F : Fin n → Fin (b + 1) → α) (seq : Fin n → Fin b → Fin b)

/-- keys of a tree -/
def NTree.Mem (q : Fin n) : NTree n b → Prop
  | .empty => False
  | .node key ch => q = key ∨ ∃ i, NTree.Mem q (ch i)

/-- tree invariant: every key in branch `i` has `i` as its first improving position relative to the node. -/
def NTree.WF : NTree n b → Prop
  | .empty => True
  | .node key ch => ∀ i, (NTree.WF (ch i)) ∧ ∀ q, NTree.Mem q (ch i) → firstLess F seq q key = some i

theorem firstLess_none (p key : Fin n) (hseq : Function.Surjective (seq key)) :
    firstLess F seq p key = none ↔ ∀ c : Fin b, F key c.succ ≤ F p c.succ := by
  unfold firstLess
  rw [List.find?_eq_none]
  simp only [List.mem_finRange, decide_eq_true_eq, not_lt, true_implies, forall_const]
  constructor
  · intro h c
    obtain ⟨x, rfl⟩ := hseq c
    exact h x
  · intro h x; exact h _

theorem firstLess_some (p key : Fin n) (i : Fin b) (h : firstLess F seq p key = some i) :
    F p (seq key i).succ < F key (seq key i).succ ∧
    ∀ j, j < i → F key (seq key j).succ ≤ F p (seq key j).succ := by
  unfold firstLess at h
  rw [List.find?_eq_some_iff_getElem] at h
  obtain ⟨h1, k, hk, h2, h3⟩ := h
  refine ⟨by simpa using h1, fun j hj => ?_⟩
  have hki : k = i.val := by rw [← h2]; simp
  have := h3 j.val (by rw [hki]; exact hj)
  simpa using this

/-- weak domination in all objectives but the first -/
def WeakTail (q p : Fin n) : Prop := ∀ c : Fin b, F q c.succ ≤ F p c.succ

theorem checkTree_false (p : Fin n) (t : NTree n b) : (checkTree F seq p t false).2 = t := by
  induction t with
  | empty => rfl
  | node key ch ih =>
    rw [checkTree]
    cases h : firstLess F seq p key with
    | none => rfl
    | some mi =>
      simp only [h]
      split_ifs
      · simp_all
      · simp [ih]
      · simp [ih]
      · rfl

theorem checkTree_answer (hseq : ∀ k, Function.Surjective (seq k)) (p : Fin n) (t : NTree n b)
    (hwf : NTree.WF F seq t) : ∀ add,
    ((checkTree F seq p t add).1 = true ↔ ∀ q, NTree.Mem q t → ¬ WeakTail F q p) := by
  induction t with
  | empty => intro add; simp [checkTree, NTree.Mem]
  | node key ch ih =>
    intro add
    rw [checkTree]
    rw [NTree.WF] at hwf
    cases h : firstLess F seq p key with
    | none =>
      simp only [Bool.false_eq_true, false_iff]
      intro hall
      exact hall key (Or.inl rfl) ((firstLess_none F seq p key (hseq key)).1 h)
    | some mi =>
      obtain ⟨g1, g2⟩ := firstLess_some F seq p key mi h
      have hkey : ¬ WeakTail F key p := fun hw => absurd g1 (not_lt.2 (hw _))
      -- branches beyond `mi` cannot contain a dominator
      have hbeyond : ∀ i, mi < i → ∀ q, NTree.Mem q (ch i) → ¬ WeakTail F q p := by
        intro i hi q hq hw
        obtain ⟨_, f2⟩ := firstLess_some F seq q key i ((hwf i).2 q hq)
        have := f2 mi hi
        exact absurd (lt_of_le_of_lt (hw (seq key mi)) g1) (not_lt.2 this)
      have hmem : (∀ q, NTree.Mem q (NTree.node key ch) → ¬ WeakTail F q p) ↔
          (∀ i, i < mi → ∀ q, NTree.Mem q (ch i) → ¬ WeakTail F q p) ∧
          (∀ q, NTree.Mem q (ch mi) → ¬ WeakTail F q p) := by
        constructor
        · intro hall
          exact ⟨fun i _ q hq => hall q (Or.inr ⟨i, hq⟩), fun q hq => hall q (Or.inr ⟨mi, hq⟩)⟩
        · rintro ⟨a1, a2⟩ q (rfl | ⟨i, hq⟩)
          · exact hkey
          · rcases lt_trichotomy i mi with hlt | rfl | hgt
            · exact a1 i hlt q hq
            · exact a2 q hq
            · exact hbeyond i hgt q hq
      have hall : ((List.finRange b).all
          (fun i => if i < mi then (checkTree F seq p (ch i) false).1 else true)) = true ↔
          ∀ i, i < mi → ∀ q, NTree.Mem q (ch i) → ¬ WeakTail F q p := by
        rw [List.all_eq_true]
        simp only [List.mem_finRange, true_implies, forall_const]
        apply forall_congr'
        intro i
        by_cases hi : i < mi
        · simp only [hi, if_true, true_implies, forall_const]
          exact ih i (hwf i).1 false
        · simp [hi]
      rw [hmem, ← hall, ← ih mi (hwf mi).1 add]
      simp only
      by_cases c1 : ((List.finRange b).all
          (fun i => if i < mi then (checkTree F seq p (ch i) false).1 else true)) = true
      · simp only [c1, if_true, true_and]
        by_cases c2 : (checkTree F seq p (ch mi) add).1 = true
        · simp only [c2, if_true, iff_true]
          split_ifs <;> rfl
        · simp only [c2]; simp
      · simp only [c1]; simp

theorem checkTree_isEmpty (p : Fin n) (t : NTree n b) (add : Bool) :
    (checkTree F seq p t add).2.isEmpty = t.isEmpty := by
  cases t with
  | empty => rfl
  | node key ch =>
    rw [checkTree]
    cases firstLess F seq p key with
    | none => rfl
    | some mi => simp only; split_ifs <;> rfl

theorem mem_update (key : Fin n) (ch : Fin b → NTree n b) (mi : Fin b) (t : NTree n b) (q : Fin n) :
    NTree.Mem q (.node key (Function.update ch mi t)) ↔
      q = key ∨ NTree.Mem q t ∨ ∃ i, i ≠ mi ∧ NTree.Mem q (ch i) := by
  rw [NTree.Mem]
  apply or_congr_right
  constructor
  · rintro ⟨i, hi⟩
    by_cases h : i = mi
    · subst h; rw [Function.update_self] at hi; exact Or.inl hi
    · rw [Function.update_of_ne h] at hi; exact Or.inr ⟨i, h, hi⟩
  · rintro (h | ⟨i, h, hi⟩)
    · exact ⟨mi, by rw [Function.update_self]; exact h⟩
    · exact ⟨i, by rw [Function.update_of_ne h]; exact hi⟩

theorem mem_split (key : Fin n) (ch : Fin b → NTree n b) (mi : Fin b) (q : Fin n) :
    NTree.Mem q (.node key ch) ↔ q = key ∨ NTree.Mem q (ch mi) ∨ ∃ i, i ≠ mi ∧ NTree.Mem q (ch i) := by
  conv_lhs => rw [← Function.update_eq_self mi ch]
  exact mem_update key ch mi (ch mi) q

theorem checkTree_tree (p : Fin n) (t : NTree n b) (hwf : NTree.WF F seq t) :
    NTree.WF F seq (checkTree F seq p t true).2 ∧
    (∀ q, NTree.Mem q (checkTree F seq p t true).2 ↔
      NTree.Mem q t ∨ ((checkTree F seq p t true).1 = true ∧ t.isEmpty = false ∧ q = p)) := by
  induction t with
  | empty => simp [checkTree, NTree.WF, NTree.Mem, NTree.isEmpty]
  | node key ch ih =>
    rw [checkTree]
    have hwf' := hwf
    rw [NTree.WF] at hwf
    cases h : firstLess F seq p key with
    | none => exact ⟨hwf', by simp⟩
    | some mi =>
      obtain ⟨w, hm⟩ := ih mi (hwf mi).1
      have hem := checkTree_isEmpty F seq p (ch mi) true
      have wf_update : ∀ t', NTree.WF F seq t' → (∀ q, NTree.Mem q t' → NTree.Mem q (ch mi) ∨ q = p) →
          NTree.WF F seq (.node key (Function.update ch mi t')) := by
        intro t' ht' hq' i
        by_cases hi : i = mi
        · subst hi
          rw [Function.update_self]
          refine ⟨ht', fun q hq => ?_⟩
          rcases hq' q hq with h' | rfl
          · exact (hwf i).2 q h'
          · exact h
        · rw [Function.update_of_ne hi]; exact hwf i
      simp only
      split_ifs with c1 c2 c3
      · -- a new leaf
        rw [Bool.and_true] at c3
        rw [hem] at c3
        refine ⟨wf_update _ ?_ ?_, fun q => ?_⟩
        · simp [NTree.leaf, NTree.WF, NTree.Mem]
        · intro q hq; right; simpa [NTree.leaf, NTree.Mem] using hq
        · rw [mem_update, mem_split key ch mi q]
          have he : ch mi = .empty := by
            cases hc : ch mi with
            | empty => rfl
            | node k c => rw [hc] at c3; simp [NTree.isEmpty] at c3
          have h1 : NTree.Mem q (NTree.leaf p : NTree n b) ↔ q = p := by simp [NTree.leaf, NTree.Mem]
          rw [h1, he]
          have h2 : NTree.Mem q (NTree.empty : NTree n b) ↔ False := by simp [NTree.Mem]
          rw [h2]
          simp only [NTree.isEmpty, true_and]
          generalize (∃ i, i ≠ mi ∧ NTree.Mem q (ch i)) = E
          tauto
      · refine ⟨wf_update _ w ?_, fun q => ?_⟩
        · intro q hq
          rcases (hm q).1 hq with h' | h'
          · exact Or.inl h'
          · exact Or.inr h'.2.2
        · rw [mem_update, mem_split key ch mi q, hm]
          have : (ch mi).isEmpty = false := by
            rw [Bool.and_true, hem] at c3; simpa using c3
          simp only [c2, this, NTree.isEmpty, true_and]
          generalize (∃ i, i ≠ mi ∧ NTree.Mem q (ch i)) = E
          tauto
      · refine ⟨wf_update _ w ?_, fun q => ?_⟩
        · intro q hq
          rcases (hm q).1 hq with h' | h'
          · exact Or.inl h'
          · exact Or.inr h'.2.2
        · rw [mem_update, mem_split key ch mi q, hm]
          simp only [c2, Bool.false_eq_true, false_and, or_false]
      · exact ⟨hwf', by simp⟩

theorem updateTree_spec (hseq : ∀ k, Function.Surjective (seq k)) (p : Fin n) (t : NTree n b)
    (hwf : NTree.WF F seq t) :
    NTree.WF F seq (updateTree F seq p t).1 ∧
    ((updateTree F seq p t).2 = true ↔ ∀ q, NTree.Mem q t → ¬ WeakTail F q p) ∧
    (∀ q, NTree.Mem q (updateTree F seq p t).1 ↔ NTree.Mem q t ∨ ((updateTree F seq p t).2 = true ∧ q = p)) := by
  cases t with
  | empty => simp [updateTree, NTree.leaf, NTree.WF, NTree.Mem]
  | node key ch =>
    obtain ⟨h1, h2⟩ := checkTree_tree F seq p (.node key ch) hwf
    have h3 := checkTree_answer F seq hseq p (.node key ch) hwf true
    exact ⟨h1, h3, by simpa [updateTree, NTree.isEmpty] using h2⟩

theorem treePass_spec (hseq : ∀ k, Function.Surjective (seq k)) (L : List (Fin n)) :
    ∀ (t : NTree n b) (acc : List (Fin n)), NTree.WF F seq t → (∀ q, NTree.Mem q t ↔ q ∈ acc) →
    (acc ++ L).Nodup → (∀ x y, x ≠ y → F x ≠ F y) →
    (acc ++ L).Pairwise (fun a c => F a 0 ≤ F c 0) →
    (∀ q, NTree.Mem q (treePass F seq L t).1 ↔ q ∈ greedy (fun a c => Dominates (F a) (F c)) acc L) ∧
    (∀ q, q ∈ (treePass F seq L t).2 ↔ q ∈ L ∧ q ∉ greedy (fun a c => Dominates (F a) (F c)) acc L) ∧
    (treePass F seq L t).2.Sublist L ∧ NTree.WF F seq (treePass F seq L t).1 := by
  induction L with
  | nil => intro t acc hwf hm _ _ _; simp [treePass, greedy, hm, hwf]
  | cons p L ih =>
    intro t acc hwf hm hnd hF hsort
    obtain ⟨u1, u2, u3⟩ := updateTree_spec F seq hseq p t hwf
    have hp : p ∉ acc ++ L := by
      have : (p :: (acc ++ L)).Nodup := (List.perm_middle.nodup_iff).1 hnd
      exact (List.nodup_cons.1 this).1
    -- weak domination of a distinct, lexicographically earlier point is domination
    have hdom : (∀ q, NTree.Mem q t → ¬ WeakTail F q p) ↔ ∀ q ∈ acc, ¬ Dominates (F q) (F p) := by
      apply forall_congr'
      intro q
      rw [hm]
      apply imp_congr_right
      intro hq
      apply not_congr
      have hqp : q ≠ p := fun e => hp (by simp [← e, hq])
      have h0 : F q 0 ≤ F p 0 := (List.pairwise_append.1 hsort).2.2 q hq p (by simp)
      constructor
      · intro hw
        have hle : ∀ c, F q c ≤ F p c := by
          intro c
          induction c using Fin.cases with
          | zero => exact h0
          | succ c => exact hw c
        refine ⟨hle, ?_⟩
        by_contra hcon
        push Not at hcon
        exact hF q p hqp (funext fun c => le_antisymm (hle c) (hcon c))
      · intro hd c; exact hd.1 _
    rw [hdom] at u2
    rw [treePass, greedy]
    by_cases hc : ∀ q ∈ acc, ¬ Dominates (F q) (F p)
    · rw [if_pos hc]
      have hu := u2.2 hc
      obtain ⟨i1, i2, i3, i4⟩ := ih (updateTree F seq p t).1 (acc ++ [p]) u1
        (by intro q; rw [u3, hm]; simp [hu]) (by simpa using hnd) hF (by simpa using hsort)
      refine ⟨i1, ?_, ?_, i4⟩
      · intro q
        simp only [hu, if_true, i2]
        have hpm : p ∈ greedy (fun a c => Dominates (F a) (F c)) (acc ++ [p]) L := by
          have : ∀ (L acc : List (Fin n)) x, x ∈ acc → x ∈ greedy (fun a c => Dominates (F a) (F c)) acc L := by
            intro L
            induction L with
            | nil => intro acc x hx; exact hx
            | cons y L ih =>
              intro acc x hx
              rw [greedy]
              apply ih
              split
              · simp [hx]
              · exact hx
          exact this L _ p (by simp)
        constructor
        · rintro ⟨a, b⟩; exact ⟨by simp [a], b⟩
        · rintro ⟨a, b⟩
          rcases List.mem_cons.1 a with rfl | a
          · exact absurd hpm b
          · exact ⟨a, b⟩
      · simp only [hu, if_true]; exact i3.cons p
    · rw [if_neg hc]
      have hu : (updateTree F seq p t).2 = false := by
        rw [← Bool.not_eq_true, u2]; exact hc
      have hnd' : (acc ++ L).Nodup := by
        have : (p :: (acc ++ L)).Nodup := (List.perm_middle.nodup_iff).1 hnd
        exact (List.nodup_cons.1 this).2
      have hsort' : (acc ++ L).Pairwise (fun a c => F a 0 ≤ F c 0) :=
        hsort.sublist ((List.sublist_cons_self p L).append_left acc)
      obtain ⟨i1, i2, i3, i4⟩ := ih (updateTree F seq p t).1 acc u1
        (by intro q; rw [u3, hm]; simp [hu]) hnd' hF hsort'
      refine ⟨i1, ?_, ?_, i4⟩
      · intro q
        simp only [hu, Bool.false_eq_true, if_false, List.mem_cons, i2]
        have hpg : p ∉ greedy (fun a c => Dominates (F a) (F c)) acc L :=
          fun h => hp ((greedy_sublist _ L acc).subset h)
        constructor
        · rintro (rfl | h)
          · exact ⟨Or.inl rfl, hpg⟩
          · exact ⟨Or.inr h.1, h.2⟩
        · rintro ⟨rfl | h, h'⟩
          · exact Or.inl rfl
          · exact Or.inr ⟨h, h'⟩
      · simp only [hu, Bool.false_eq_true, if_false]; exact i3.cons_cons p

theorem traversal_mem (t : NTree n b) (q : Fin n) : q ∈ t.traversal ↔ NTree.Mem q t := by
  induction t with
  | empty => simp [NTree.traversal, NTree.Mem]
  | node key ch ih => simp [NTree.traversal, NTree.Mem, ih]

theorem firstLess_self (p : Fin n) : firstLess F seq p p = none := by
  unfold firstLess; simp

theorem traversal_nodup (t : NTree n b) (hwf : NTree.WF F seq t) : t.traversal.Nodup := by
  induction t with
  | empty => simp [NTree.traversal]
  | node key ch ih =>
    rw [NTree.WF] at hwf
    rw [NTree.traversal, List.nodup_cons]
    constructor
    · intro h
      obtain ⟨i, _, hi⟩ := List.mem_flatMap.1 h
      have := (hwf i).2 key ((traversal_mem _ _).1 hi)
      rw [firstLess_self] at this; cases this
    · rw [List.nodup_flatMap]
      refine ⟨fun i _ => ih i (hwf i).1, ?_⟩
      refine (List.nodup_finRange b).imp ?_
      intro i j hij
      rw [Function.onFun, List.disjoint_left]
      intro q hi hj
      have h1 := (hwf i).2 q ((traversal_mem _ _).1 hi)
      have h2 := (hwf j).2 q ((traversal_mem _ _).1 hj)
      rw [h1] at h2
      exact hij (by simpa using h2)

theorem treeLoop_spec (hseq : ∀ k, Function.Surjective (seq k)) (hF : ∀ x y, x ≠ y → F x ≠ F y) (fuel : ℕ) :
    ∀ L : List (Fin n), L.length ≤ fuel → L.Nodup → L.Pairwise (fun a c => F a 0 ≤ F c 0) →
    L.Pairwise (fun a c => ¬ Dominates (F c) (F a)) →
    ∃ r, treeLoop F seq fuel L = some r ∧
      PeelFrom (fun a c => Dominates (F a) (F c)) (fun i => i ∈ L) (r.map NTree.traversal) := by
  have hpo : StrictPO (fun a c => Dominates (F a) (F c)) :=
    ⟨fun i => dominates_strictPO.irrefl _, fun i j k => dominates_strictPO.trans _ _ _⟩
  induction fuel with
  | zero =>
    intro L hl _ _ _
    have : L = [] := List.length_eq_zero_iff.1 (by omega)
    subst this
    exact ⟨[], by simp [treeLoop], PeelFrom.nil (by simp)⟩
  | succ fuel ih =>
    intro L hl hn hs hpw
    cases L with
    | nil => exact ⟨[], by simp [treeLoop], PeelFrom.nil (by simp)⟩
    | cons a L =>
      obtain ⟨h1, h2, h3, h4⟩ := treePass_spec F seq hseq (a :: L) .empty [] (by simp [NTree.WF])
        (by simp [NTree.Mem]) (by simpa using hn) hF (by simpa using hs)
      have hg := greedy_spec (fun a c => Dominates (F a) (F c)) hpo (a :: L) hpw
      have hfront : ∀ i, i ∈ (treePass F seq (a :: L) .empty).1.traversal ↔
          i ∈ a :: L ∧ ∀ j, j ∈ a :: L → ¬ Dominates (F j) (F i) := by
        intro i; rw [traversal_mem, h1, hg]
      have hain : a ∈ (treePass F seq (a :: L) .empty).1.traversal := by
        rw [hfront]
        refine ⟨by simp, fun j hj => ?_⟩
        rcases List.mem_cons.1 hj with rfl | hj
        · exact hpo.irrefl _
        · exact (List.pairwise_cons.1 hpw).1 j hj
      have hlen : (treePass F seq (a :: L) .empty).2.length ≤ fuel := by
        have hlt : (treePass F seq (a :: L) .empty).2.length < (a :: L).length := by
          apply lt_of_le_of_ne h3.length_le
          intro he
          have heq := h3.eq_of_length he
          have : a ∈ (treePass F seq (a :: L) .empty).2 := by rw [heq]; simp
          rw [h2] at this
          rw [traversal_mem, h1] at hain
          exact this.2 hain
        omega
      obtain ⟨r, r1, r2⟩ := ih _ hlen (hn.sublist h3) (hs.sublist h3) (hpw.sublist h3)
      refine ⟨(treePass F seq (a :: L) .empty).1 :: r, ?_, ?_⟩
      · rw [treeLoop]
        · simp only [r1]; rfl
        · simp
      · rw [List.map_cons]
        refine PeelFrom.cons (List.ne_nil_of_mem hain) (traversal_nodup F seq _ h4) hfront ?_ r2
        intro i
        rw [h2, traversal_mem, h1]

end tree

end Lemmas
