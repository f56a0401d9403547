import Verif.Model.Termination
import Mathlib.Algebra.Order.Field.Basic
import Mathlib.Tactic.Linarith
import Mathlib.Tactic.FieldSimp
import Mathlib.Data.Rat.Cast.Order
import Mathlib.Algebra.Order.Ring.Rat
import Mathlib.Tactic.NormNum

/-! # C17 (termination), C33 (sliding window), C42 (target value), C43 (robust tolerance criteria) -/

set_option linter.unusedSimpArgs false
set_option linter.unusedSectionVars false

namespace Props
open Model

/-! ## C33 -/

section Window
variable {α : Type*}

theorem swTrim_eq (n : ℕ) (l : List α) : swTrim n l = l.drop (l.length - n) := by
  induction l with
  | nil => simp [swTrim]
  | cons x xs ih =>
    rw [swTrim]
    split_ifs with h
    · rw [ih]
      simp only [List.length_cons] at h ⊢
      rw [show xs.length + 1 - n = (xs.length - n) + 1 by omega, List.drop_succ_cons]
    · simp only [List.length_cons] at h ⊢
      rw [show xs.length + 1 - n = 0 by omega]
      rfl

theorem swFold (n : ℕ) (es : List α) : ∀ seen : List α,
    es.foldl (swAppend (some n)) (seen.drop (seen.length - n)) =
      (seen ++ es).drop ((seen ++ es).length - n) := by
  induction es with
  | nil => intro seen; simp
  | cons e es ih =>
    intro seen
    rw [List.foldl_cons]
    have h : swAppend (some n) (seen.drop (seen.length - n)) e = (seen ++ [e]).drop ((seen ++ [e]).length - n) := by
      simp only [swAppend, swTrim_eq]
      have h1 : seen.drop (seen.length - n) ++ [e] = (seen ++ [e]).drop (seen.length - n) := by
        rw [List.drop_append_of_le_length (by omega)]
      rw [h1, List.drop_drop, List.length_drop]
      congr 1
      simp only [List.length_append, List.length_singleton]
      omega
    rw [h, ih (seen ++ [e])]
    simp

/-- C33. After any sequence of appends, a sliding window of size `n` holds the last `min n (number of appends)`
entries, in insertion order. -/
theorem C33_window_holds_last (n : ℕ) (es : List α) :
    es.foldl (swAppend (some n)) [] = es.drop (es.length - n) ∧
    (es.foldl (swAppend (some n)) []).length = min n es.length := by
  have h := swFold n es []
  simp only [List.drop_nil, List.nil_append] at h
  refine ⟨h, ?_⟩
  rw [h, List.length_drop]; omega

/-- C33. Without a size limit everything is kept. -/
theorem C33_unbounded (es : List α) : es.foldl (swAppend none) [] = es := by
  have : ∀ seen : List α, es.foldl (swAppend none) seen = seen ++ es := by
    induction es with
    | nil => intro seen; simp
    | cons e es ih => intro seen; rw [List.foldl_cons, ih]; simp [swAppend]
  simpa using this []

/-- C33. `is_full` is true exactly if the window holds `size` elements, that is after at least `size` appends; an
unbounded window is never full. -/
theorem C33_is_full (n : ℕ) (es : List α) :
    (swIsFull (some n) (es.foldl (swAppend (some n)) []) = true ↔ n ≤ es.length) ∧
    swIsFull none (es.foldl (swAppend none) []) = false := by
  refine ⟨?_, rfl⟩
  simp only [swIsFull, (C33_window_holds_last n es).2, beq_iff_eq]
  omega

example : [1, 2, 3, 4, 5].foldl (swAppend (some 3)) [] = [3, 4, 5] := by decide
end Window

/-! ## C17 -/

section Tree
variable {S K A : Type*} [Field K] [LinearOrder K]

theorem pyMax_spec (l : List K) : ∀ m, Crit.pyMax l = some m → m ∈ l ∧ ∀ x ∈ l, x ≤ m := by
  cases l with
  | nil => intro m h; simp [Crit.pyMax] at h
  | cons x xs =>
    have key : ∀ (ys : List K) (a : K), (ys.foldl (fun m y => if m < y then y else m) a) ∈ a :: ys ∧
        ∀ y ∈ a :: ys, y ≤ ys.foldl (fun m y => if m < y then y else m) a := by
      intro ys
      induction ys with
      | nil => intro a; simp
      | cons y ys ih =>
        intro a
        rw [List.foldl_cons]
        obtain ⟨h1, h2⟩ := ih (if a < y then y else a)
        refine ⟨?_, ?_⟩
        · split_ifs at h1 ⊢ with h
          · exact List.mem_cons_of_mem _ h1
          · rcases List.mem_cons.1 h1 with h1 | h1
            · rw [h1]; exact List.mem_cons_self ..
            · exact List.mem_cons_of_mem _ (List.mem_cons_of_mem _ h1)
        · intro z hz
          have hge := h2 _ (List.mem_cons_self ..)
          rcases List.mem_cons.1 hz with rfl | hz
          · refine le_trans ?_ hge
            split_ifs with h
            · exact h.le
            · exact le_refl _
          · rcases List.mem_cons.1 hz with rfl | hz
            · refine le_trans ?_ hge
              split_ifs with h
              · exact le_refl _
              · exact not_lt.1 h
            · exact h2 z (List.mem_cons_of_mem _ hz)
    intro m h
    simp only [Crit.pyMax, Option.some.injEq] at h
    rw [← h]
    exact key xs x

theorem pyMin_spec (l : List K) : ∀ m, Crit.pyMin l = some m → m ∈ l ∧ ∀ x ∈ l, m ≤ x := by
  cases l with
  | nil => intro m h; simp [Crit.pyMin] at h
  | cons x xs =>
    have key : ∀ (ys : List K) (a : K), (ys.foldl (fun m y => if y < m then y else m) a) ∈ a :: ys ∧
        ∀ y ∈ a :: ys, ys.foldl (fun m y => if y < m then y else m) a ≤ y := by
      intro ys
      induction ys with
      | nil => intro a; simp
      | cons y ys ih =>
        intro a
        rw [List.foldl_cons]
        obtain ⟨h1, h2⟩ := ih (if y < a then y else a)
        refine ⟨?_, ?_⟩
        · split_ifs at h1 ⊢ with h
          · exact List.mem_cons_of_mem _ h1
          · rcases List.mem_cons.1 h1 with h1 | h1
            · rw [h1]; exact List.mem_cons_self ..
            · exact List.mem_cons_of_mem _ (List.mem_cons_of_mem _ h1)
        · intro z hz
          have hge := h2 _ (List.mem_cons_self ..)
          rcases List.mem_cons.1 hz with rfl | hz
          · refine le_trans hge ?_
            split_ifs with h
            · exact h.le
            · exact le_refl _
          · rcases List.mem_cons.1 hz with rfl | hz
            · refine le_trans hge ?_
              split_ifs with h
              · exact le_refl _
              · exact not_lt.1 h
            · exact h2 z (List.mem_cons_of_mem _ hz)
    intro m h
    simp only [Crit.pyMin, Option.some.injEq] at h
    rw [← h]
    exact key xs x

/-- Specification: when a tree of criteria should terminate in the observed state `a`. A forced object terminates;
a primitive criterion when its own progress reaches 1; `any`/`all` as the name says; a robust criterion if its inner
criterion terminates now and the progress values remembered in its window (after the new one has pushed out the
oldest) have all reached 1. -/
inductive ShouldStop (raw : S → K → A → Option (K × S)) (a : A) : Crit S K → Prop
  | primForced (p : K) (s : S) : ShouldStop raw a (.prim true p s)
  | primReached (f : Bool) (p q : K) (s s' : S) : raw s p a = some (q, s') → 1 ≤ q → ShouldStop raw a (.prim f p s)
  | anyForced (p : K) (cs : List (Crit S K)) : ShouldStop raw a (.any true p cs)
  | anyMember (f : Bool) (p : K) (cs : List (Crit S K)) (c : Crit S K) : c ∈ cs → ShouldStop raw a c →
      ShouldStop raw a (.any f p cs)
  | allForced (p : K) (cs : List (Crit S K)) : ShouldStop raw a (.all true p cs)
  | allMembers (f : Bool) (p : K) (cs : List (Crit S K)) : (∀ c ∈ cs, ShouldStop raw a c) →
      ShouldStop raw a (.all f p cs)
  | robustForced (p : K) (n : Option ℕ) (h : List K) (c : Crit S K) : ShouldStop raw a (.robust true p n h c)
  | robustMember (f : Bool) (p : K) (n : Option ℕ) (h : List K) (c : Crit S K) : ShouldStop raw a c →
      (∀ q ∈ swAppend n h 1, 1 ≤ q) → ShouldStop raw a (.robust f p n h c)

theorem updateAll_spec (raw : S → K → A → Option (K × S)) (a : A) : ∀ (cs cs' : List (Crit S K)),
    Crit.updateAll raw a cs = some cs' → List.Forall₂ (fun c c' => Crit.update raw a c = some c') cs cs'
  | [], cs', h => by
    rw [Crit.updateAll] at h
    simp only [Option.some.injEq] at h
    subst h; exact List.Forall₂.nil
  | c :: cs, cs', h => by
    rw [Crit.updateAll] at h
    cases h1 : Crit.update raw a c with
    | none => rw [h1] at h; simp at h
    | some c' =>
      rw [h1] at h
      cases h2 : Crit.updateAll raw a cs with
      | none => rw [h2] at h; simp at h
      | some cs'' =>
        rw [h2] at h
        simp only [Option.some.injEq] at h
        subst h
        exact List.Forall₂.cons h1 (updateAll_spec raw a cs cs'' h2)

theorem hasTerminated_iff (c : Crit S K) : c.hasTerminated = true ↔ 1 ≤ c.perc := decide_eq_true_iff

/-- C17. A forced termination object reports progress 1 (and terminates) at every later update, whatever its kind and
whatever the algorithm's state. -/
theorem C17_forced (raw : S → K → A → Option (K × S)) (a : A) (c : Crit S K) :
    ∃ c', Crit.update raw a c.terminate = some c' ∧ c'.perc = 1 ∧ c'.hasTerminated = true ∧ c'.force = true := by
  cases c <;> simp [Crit.terminate, Crit.update, Crit.perc, Crit.hasTerminated, Crit.force]

theorem C17_forced_forever (raw : S → K → A → Option (K × S)) (as : List A) : ∀ (c : Crit S K), c.force = true →
    as ≠ [] → ∃ c', Crit.updates raw as c = some c' ∧ c'.hasTerminated = true := by
  have step : ∀ (a : A) (c : Crit S K), c.force = true →
      ∃ c', Crit.update raw a c = some c' ∧ c'.force = true ∧ c'.hasTerminated = true := by
    intro a c hc
    cases c <;> simp only [Crit.force] at hc <;> subst hc <;>
      simp [Crit.update, Crit.perc, Crit.hasTerminated, Crit.force]
  induction as with
  | nil => intro c _ h; exact absurd rfl h
  | cons a as ih =>
    intro c hc _
    obtain ⟨c', h1, h2, h3⟩ := step a c hc
    rw [Crit.updates, h1]
    by_cases has : as = []
    · subst has; exact ⟨c', rfl, h3⟩
    · exact ih c' h2 has

/-- C17. An update that does not raise records a non-negative progress; `has_terminated` is true iff it is at
least 1. -/
theorem C17_progress_nonneg [IsStrictOrderedRing K] (raw : S → K → A → Option (K × S)) (a : A) (c c' : Crit S K)
    (h : Crit.update raw a c = some c') : 0 ≤ c'.perc ∧ (c'.hasTerminated = true ↔ 1 ≤ c'.perc) := by
  refine ⟨?_, by simp [Crit.hasTerminated]⟩
  cases c with
  | prim f p s =>
    rw [Crit.update] at h
    split at h
    · simp only [Option.some.injEq] at h; subst h; simp [Crit.perc]
    · split at h
      · simp at h
      · split_ifs at h with hp
        simp only [Option.some.injEq] at h; subst h; simpa [Crit.perc] using hp
  | any f p cs =>
    rw [Crit.update] at h
    split at h
    · simp only [Option.some.injEq] at h; subst h; simp [Crit.perc]
    · split at h
      · simp at h
      · split at h
        · simp at h
        · split_ifs at h with hp
          simp only [Option.some.injEq] at h; subst h; simpa [Crit.perc] using hp
  | all f p cs =>
    rw [Crit.update] at h
    split at h
    · simp only [Option.some.injEq] at h; subst h; simp [Crit.perc]
    · split at h
      · simp at h
      · split at h
        · simp at h
        · split_ifs at h with hp
          simp only [Option.some.injEq] at h; subst h; simpa [Crit.perc] using hp
  | robust f p n hh c =>
    rw [Crit.update] at h
    split at h
    · simp only [Option.some.injEq] at h; subst h; simp [Crit.perc]
    · split at h
      · simp at h
      · split at h
        · simp at h
        · split_ifs at h with hp
          simp only [Option.some.injEq] at h; subst h; simpa [Crit.perc] using hp

/-- C17. A raw progress below zero is rejected: `update` raises. -/
theorem C17_negative_rejected (raw : S → K → A → Option (K × S)) (a : A) (p q : K) (s s' : S)
    (h : raw s p a = some (q, s')) (hq : q < 0) : Crit.update raw a (.prim false p s) = none := by
  rw [Crit.update]
  simp [h, hq]

theorem mem_swAppend_last (n : Option ℕ) (hn : n ≠ some 0) (h : List K) (e : K) : e ∈ swAppend n h e := by
  cases n with
  | none => simp [swAppend]
  | some n =>
    simp only [swAppend, swTrim_eq]
    have : n ≠ 0 := fun h => hn (by rw [h])
    rw [List.length_append, List.length_singleton, List.drop_append_of_le_length (by omega)]
    simp

theorem swAppend_forall (n : Option ℕ) (hn : n ≠ some 0) (h : List K) (e : K) (P : K → Prop) :
    (∀ q ∈ swAppend n h e, P q) ↔ P e ∧ ∀ e', P e' → ∀ q ∈ swAppend n h e', P q := by
  cases n with
  | none =>
    simp only [swAppend, List.mem_append, List.mem_singleton]
    constructor
    · intro hh; exact ⟨hh e (Or.inr rfl), fun e' he' q hq => hq.elim (fun h => hh q (Or.inl h)) (fun h => h ▸ he')⟩
    · rintro ⟨h1, h2⟩; exact h2 e h1
  | some n =>
    have h0 : n ≠ 0 := fun h => hn (by rw [h])
    simp only [swAppend, swTrim_eq, List.length_append, List.length_singleton]
    have : ∀ e, (h ++ [e]).drop (h.length + 1 - n) = h.drop (h.length + 1 - n) ++ [e] := by
      intro e; rw [List.drop_append_of_le_length (by omega)]
    simp only [this, List.mem_append, List.mem_singleton]
    constructor
    · intro hh; exact ⟨hh e (Or.inr rfl), fun e' he' q hq => hq.elim (fun h => hh q (Or.inl h)) (fun h => h ▸ he')⟩
    · rintro ⟨h1, h2⟩; exact h2 e h1

/-- Sizes of all windows in the tree are positive (`RobustTermination(period=0)` raises at the first update). -/
inductive WindowsPositive : Crit S K → Prop
  | prim (f p s) : WindowsPositive (.prim f p s)
  | any (f p cs) : (∀ c ∈ cs, WindowsPositive c) → WindowsPositive (.any f p cs)
  | all (f p cs) : (∀ c ∈ cs, WindowsPositive c) → WindowsPositive (.all f p cs)
  | robust (f p n h c) : n ≠ some 0 → WindowsPositive c → WindowsPositive (.robust f p n h c)

/-- C17 (combination). For every tree of criteria — arbitrary primitive criteria combined with any/all/robust in any
nesting — after an update that does not raise, the object has terminated iff the logical combination says so. -/
theorem C17_tree (raw : S → K → A → Option (K × S)) (a : A) : ∀ (c c' : Crit S K), WindowsPositive c →
    Crit.update raw a c = some c' → (c'.hasTerminated = true ↔ ShouldStop raw a c)
  | .prim f p s, c', _, h => by
    rw [Crit.update] at h
    split at h
    · rename_i hf
      simp only [Option.some.injEq] at h; subst h; subst hf
      simp only [Crit.hasTerminated, Crit.perc, le_refl, decide_true, true_iff]
      exact .primForced ..
    · rename_i hf
      split at h
      · simp at h
      · rename_i q s' hr
        split_ifs at h with hp
        simp only [Option.some.injEq] at h; subst h
        rw [hasTerminated_iff]; simp only [Crit.perc]
        constructor
        · intro h1; exact .primReached _ _ _ _ _ hr h1
        · intro h1
          cases h1 with
          | primForced => exact absurd rfl hf
          | primReached _ _ q' _ _ hr' hq' => rw [hr] at hr'; simp at hr'; rw [hr'.1]; exact hq'
  | .any f p cs, c', hw, h => by
    rw [Crit.update] at h
    split at h
    · rename_i hf
      simp only [Option.some.injEq] at h; subst h; subst hf
      simp only [Crit.hasTerminated, Crit.perc, le_refl, decide_true, true_iff]
      exact .anyForced ..
    · rename_i hf
      split at h
      · simp at h
      · rename_i cs' hcs
        split at h
        · simp at h
        · rename_i m hm
          split_ifs at h with hp
          simp only [Option.some.injEq] at h; subst h
          obtain ⟨m1, m2⟩ := pyMax_spec _ _ hm
          have hall := updateAll_spec raw a cs cs' hcs
          have hw' : ∀ c ∈ cs, WindowsPositive c := by cases hw; assumption
          have ih : ∀ c ∈ cs, ∀ c', Crit.update raw a c = some c' →
              (c'.hasTerminated = true ↔ ShouldStop raw a c) := fun c hc c' hu => C17_tree raw a c c' (hw' c hc) hu
          rw [hasTerminated_iff]; simp only [Crit.perc]
          constructor
          · intro h1
            obtain ⟨d, hd, hdm⟩ := List.mem_map.1 m1
            obtain ⟨k, hk, hkd⟩ := List.mem_iff_getElem.1 hd
            have hk' : k < cs.length := by rw [hall.length_eq]; exact hk
            have hu := hall.get hk' hk
            simp only [List.get_eq_getElem, hkd] at hu
            refine .anyMember _ _ _ cs[k] (List.getElem_mem _) ((ih _ (List.getElem_mem _) d hu).1 ?_)
            simp only [Crit.hasTerminated, decide_eq_true_eq, hdm]; exact h1
          · intro h1
            cases h1 with
            | anyForced => exact absurd rfl hf
            | anyMember _ _ _ c hc hs =>
              obtain ⟨k, hk, hkc⟩ := List.mem_iff_getElem.1 hc
              have hk' : k < cs'.length := by rw [← hall.length_eq]; exact hk
              have hu := hall.get hk hk'
              simp only [List.get_eq_getElem, hkc] at hu
              have := (ih c hc _ hu).2 hs
              simp only [Crit.hasTerminated, decide_eq_true_eq] at this
              exact le_trans this (m2 _ (List.mem_map.2 ⟨_, List.getElem_mem _, rfl⟩))
  | .all f p cs, c', hw, h => by
    rw [Crit.update] at h
    split at h
    · rename_i hf
      simp only [Option.some.injEq] at h; subst h; subst hf
      simp only [Crit.hasTerminated, Crit.perc, le_refl, decide_true, true_iff]
      exact .allForced ..
    · rename_i hf
      split at h
      · simp at h
      · rename_i cs' hcs
        split at h
        · simp at h
        · rename_i m hm
          split_ifs at h with hp
          simp only [Option.some.injEq] at h; subst h
          obtain ⟨m1, m2⟩ := pyMin_spec _ _ hm
          have hall := updateAll_spec raw a cs cs' hcs
          have hw' : ∀ c ∈ cs, WindowsPositive c := by cases hw; assumption
          have ih : ∀ c ∈ cs, ∀ c', Crit.update raw a c = some c' →
              (c'.hasTerminated = true ↔ ShouldStop raw a c) := fun c hc c' hu => C17_tree raw a c c' (hw' c hc) hu
          rw [hasTerminated_iff]; simp only [Crit.perc]
          constructor
          · intro h1
            refine .allMembers _ _ _ ?_
            intro c hc
            obtain ⟨k, hk, hkc⟩ := List.mem_iff_getElem.1 hc
            have hk' : k < cs'.length := by rw [← hall.length_eq]; exact hk
            have hu := hall.get hk hk'
            simp only [List.get_eq_getElem, hkc] at hu
            refine (ih c hc _ hu).1 ?_
            simp only [Crit.hasTerminated, decide_eq_true_eq]
            exact le_trans h1 (m2 _ (List.mem_map.2 ⟨_, List.getElem_mem _, rfl⟩))
          · intro h1
            cases h1 with
            | allForced => exact absurd rfl hf
            | allMembers _ _ _ hs =>
              obtain ⟨d, hd, hdm⟩ := List.mem_map.1 m1
              obtain ⟨k, hk, hkd⟩ := List.mem_iff_getElem.1 hd
              have hk' : k < cs.length := by rw [hall.length_eq]; exact hk
              have hu := hall.get hk' hk
              simp only [List.get_eq_getElem, hkd] at hu
              have := (ih _ (List.getElem_mem _) d hu).2 (hs _ (List.getElem_mem _))
              simp only [Crit.hasTerminated, decide_eq_true_eq, hdm] at this
              exact this
  | .robust f p n hist c, c', hw, h => by
    rw [Crit.update] at h
    split at h
    · rename_i hf
      simp only [Option.some.injEq] at h; subst h; subst hf
      simp only [Crit.hasTerminated, Crit.perc, le_refl, decide_true, true_iff]
      exact .robustForced ..
    · rename_i hf
      split at h
      · simp at h
      · rename_i d hd
        split at h
        · simp at h
        · rename_i m hm
          split_ifs at h with hp
          simp only [Option.some.injEq] at h; subst h
          obtain ⟨m1, m2⟩ := pyMin_spec _ _ hm
          have hw' : n ≠ some 0 ∧ WindowsPositive c := by cases hw; constructor <;> assumption
          have ih := C17_tree raw a c d hw'.2 hd
          simp only [Crit.hasTerminated, decide_eq_true_eq] at ih
          rw [hasTerminated_iff]; simp only [Crit.perc]
          have hsplit := swAppend_forall n hw'.1 hist d.perc (fun q => 1 ≤ q)
          constructor
          · intro h1
            have hall : ∀ q ∈ swAppend n hist d.perc, 1 ≤ q := fun q hq => le_trans h1 (m2 q hq)
            obtain ⟨h2, h3⟩ := hsplit.1 hall
            exact .robustMember _ _ _ _ _ (ih.1 h2) (h3 1 (le_refl _))
          · intro h1
            cases h1 with
            | robustForced => exact absurd rfl hf
            | robustMember _ _ _ _ _ hs hq =>
              have hall := hsplit.2 ⟨ih.2 hs, fun e' he' => by
                have := (swAppend_forall n hw'.1 hist (1 : K) (fun q => 1 ≤ q)).1 hq
                exact this.2 e' he'⟩
              exact hall m m1
termination_by c => sizeOf c

end Tree


section Primitive
variable {K : Type*} [Field K] [LinearOrder K] [IsStrictOrderedRing K]

theorem limitProgress_fin (counter n : ℕ) (hn : 1 ≤ n) : ∃ p : K, limitProgress counter (.fin n) = some p ∧ 0 ≤ p ∧
    (1 ≤ p ↔ n ≤ counter) := by
  obtain ⟨m, rfl⟩ : ∃ m, n = m + 1 := ⟨n - 1, by omega⟩
  refine ⟨_, rfl, by positivity, ?_⟩
  have : (0 : K) < ((m + 1 : ℕ) : K) := by exact_mod_cast Nat.succ_pos m
  rw [le_div_iff₀ this, one_mul]
  exact Nat.cast_le

/-- The maximum generation / evaluation criterion as a primitive: no state, observes the counter. -/
def limitRaw (lim : Limit) : Unit → K → ℕ → Option (K × Unit) :=
  fun _ _ counter => (limitProgress counter lim).map fun p => (p, ())

/-- C17. `MaximumGenerationTermination(N)` and `MaximumFunctionCallTermination(N)`, `N ≥ 1`, over any sequence of
updates: no update raises, and after each the criterion has terminated iff the counter it has just seen is at
least `N`. -/
theorem C17_limit_exact (N : ℕ) (hN : 1 ≤ N) (counters : List ℕ) (last : ℕ) (p : K) :
    ∃ c, Crit.updates (limitRaw (K := K) (.fin N)) (counters ++ [last]) (.prim false p ()) = some c ∧
      (c.hasTerminated = true ↔ N ≤ last) := by
  induction counters generalizing p with
  | nil =>
    obtain ⟨q, h1, h2, h3⟩ := limitProgress_fin (K := K) last N hN
    refine ⟨.prim false q (), ?_, ?_⟩
    · simp [Crit.updates, Crit.update, limitRaw, h1, h2]
    · rw [hasTerminated_iff]; exact h3
  | cons x xs ih =>
    obtain ⟨q, h1, h2, h3⟩ := limitProgress_fin (K := K) x N hN
    obtain ⟨c, hc, hc'⟩ := ih q
    refine ⟨c, ?_, hc'⟩
    rw [List.cons_append, Crit.updates]
    have : Crit.update (limitRaw (K := K) (.fin N)) x (.prim false p ()) = some (.prim false q ()) := by
      simp [Crit.update, limitRaw, h1, h2]
    rw [this]
    exact hc

/-- C17. With a non-decreasing counter the criterion stays terminated once it has terminated. -/
theorem C17_limit_latches (N : ℕ) (hN : 1 ≤ N) (before after : List ℕ) (x last : ℕ) (p : K)
    (hmono : (before ++ [x] ++ after ++ [last]).Pairwise (· ≤ ·)) (c : Crit Unit K)
    (hc : Crit.updates (limitRaw (K := K) (.fin N)) (before ++ [x]) (.prim false p ()) = some c)
    (hterm : c.hasTerminated = true) :
    ∃ c', Crit.updates (limitRaw (K := K) (.fin N)) (before ++ [x] ++ after ++ [last]) (.prim false p ()) = some c' ∧
      c'.hasTerminated = true := by
  obtain ⟨d, hd, hd'⟩ := C17_limit_exact N hN before x p
  rw [hd] at hc
  simp only [Option.some.injEq] at hc
  subst hc
  obtain ⟨c', h1, h2⟩ := C17_limit_exact N hN (before ++ [x] ++ after) last p
  refine ⟨c', h1, h2.2 ?_⟩
  have hx := hd'.1 hterm
  have : x ≤ last := by
    have := (List.pairwise_append.1 hmono).2.2 x (by simp) last (by simp)
    exact this
  omega

/-- C17. A limit of `None` or infinity never terminates, a limit of 0 raises. -/
theorem C17_limit_special (counter : ℕ) : (limitProgress counter .none : Option K) = some 0 ∧
    (limitProgress counter .inf : Option K) = some 0 ∧ (limitProgress counter (.fin 0) : Option K) = none :=
  ⟨rfl, rfl, rfl⟩

/-- C17. The time based criterion terminates iff the elapsed time has reached the (positive) limit. -/
theorem C17_time (elapsed maxTime : K) (h : 0 < maxTime) :
    ∃ p, timeProgress elapsed maxTime = some p ∧ (1 ≤ p ↔ maxTime ≤ elapsed) := by
  refine ⟨elapsed / maxTime, by simp [timeProgress, h.ne'], ?_⟩
  rw [le_div_iff₀ h, one_mul]

example : ∃ c, Crit.updates (limitRaw (K := ℚ) (.fin 3)) [1, 2, 3] (.prim false 0 ()) = some c ∧
    c.hasTerminated = true := by
  obtain ⟨c, h1, h2⟩ := C17_limit_exact (K := ℚ) 3 (by omega) [1, 2] 3 0
  exact ⟨c, h1, h2.2 (by omega)⟩

/-- A tree: (counter ≥ 3 or counter ≥ 10) and counter ≥ 2, evaluated at 3. -/
example : ((Crit.update (fun (lim : ℕ) (_ : ℚ) (counter : ℕ) =>
      ((limitProgress counter (.fin lim) : Option ℚ)).map fun p => (p, lim)) 3
    (.all false 0 [.any false 0 [.prim false 0 3, .prim false 0 10], .prim false 0 2])).map Crit.hasTerminated)
    = some true := by decide +kernel

/-! ## C42: target value -/

/-- C42 as stated fails in three ways: with negative values the criterion stops before the target is reached, never
stops after it is reached, and raises when the best value has the opposite sign. -/
theorem C42_fmin_refuted :
    (fminProgress (-10 : ℚ) true (-5) = some 2 ∧ ¬ (-5 : ℚ) ≤ -10) ∧
    (fminProgress (-10 : ℚ) true (-20) = some (1 / 2) ∧ (-20 : ℚ) ≤ -10) ∧
    (∃ p, fminProgress (-10 : ℚ) true 5 = some p ∧ p < 0) := by
  refine ⟨⟨by norm_num [fminProgress], by norm_num⟩, ⟨by norm_num [fminProgress], by norm_num⟩, -2,
    by norm_num [fminProgress], by norm_num⟩

/-- C42, what holds: for a positive target and a positive best value the criterion stops iff the best feasible
objective is at most the target; without a feasible solution it never stops. -/
theorem C42_fmin_partial (target best : K) (ht : 0 < target) (hb : 0 < best) :
    (∃ p, fminProgress target true best = some p ∧ 0 ≤ p ∧ (1 ≤ p ↔ best ≤ target)) ∧
    fminProgress target false best = some 0 := by
  refine ⟨⟨target / best, by simp [fminProgress, hb.ne'], by positivity, ?_⟩, by simp [fminProgress]⟩
  rw [le_div_iff₀ hb, one_mul]

example : ∃ p, fminProgress (2 : ℚ) true 1 = some p ∧ 1 ≤ p := by
  obtain ⟨⟨p, h1, _, h2⟩, _⟩ := C42_fmin_partial (2 : ℚ) 1 (by norm_num) (by norm_num)
  exact ⟨p, h1, h2.2 (by norm_num)⟩

/-! ## C43: robust tolerance criteria -/

/-- The progress values a criterion records over a sequence of updates (`none` if one raises). -/
def percTrace {S A : Type*} (raw : S → K → A → Option (K × S)) : List A → Crit S K → Option (List K)
  | [], _ => some []
  | a :: as, c =>
    match Crit.update raw a c with
    | none => none
    | some c' => (percTrace raw as c').map (c'.perc :: ·)

theorem robust_updates {S A : Type*} (raw : S → K → A → Option (K × S)) (p : ℕ) :
    ∀ (as : List A) (q : K) (seen : List K) (c : Crit S K) (r : Crit S K), as ≠ [] →
      Crit.updates raw as (.robust false q (some p) (seen.drop (seen.length - p)) c) = some r →
      ∃ qs, percTrace raw as c = some qs ∧ qs.length = as.length ∧
        (r.hasTerminated = true ↔ ∀ x ∈ (seen ++ qs).drop ((seen ++ qs).length - p), 1 ≤ x) := by
  intro as
  induction as with
  | nil => intro q seen c r h; exact absurd rfl h
  | cons a as ih =>
    intro q seen c r _ h
    rw [Crit.updates, Crit.update] at h
    simp only [Bool.false_eq_true, if_false] at h
    cases hu : Crit.update raw a c with
    | none => rw [hu] at h; simp at h
    | some d =>
      rw [hu] at h
      dsimp only at h
      have hw : swAppend (some p) (seen.drop (seen.length - p)) d.perc =
          (seen ++ [d.perc]).drop ((seen ++ [d.perc]).length - p) := by
        have := swFold p [d.perc] seen
        simpa using this
      cases hm : Crit.pyMin (swAppend (some p) (seen.drop (seen.length - p)) d.perc) with
      | none => rw [hm] at h; simp at h
      | some m =>
        rw [hm] at h
        dsimp only at h
        split at h
        · simp at h
        · rename_i c' hc'
          split_ifs at hc' with hm0
          simp only [Option.some.injEq] at hc'
          subst hc'
          by_cases has : as = []
          · subst has
            simp only [Crit.updates, Option.some.injEq] at h
            subst h
            refine ⟨[d.perc], by simp [percTrace, hu], rfl, ?_⟩
            rw [hasTerminated_iff]
            simp only [Crit.perc]
            obtain ⟨m1, m2⟩ := pyMin_spec _ _ hm
            rw [hw] at m1 m2
            exact ⟨fun h x hx => le_trans h (m2 x hx), fun h => h m m1⟩
          · rw [hw] at h
            obtain ⟨qs, h1, h2, h3⟩ := ih m (seen ++ [d.perc]) d r has h
            refine ⟨d.perc :: qs, by simp [percTrace, hu, h1], by simp [h2], ?_⟩
            rw [h3]
            simp

/-- C43. `RobustTermination(criterion, period=p)` over any sequence of updates that does not raise: it has
terminated iff the last `min(p, k)` progress values of the wrapped criterion (`k` = number of updates) have all
reached 1. -/
theorem C43_robust_window {S A : Type*} (raw : S → K → A → Option (K × S)) (p : ℕ) (as : List A)
    (has : as ≠ []) (q : K) (c r : Crit S K)
    (h : Crit.updates raw as (.robust false q (some p) [] c) = some r) :
    ∃ qs, percTrace raw as c = some qs ∧ qs.length = as.length ∧
      (r.hasTerminated = true ↔ ∀ x ∈ qs.drop (qs.length - p), 1 ≤ x) := by
  have := robust_updates raw p as q [] c r has (by simpa using h)
  simpa using this

/-- C43. One update of a tolerance criterion (`tol ≥ 0`, recorded progress between 0 and 1): the new progress is
between 0 and 1; the first update records 0; a skipped update repeats the recorded progress and the others record
1 iff the change since the remembered data is at most the tolerance, in which case the remembered data stay as
they are. -/
theorem C43_delta_update {D : Type*} (delta : D → D → WithTop K) (s : DeltaState D K) (perc : K) (cur : D)
    (hp : 0 ≤ perc ∧ perc ≤ 1) :
    let r := deltaUpdate delta s perc cur
    (0 ≤ r.1 ∧ r.1 ≤ 1) ∧
    (s.data = none → r.1 = 0 ∧ r.2.data = some cur) ∧
    (∀ prev, s.data = some prev → (0 < s.counter ∧ s.counter % (s.nSkip + 1) ≠ 0) →
      r.1 = perc ∧ r.2.data = some cur) ∧
    (∀ prev, s.data = some prev → ¬ (0 < s.counter ∧ s.counter % (s.nSkip + 1) ≠ 0) →
      (r.1 = 1 ↔ delta prev cur ≤ (s.tol : WithTop K)) ∧ (r.1 = 1 → r.2 = s) ∧
      (r.1 ≠ 1 → r.2.data = some cur)) := by
  intro r
  have hr : r = deltaUpdate delta s perc cur := rfl
  unfold deltaUpdate at hr
  cases hd : s.data with
  | none =>
    rw [hd] at hr
    dsimp only at hr
    rw [hr]
    simp
  | some prev =>
    rw [hd] at hr
    dsimp only at hr
    by_cases hs : s.counter > 0 ∧ s.counter % (s.nSkip + 1) ≠ 0
    · rw [if_pos hs] at hr
      rw [hr]
      refine ⟨hp, by simp, fun _ _ _ => ⟨rfl, rfl⟩, fun _ _ h => absurd hs h⟩
    · rw [if_neg hs] at hr
      cases hdel : delta prev cur with
      | top =>
        rw [hdel] at hr
        dsimp only at hr
        rw [hr]
        refine ⟨by simp, by simp, fun _ _ h => absurd h hs, ?_⟩
        intro prev' hp' _
        simp only [Option.some.injEq] at hp'
        subst hp'
        rw [hdel]
        simp
      | coe d =>
        rw [hdel] at hr
        dsimp only at hr
        by_cases hle : d ≤ s.tol
        · rw [if_pos hle] at hr
          rw [hr]
          refine ⟨by simp, by simp, fun _ _ h => absurd h hs, ?_⟩
          intro prev' hp' _
          simp only [Option.some.injEq] at hp'
          subst hp'
          rw [hdel]
          simpa using hle
        · rw [if_neg hle] at hr
          push Not at hle
          have hpos : 0 < 1 + (d - s.tol) := by linarith
          have hlt : 1 / (1 + (d - s.tol)) < 1 := by
            rw [div_lt_one hpos]; linarith
          have hge : 0 ≤ 1 / (1 + (d - s.tol)) := by positivity
          rw [hr]
          refine ⟨⟨hge, hlt.le⟩, by simp, fun _ _ h => absurd h hs, ?_⟩
          intro prev' hp' _
          simp only [Option.some.injEq] at hp'
          subst hp'
          rw [hdel]
          refine ⟨?_, fun h => absurd h hlt.ne, fun _ => rfl⟩
          simp only [WithTop.coe_le_coe]
          exact ⟨fun h => absurd h hlt.ne, fun h => absurd h (not_le.2 hle)⟩

/-- A tolerance criterion as a primitive observing the data. -/
def deltaRaw {D : Type*} (delta : D → D → WithTop K) : DeltaState D K → K → D → Option (K × DeltaState D K) :=
  fun s perc cur => some (deltaUpdate delta s perc cur)

/-- C43. A fresh tolerance criterion made robust with period `p` never terminates within its first `p` updates. -/
theorem C43_robust_needs_period {D : Type*} (delta : D → D → WithTop K) (tol : K) (nSkip p : ℕ)
    (as : List D) (has : as ≠ []) (hlen : as.length ≤ p) (r : Crit (DeltaState D K) K)
    (h : Crit.updates (deltaRaw delta) as
      (.robust false 0 (some p) [] (.prim false 0 ⟨tol, none, 0, nSkip⟩)) = some r) :
    r.hasTerminated = false := by
  obtain ⟨qs, h1, h2, h3⟩ := C43_robust_window (deltaRaw delta) p as has 0 _ r h
  cases as with
  | nil => exact absurd rfl has
  | cons a as =>
    have hu : Crit.update (deltaRaw delta) a (.prim false 0 ⟨tol, none, 0, nSkip⟩) =
        some (.prim false 0 ⟨tol, some a, 1, nSkip⟩) := by
      simp [Crit.update, deltaRaw, deltaUpdate]
    rw [percTrace, hu] at h1
    dsimp only at h1
    rw [Option.map_eq_some_iff] at h1
    obtain ⟨qs', _, rfl⟩ := h1
    by_contra hne
    rw [Bool.not_eq_false] at hne
    have := h3.1 hne 0 (by
      rw [show ((Crit.prim false (0 : K) (⟨tol, some a, 1, nSkip⟩ : DeltaState D K)).perc :: qs').length - p = 0 by
        rw [h2]; omega]
      simp [Crit.perc])
    exact absurd this (by norm_num)

/-- Non-vacuity: period 2, data 5, 3, 3, 3: terminates at the fourth update. -/
example : ((Crit.updates (deltaRaw (fun a b : ℚ => ((|a - b| : ℚ) : WithTop ℚ))) [5, 3, 3, 3]
      (.robust false 0 (some 2) [] (.prim false 0 ⟨0, none, 0, 0⟩))).map Crit.hasTerminated) = some true := by
  norm_num [Crit.updates, Crit.update, deltaRaw, deltaUpdate, Crit.perc, Crit.hasTerminated, Crit.pyMin, swAppend,
    swTrim]

/-! ## C44: until feasible -/

/-- C44. `UntilFeasibleTermination`: at every update with an initial violation remembered (`c0 > 0`) progress reaches 1
iff the smallest violation of the optimum is not positive; it becomes negative — so that the run ends with an
assertion error — iff the violation exceeds the initial one. -/
theorem C44_until_feasible (tiny c0 cv : K) (h0 : 0 < c0) :
    (1 ≤ (untilFeasible tiny (some c0) cv).1 ↔ cv ≤ 0) ∧
    ((untilFeasible tiny (some c0) cv).1 < 0 ↔ c0 < cv) ∧ (untilFeasible tiny (some c0) cv).2 = some c0 := by
  refine ⟨?_, ?_, rfl⟩
  · simp only [untilFeasible]
    rw [le_sub_self_iff, div_nonpos_iff]
    constructor
    · rintro (⟨_, h⟩ | ⟨h, _⟩)
      · exact absurd h (not_le.2 h0)
      · exact h
    · intro h; exact Or.inr ⟨h, h0.le⟩
  · simp only [untilFeasible]
    rw [sub_neg, lt_div_iff₀ h0, one_mul]

/-- C44, first update: a positive initial violation is remembered and progress is 0; otherwise (feasible) it
terminates at once. -/
theorem C44_until_feasible_first (tiny cv : K) (ht : 0 < tiny) :
    (0 < cv → untilFeasible tiny none cv = (0, some cv)) ∧
    (cv ≤ 0 → 1 ≤ (untilFeasible tiny none cv).1 ∧ (untilFeasible tiny none cv).2 = some tiny) := by
  constructor
  · intro h
    simp [untilFeasible, not_le.2 h, h.ne']
  · intro h
    simp only [untilFeasible, if_pos h, and_true]
    rw [le_sub_self_iff]
    exact div_nonpos_of_nonpos_of_nonneg h ht.le

/-- C44, negative part: after a feasible start the remembered violation is tiny, and a later infeasible optimum makes
the progress negative (assertion error) — the criterion is not usable with a non-elitist algorithm. -/
theorem C44_until_feasible_refuted (tiny : K) (ht : 0 < tiny) : ∃ cv : K, 0 < cv ∧
    (untilFeasible tiny (untilFeasible tiny none 0).2 cv).1 < 0 := by
  refine ⟨2 * tiny, by linarith, ?_⟩
  have h := (C44_until_feasible_first tiny 0 ht).2 (le_refl _)
  rw [h.2]
  exact (C44_until_feasible tiny tiny (2 * tiny) ht).2.1.2 (by linarith)

example : (1 : ℚ) ≤ (untilFeasible (1/1000 : ℚ) (some 3) 0).1 := ((C44_until_feasible _ 3 0 (by norm_num)).1).2 (by norm_num)

end Primitive

end Props
