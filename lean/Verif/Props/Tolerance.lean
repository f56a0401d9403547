import Verif.Model.Tolerance
import Verif.Props.Termination
import Verif.Props.Indicators
import Mathlib.Tactic.FinCases

/-! # C108: the default terminations -/

set_option linter.unusedSimpArgs false
set_option linter.unusedVariables false
set_option linter.unusedSectionVars false

namespace Props

open Model Spec Lemmas

/-! ## collections of criteria that are updated several times -/

section Any
variable {S K A : Type*} [Field K] [LinearOrder K]

theorem updates_append (raw : S → K → A → Option (K × S)) (as bs : List A) (c : Crit S K) :
    Crit.updates raw (as ++ bs) c = (Crit.updates raw as c).bind fun d => Crit.updates raw bs d := by
  induction as generalizing c with
  | nil => rfl
  | cons a as ih =>
    simp only [List.cons_append, Crit.updates]
    cases Crit.update raw a c with
    | none => rfl
    | some d => exact ih d

/-- A collection of criteria updates its members independently, and terminates when one of them does. -/
theorem any_updates (raw : S → K → A → Option (K × S)) (as : List A) (has : as ≠ []) (p : K) (cs : List (Crit S K)) (r : Crit S K)
    (h : Crit.updates raw as (.any false p cs) = some r) :
    ∃ q cs', r = .any false q cs' ∧ List.Forall₂ (fun c c' => Crit.updates raw as c = some c') cs cs' ∧
      (r.hasTerminated = true ↔ ∃ c' ∈ cs', c'.hasTerminated = true) := by
  induction as generalizing p cs with
  | nil => exact absurd rfl has
  | cons a as ih =>
    simp only [Crit.updates] at h
    cases hu : Crit.update raw a (.any false p cs) with
    | none => rw [hu] at h; simp at h
    | some d =>
      rw [hu] at h
      dsimp only at h
      rw [Crit.update] at hu
      simp only [Bool.false_eq_true, if_false] at hu
      cases hall : Crit.updateAll raw a cs with
      | none => rw [hall] at hu; simp at hu
      | some cs1 =>
        rw [hall] at hu
        dsimp only at hu
        cases hm : Crit.pyMax (cs1.map Crit.perc) with
        | none => rw [hm] at hu; simp at hu
        | some v =>
          rw [hm] at hu
          dsimp only at hu
          split_ifs at hu with hv
          simp only [Option.some.injEq] at hu
          subst hu
          have h1 := updateAll_spec raw a cs cs1 hall
          by_cases hne : as = []
          · subst hne
            simp only [Crit.updates, Option.some.injEq] at h
            subst h
            refine ⟨v, cs1, rfl, ?_, ?_⟩
            · refine h1.imp fun c c' hc => ?_
              simp only [Crit.updates, hc]
            · rw [hasTerminated_iff]
              obtain ⟨m1, m2⟩ := pyMax_spec _ _ hm
              constructor
              · intro hge
                obtain ⟨c', hc', e⟩ := List.mem_map.1 m1
                exact ⟨c', hc', (hasTerminated_iff _).2 (by rw [e]; exact hge)⟩
              · rintro ⟨c', hc', ht⟩
                exact le_trans ((hasTerminated_iff _).1 ht) (m2 _ (List.mem_map_of_mem hc'))
          · obtain ⟨q, cs', hr, h2, h3⟩ := ih hne v cs1 h
            refine ⟨q, cs', hr, ?_, h3⟩
            clear h3 hr hm hall h hne has
            induction h1 generalizing cs' with
            | nil => cases h2; exact .nil
            | cons hc _ ih2 =>
              cases h2 with
              | cons h21 h22 =>
                refine .cons ?_ (ih2 _ h22)
                simp only [Crit.updates, hc]; exact h21

end Any

section Delta
variable {D S A : Type*}

/-- A criterion that is a tolerance criterion on the data `dat a`. -/
def IsDelta (raw : S → ℝ → A → Option (ℝ × S)) (delta : D → D → WithTop ℝ) (inj : DeltaState D ℝ → S) (dat : A → D) : Prop :=
  ∀ s perc a, raw (inj s) perc a = some ((deltaUpdate delta s perc (dat a)).1, inj (deltaUpdate delta s perc (dat a)).2)

theorem deltaUpdate_cases (delta : D → D → WithTop ℝ) (s : DeltaState D ℝ) (perc : ℝ) (c : D) :
    (s.data = none ∧ deltaUpdate delta s perc c = (0, { s with data := some c, counter := s.counter + 1 })) ∨
    (∃ prev, s.data = some prev ∧ (s.counter > 0 ∧ s.counter % (s.nSkip + 1) ≠ 0) ∧
      deltaUpdate delta s perc c = (perc, { s with data := some c, counter := s.counter + 1 })) ∨
    (∃ prev, s.data = some prev ∧ ¬ (s.counter > 0 ∧ s.counter % (s.nSkip + 1) ≠ 0) ∧ delta prev c ≤ (s.tol : WithTop ℝ) ∧
      deltaUpdate delta s perc c = (1, s)) ∨
    (∃ prev, s.data = some prev ∧ ¬ (s.counter > 0 ∧ s.counter % (s.nSkip + 1) ≠ 0) ∧ ¬ delta prev c ≤ (s.tol : WithTop ℝ) ∧
      ∃ q, 0 ≤ q ∧ q < 1 ∧ (delta prev c = ⊤ → q = 0) ∧
        deltaUpdate delta s perc c = (q, { s with data := some c, counter := s.counter + 1 })) := by
  unfold deltaUpdate
  cases hd : s.data with
  | none => left; exact ⟨rfl, rfl⟩
  | some prev =>
    right
    dsimp only
    by_cases hs : s.counter > 0 ∧ s.counter % (s.nSkip + 1) ≠ 0
    · left; exact ⟨prev, rfl, hs, by rw [if_pos hs]⟩
    · right
      rw [if_neg hs]
      cases hdel : delta prev c with
      | top =>
        right
        exact ⟨prev, rfl, hs, by rw [hdel]; simp, 0, le_refl _, one_pos, fun _ => rfl, rfl⟩
      | coe d =>
        by_cases hle : d ≤ s.tol
        · left
          exact ⟨prev, rfl, hs, by rw [hdel]; exact_mod_cast hle, by simp [hle]⟩
        · right
          push Not at hle
          have hpos : 0 < 1 + (d - s.tol) := by linarith
          refine ⟨prev, rfl, hs, by rw [hdel]; simpa using hle, 1 / (1 + (d - s.tol)), by positivity, ?_, ?_, ?_⟩
          · rw [div_lt_one hpos]; linarith
          · intro h; rw [hdel] at h; exact absurd h (WithTop.coe_ne_top)
          · simp [not_le.2 hle]

theorem prim_step (raw : S → ℝ → A → Option (ℝ × S)) (delta : D → D → WithTop ℝ) (inj : DeltaState D ℝ → S) (dat : A → D)
    (h : IsDelta raw delta inj dat) (s : DeltaState D ℝ) (perc : ℝ) (hp : 0 ≤ perc) (a : A) :
    Crit.update raw a (.prim false perc (inj s)) =
      some (.prim false (deltaUpdate delta s perc (dat a)).1 (inj (deltaUpdate delta s perc (dat a)).2)) ∧
      0 ≤ (deltaUpdate delta s perc (dat a)).1 := by
  have hn : 0 ≤ (deltaUpdate delta s perc (dat a)).1 := by
    rcases deltaUpdate_cases delta s perc (dat a) with ⟨-, e⟩ | ⟨_, -, -, e⟩ | ⟨_, -, -, -, e⟩ | ⟨_, -, -, -, q, h0, -, -, e⟩ <;> rw [e]
    · exact hp
    · exact zero_le_one
    · exact h0
  refine ⟨?_, hn⟩
  rw [Crit.update]
  simp [h s perc a, hn]

/-- The updates that will still be skipped. -/
def skipsLeft (s : DeltaState D ℝ) : ℕ :=
  if s.counter > 0 ∧ s.counter % (s.nSkip + 1) ≠ 0 then s.nSkip + 1 - s.counter % (s.nSkip + 1) else 0

theorem skips_succ (n c : ℕ) (h : c % (n + 1) ≠ 0) :
    (if (c + 1) > 0 ∧ (c + 1) % (n + 1) ≠ 0 then n + 1 - (c + 1) % (n + 1) else 0) = n + 1 - c % (n + 1) - 1 := by
  have hlt := Nat.mod_lt c (Nat.succ_pos n)
  have : (c + 1) % (n + 1) = if c % (n + 1) + 1 = n + 1 then 0 else c % (n + 1) + 1 := by
    rw [Nat.add_mod]
    by_cases h1 : n = 0
    · subst h1; simp [Nat.mod_one]
    · have : 1 % (n + 1) = 1 := Nat.mod_eq_of_lt (by omega)
      rw [this]
      split_ifs with h2
      · rw [h2, Nat.mod_self]
      · exact Nat.mod_eq_of_lt (by simp only [Nat.succ_eq_add_one] at hlt; omega)
  rw [this]
  simp only [Nat.succ_eq_add_one] at hlt
  split_ifs with h1 h2 h3 <;> simp_all <;> omega

theorem const_good (raw : S → ℝ → A → Option (ℝ × S)) (delta : D → D → WithTop ℝ) (inj : DeltaState D ℝ → S) (dat : A → D)
    (h : IsDelta raw delta inj dat) (c : D) (as : List A) (hc : ∀ a ∈ as, dat a = c) (s : DeltaState D ℝ) (perc : ℝ) (hp : 0 ≤ perc)
    (hcc : delta c c ≤ (s.tol : WithTop ℝ)) (d : D) (hd : s.data = some d) (hdc : delta d c ≤ (s.tol : WithTop ℝ)) :
    ∃ qs, percTrace raw as (.prim false perc (inj s)) = some qs ∧ ∀ q ∈ qs.drop (skipsLeft s), q = 1 := by
  induction as generalizing s perc d with
  | nil => exact ⟨[], rfl, by simp⟩
  | cons a as ih =>
    obtain ⟨hu, hn⟩ := prim_step raw delta inj dat h s perc hp a
    rw [hc a (List.mem_cons_self ..)] at hu hn
    have hc' : ∀ a ∈ as, dat a = c := fun a ha => hc a (List.mem_cons_of_mem _ ha)
    rw [percTrace, hu]
    dsimp only
    rcases deltaUpdate_cases delta s perc c with ⟨e1, -⟩ | ⟨prev, e1, e2, e⟩ | ⟨prev, e1, e2, -, e⟩ | ⟨prev, e1, -, e2, -⟩
    · rw [hd] at e1; cases e1
    · rw [e] at hu hn ⊢
      obtain ⟨qs, hq1, hq2⟩ := ih hc' { s with data := some c, counter := s.counter + 1 } perc hp hcc c rfl hcc
      refine ⟨perc :: qs, by simp only [hq1, Option.map_some, Crit.perc], ?_⟩
      have hsk : skipsLeft s = skipsLeft ({ s with data := some c, counter := s.counter + 1 } : DeltaState D ℝ) + 1 := by
        unfold skipsLeft
        rw [if_pos e2]
        dsimp only
        rw [skips_succ _ _ e2.2]
        have := Nat.mod_lt s.counter (Nat.succ_pos s.nSkip)
        simp only [Nat.succ_eq_add_one] at this
        omega
      rw [hsk, List.drop_succ_cons]
      exact hq2
    · rw [e] at hu hn ⊢
      obtain ⟨qs, hq1, hq2⟩ := ih hc' s 1 zero_le_one hcc d hd hdc
      refine ⟨1 :: qs, by simp only [hq1, Option.map_some, Crit.perc], ?_⟩
      have hsk : skipsLeft s = 0 := by unfold skipsLeft; rw [if_neg e2]
      rw [hsk, List.drop_zero] at hq2 ⊢
      intro q hq
      rcases List.mem_cons.1 hq with rfl | hq
      · rfl
      · exact hq2 q hq
    · rw [hd, Option.some.injEq] at e1
      subst e1
      exact absurd hdc e2

theorem percTrace_length (raw : S → ℝ → A → Option (ℝ × S)) (as : List A) (c : Crit S ℝ) (qs : List ℝ) (h : percTrace raw as c = some qs) :
    qs.length = as.length := by
  induction as generalizing c qs with
  | nil => simp only [percTrace, Option.some.injEq] at h; subst h; rfl
  | cons a as ih =>
    rw [percTrace] at h
    cases hu : Crit.update raw a c with
    | none => rw [hu] at h; simp at h
    | some d =>
      rw [hu] at h
      dsimp only at h
      rw [Option.map_eq_some_iff] at h
      obtain ⟨l, hl, rfl⟩ := h
      simp [ih d l hl]

theorem percTrace_append (raw : S → ℝ → A → Option (ℝ × S)) (as bs : List A) (c : Crit S ℝ) (qs : List ℝ)
    (h : percTrace raw (as ++ bs) c = some qs) :
    ∃ d q1 q2, Crit.updates raw as c = some d ∧ percTrace raw as c = some q1 ∧ percTrace raw bs d = some q2 ∧ qs = q1 ++ q2 := by
  induction as generalizing c qs with
  | nil => exact ⟨c, [], qs, rfl, rfl, h, rfl⟩
  | cons a as ih =>
    rw [List.cons_append, percTrace] at h
    cases hu : Crit.update raw a c with
    | none => rw [hu] at h; simp at h
    | some d =>
      rw [hu] at h
      dsimp only at h
      rw [Option.map_eq_some_iff] at h
      obtain ⟨l, hl, rfl⟩ := h
      obtain ⟨d', q1, q2, h1, h2, h3, rfl⟩ := ih d l hl
      exact ⟨d', d.perc :: q1, q2, by simp [Crit.updates, hu, h1], by simp [percTrace, hu, h2], h3, rfl⟩

/-- The states a tolerance criterion can reach: the settings stay. -/
theorem prim_updates (raw : S → ℝ → A → Option (ℝ × S)) (delta : D → D → WithTop ℝ) (inj : DeltaState D ℝ → S) (dat : A → D)
    (h : IsDelta raw delta inj dat) (as : List A) (s : DeltaState D ℝ) (perc : ℝ) (hp : 0 ≤ perc) :
    ∃ s' p', Crit.updates raw as (.prim false perc (inj s)) = some (.prim false p' (inj s')) ∧ 0 ≤ p' ∧ s'.tol = s.tol ∧ s'.nSkip = s.nSkip := by
  induction as generalizing s perc with
  | nil => exact ⟨s, perc, rfl, hp, rfl, rfl⟩
  | cons a as ih =>
    obtain ⟨hu, hn⟩ := prim_step raw delta inj dat h s perc hp a
    obtain ⟨s', p', h1, h2, h3, h4⟩ := ih (deltaUpdate delta s perc (dat a)).2 _ hn
    refine ⟨s', p', by simp only [Crit.updates, hu]; exact h1, h2, ?_, ?_⟩
    · rw [h3]
      rcases deltaUpdate_cases delta s perc (dat a) with ⟨-, e⟩ | ⟨_, -, -, e⟩ | ⟨_, -, -, -, e⟩ | ⟨_, -, -, -, q, -, -, -, e⟩ <;> rw [e]
    · rw [h4]
      rcases deltaUpdate_cases delta s perc (dat a) with ⟨-, e⟩ | ⟨_, -, -, e⟩ | ⟨_, -, -, -, e⟩ | ⟨_, -, -, -, q, -, -, -, e⟩ <;> rw [e]

theorem skipsLeft_le (s : DeltaState D ℝ) : skipsLeft s ≤ s.nSkip := by
  unfold skipsLeft
  split_ifs with h
  · omega
  · omega

/-- From any state: once the data stay the same, at most `n_skip + 1` updates record a progress other than 1. -/
theorem const_trace (raw : S → ℝ → A → Option (ℝ × S)) (delta : D → D → WithTop ℝ) (inj : DeltaState D ℝ → S) (dat : A → D)
    (h : IsDelta raw delta inj dat) (c : D) (as : List A) (hc : ∀ a ∈ as, dat a = c) (s : DeltaState D ℝ) (perc : ℝ) (hp : 0 ≤ perc)
    (hcc : delta c c ≤ (s.tol : WithTop ℝ)) :
    ∃ qs, percTrace raw as (.prim false perc (inj s)) = some qs ∧ ∀ q ∈ qs.drop (s.nSkip + 1), q = 1 := by
  cases as with
  | nil => exact ⟨[], rfl, by simp⟩
  | cons a as =>
    obtain ⟨hu, hn⟩ := prim_step raw delta inj dat h s perc hp a
    rw [hc a (List.mem_cons_self ..)] at hu hn
    have hc' : ∀ a ∈ as, dat a = c := fun a ha => hc a (List.mem_cons_of_mem _ ha)
    rw [percTrace, hu]
    dsimp only
    have go : ∀ (s' : DeltaState D ℝ) (p' : ℝ), 0 ≤ p' → s'.tol = s.tol → s'.nSkip = s.nSkip → (∃ d, s'.data = some d ∧ delta d c ≤ (s'.tol : WithTop ℝ)) →
        ∃ qs, Option.map (fun x => Crit.perc (.prim false p' (inj s')) :: x) (percTrace raw as (.prim false p' (inj s'))) = some qs ∧
          ∀ q ∈ qs.drop (s.nSkip + 1), q = 1 := by
      rintro s' p' hp' ht hk ⟨d, hd, hdc⟩
      obtain ⟨qs, h1, h2⟩ := const_good raw delta inj dat h c as hc' s' p' hp' (by rw [ht]; exact hcc) d hd hdc
      refine ⟨_ :: qs, by rw [h1]; rfl, ?_⟩
      rw [List.drop_succ_cons]
      intro q hq
      refine h2 q ?_
      have : s.nSkip = skipsLeft s' + (s.nSkip - skipsLeft s') := by have := skipsLeft_le s'; omega
      rw [this, ← List.drop_drop] at hq
      exact List.mem_of_mem_drop hq
    rcases deltaUpdate_cases delta s perc c with ⟨e1, e⟩ | ⟨prev, e1, e2, e⟩ | ⟨prev, e1, e2, e3, e⟩ | ⟨prev, e1, -, e2, q, hq0, -, -, e⟩
    · rw [e]; exact go _ _ le_rfl rfl rfl ⟨c, rfl, hcc⟩
    · rw [e]; exact go _ _ hp rfl rfl ⟨c, rfl, hcc⟩
    · rw [e]; exact go _ _ zero_le_one rfl rfl ⟨prev, e1, e3⟩
    · rw [e]; exact go _ _ hq0 rfl rfl ⟨c, rfl, hcc⟩

/-- A robust tolerance criterion terminates when the data have not changed for `period + n_skip + 1` updates. -/
theorem robust_const (raw : S → ℝ → A → Option (ℝ × S)) (delta : D → D → WithTop ℝ) (inj : DeltaState D ℝ → S) (dat : A → D)
    (h : IsDelta raw delta inj dat) (c : D) (pre suf : List A) (hc : ∀ a ∈ suf, dat a = c) (s : DeltaState D ℝ)
    (hcc : delta c c ≤ (s.tol : WithTop ℝ)) (p : ℕ) (hlen : p + s.nSkip + 1 ≤ suf.length) (r : Crit S ℝ)
    (hr : Crit.updates raw (pre ++ suf) (.robust false 0 (some p) [] (.prim false 0 (inj s))) = some r) : r.hasTerminated = true := by
  have hne : pre ++ suf ≠ [] := by
    intro he
    have : suf = [] := (List.append_eq_nil_iff.1 he).2
    subst this; simp at hlen
  obtain ⟨qs, h1, h2, h3⟩ := C43_robust_window raw p (pre ++ suf) hne 0 _ r hr
  obtain ⟨d, q1, q2, e1, -, e3, rfl⟩ := percTrace_append raw pre suf _ qs h1
  obtain ⟨s', p', u1, u2, u3, u4⟩ := prim_updates raw delta inj dat h pre s 0 le_rfl
  rw [e1, Option.some.injEq] at u1
  subst u1
  obtain ⟨q2', t1, t2⟩ := const_trace raw delta inj dat h c suf hc s' p' u2 (by rw [u3]; exact hcc)
  rw [e3, Option.some.injEq] at t1
  subst t1
  have hl2 := percTrace_length raw suf _ q2 e3
  rw [h3]
  intro x hx
  rw [List.length_append, List.drop_append] at hx
  have e0 : q1.drop (q1.length + q2.length - p) = [] := List.drop_eq_nil_of_le (by omega)
  rw [e0, List.nil_append] at hx
  refine (t2 x ?_).ge
  have : q1.length + q2.length - p - q1.length = s'.nSkip + 1 + (q2.length - p - (s'.nSkip + 1)) := by rw [u4]; omega
  rw [this, ← List.drop_drop] at hx
  exact List.mem_of_mem_drop hx

/-- A robust criterion whose first progress is below 1 does not terminate within the first `period` updates. -/
theorem robust_first (raw : S → ℝ → A → Option (ℝ × S)) (p : ℕ) (a : A) (as : List A) (hlen : (a :: as).length ≤ p) (c c1 r : Crit S ℝ)
    (hu : Crit.update raw a c = some c1) (h1 : c1.perc < 1)
    (h : Crit.updates raw (a :: as) (.robust false 0 (some p) [] c) = some r) : r.hasTerminated = false := by
  obtain ⟨qs, t1, t2, t3⟩ := C43_robust_window raw p (a :: as) (by simp) 0 c r h
  rw [percTrace, hu] at t1
  dsimp only at t1
  rw [Option.map_eq_some_iff] at t1
  obtain ⟨qs', -, rfl⟩ := t1
  by_contra hne
  rw [Bool.not_eq_false] at hne
  have := t3.1 hne c1.perc (by
    rw [show (c1.perc :: qs').length - p = 0 by rw [t2]; omega]
    simp)
  exact absurd this (not_le.2 h1)

/-- A tolerance criterion that always sees an infinite change never records any progress. -/
theorem top_trace (raw : S → ℝ → A → Option (ℝ × S)) (delta : D → D → WithTop ℝ) (inj : DeltaState D ℝ → S) (dat : A → D)
    (h : IsDelta raw delta inj dat) (as : List A) (bad : D → Prop) (hb : ∀ a ∈ as, bad (dat a)) (htop : ∀ d e, bad d → bad e → delta d e = ⊤)
    (s : DeltaState D ℝ) (hs : ∀ d, s.data = some d → bad d) (qs : List ℝ) (ht : percTrace raw as (.prim false 0 (inj s)) = some qs) :
    ∀ q ∈ qs, q = 0 := by
  induction as generalizing s qs with
  | nil => simp only [percTrace, Option.some.injEq] at ht; subst ht; simp
  | cons a as ih =>
    obtain ⟨hu, hn⟩ := prim_step raw delta inj dat h s 0 le_rfl a
    rw [percTrace, hu] at ht
    dsimp only at ht
    rw [Option.map_eq_some_iff] at ht
    obtain ⟨l, hl, rfl⟩ := ht
    have hb' : ∀ a ∈ as, bad (dat a) := fun a ha => hb a (List.mem_cons_of_mem _ ha)
    have hba := hb a (List.mem_cons_self ..)
    have key : (deltaUpdate delta s 0 (dat a)).1 = 0 ∧ ∀ d, (deltaUpdate delta s 0 (dat a)).2.data = some d → bad d := by
      rcases deltaUpdate_cases delta s 0 (dat a) with ⟨-, e⟩ | ⟨_, -, -, e⟩ | ⟨prev, e1, -, e2, e⟩ | ⟨prev, e1, -, -, q, -, -, e3, e⟩ <;> rw [e]
      · exact ⟨rfl, by rintro d ⟨⟩; exact hba⟩
      · exact ⟨rfl, by rintro d ⟨⟩; exact hba⟩
      · rw [htop prev (dat a) (hs prev e1) hba] at e2
        exact absurd e2 (by simp)
      · exact ⟨e3 (htop prev (dat a) (hs prev e1) hba), by rintro d ⟨⟩; exact hba⟩
    rw [key.1] at hl ⊢
    intro q hq
    rcases List.mem_cons.1 hq with rfl | hq
    · rfl
    · exact ih hb' _ key.2 l hl q hq

end Delta

/-! ## the default terminations -/

section Default

variable {m n : ℕ} (mooF : Moocore (m + 1)) (mooX : Moocore n) (isInt : Bool) (bounds : Option ((Fin n → ℝ) × (Fin n → ℝ)))

theorem isDelta_x : IsDelta (defRaw mooF mooX isInt bounds) (xDelta mooX) .x fun a => xData isInt bounds a.X := fun _ _ _ => rfl

theorem isDelta_f : IsDelta (defRaw mooF mooX isInt bounds) soDelta .f fun a => soData true (a.F.map fun e => (e.1 0, e.2)) := fun _ _ _ => rfl

theorem isDelta_fm : IsDelta (defRaw mooF mooX isInt bounds) (moDelta mooF) .fm fun a => moData true a.F := fun _ _ _ => rfl

/-- A limit that can be used: none, infinite, or at least 1. -/
def UsableLimit : Limit → Prop
  | .fin 0 => False
  | _ => True

/-- The counter has reached the limit. -/
def LimitReached (counter : ℕ) : Limit → Prop
  | .fin k => k ≤ counter
  | _ => False

theorem limit_step (counter : ℕ) (l : Limit) (hl : UsableLimit l) :
    ∃ p : ℝ, limitProgress counter l = some p ∧ 0 ≤ p ∧ (1 ≤ p ↔ LimitReached counter l) := by
  cases l with
  | none => exact ⟨0, rfl, le_rfl, by simp [LimitReached]⟩
  | inf => exact ⟨0, rfl, le_rfl, by simp [LimitReached]⟩
  | fin k =>
    cases k with
    | zero => exact absurd hl (by simp [UsableLimit])
    | succ k =>
      refine ⟨_, rfl, by positivity, ?_⟩
      rw [le_div_iff₀ (by positivity), one_mul]
      simp only [LimitReached]
      exact_mod_cast Iff.rfl

/-- Which states and limits occur in a default termination. -/
def UsableState : DefState m n → Prop
  | .gen l => UsableLimit l
  | .evals l => UsableLimit l
  | _ => True

theorem defPrim_step (s : DefState m n) (hs : UsableState s) (q : ℝ) (hq : 0 ≤ q) (a : Snap m n) :
    ∃ q' s', Crit.update (defRaw mooF mooX isInt bounds) a (.prim false q s) = some (.prim false q' s') ∧ 0 ≤ q' ∧ UsableState s' := by
  cases s with
  | x s =>
    obtain ⟨h1, h2⟩ := prim_step _ _ _ _ (isDelta_x mooF mooX isInt bounds) s q hq a
    exact ⟨_, _, h1, h2, trivial⟩
  | f s =>
    obtain ⟨h1, h2⟩ := prim_step _ _ _ _ (isDelta_f mooF mooX isInt bounds) s q hq a
    exact ⟨_, _, h1, h2, trivial⟩
  | fm s =>
    obtain ⟨h1, h2⟩ := prim_step _ _ _ _ (isDelta_fm mooF mooX isInt bounds) s q hq a
    exact ⟨_, _, h1, h2, trivial⟩
  | cv s =>
    have hn : 0 ≤ (cvUpdate false a.hasConstr (a.F.any Prod.snd) s q a.cv).1 := by
      unfold cvUpdate
      have h00 : (0 : ℝ) ≤ (if (false : Bool) = true then (1 : ℝ) else 0) := by simp
      split_ifs <;> try first | exact le_refl (0 : ℝ) | exact absurd ‹(false : Bool) = true› (by decide) | exact absurd ‹False› id
      rcases deltaUpdate_cases (fun p c : ℝ => ((max 0 (p - c) : ℝ) : WithTop ℝ)) s q a.cv with
        ⟨-, e⟩ | ⟨_, -, -, e⟩ | ⟨_, -, -, -, e⟩ | ⟨_, -, -, -, q, h0, -, -, e⟩ <;> rw [e]
      · exact hq
      · exact zero_le_one
      · exact h0
    refine ⟨(cvUpdate false a.hasConstr (a.F.any Prod.snd) s q a.cv).1, .cv (cvUpdate false a.hasConstr (a.F.any Prod.snd) s q a.cv).2,
      ?_, hn, trivial⟩
    rw [Crit.update]; simp [defRaw, hn]
  | gen l =>
    obtain ⟨p, h1, h2, -⟩ := limit_step a.nGen l hs
    exact ⟨p, .gen l, by rw [Crit.update]; simp [defRaw, h1, h2], h2, hs⟩
  | evals l =>
    obtain ⟨p, h1, h2, -⟩ := limit_step a.nEval l hs
    exact ⟨p, .evals l, by rw [Crit.update]; simp [defRaw, h1, h2], h2, hs⟩

theorem pyMin_nonneg (l : List ℝ) (hl : l ≠ []) (h : ∀ x ∈ l, 0 ≤ x) : ∃ v, Crit.pyMin l = some v ∧ 0 ≤ v := by
  cases hv : Crit.pyMin l with
  | none => cases l with
    | nil => exact absurd rfl hl
    | cons x xs => simp [Crit.pyMin] at hv
  | some v => exact ⟨v, rfl, h v (pyMin_spec _ _ hv).1⟩

/-- Members of a default termination: a usable primitive criterion, or such a criterion made robust. -/
inductive Member (p : ℕ) : Crit (DefState m n) ℝ → Prop
  | prim (q : ℝ) (s : DefState m n) : 0 ≤ q → UsableState s → Member p (.prim false q s)
  | robust (q : ℝ) (h : List ℝ) (q' : ℝ) (s : DefState m n) : 0 ≤ q → (∀ x ∈ h, 0 ≤ x) → 0 ≤ q' → UsableState s →
      Member p (.robust false q (some p) h (.prim false q' s))

theorem member_step {p : ℕ} (hp : 0 < p) (c : Crit (DefState m n) ℝ) (hc : Member p c) (a : Snap m n) :
    ∃ c', Crit.update (defRaw mooF mooX isInt bounds) a c = some c' ∧ Member p c' ∧ 0 ≤ c'.perc := by
  cases hc with
  | prim q s hq hs =>
    obtain ⟨q', s', h1, h2, h3⟩ := defPrim_step mooF mooX isInt bounds s hs q hq a
    exact ⟨_, h1, .prim q' s' h2 h3, h2⟩
  | robust q h q' s hq hh hq' hs =>
    obtain ⟨q1, s1, h1, h2, h3⟩ := defPrim_step mooF mooX isInt bounds s hs q' hq' a
    have hne : swAppend (some p) h q1 ≠ [] := List.ne_nil_of_mem (mem_swAppend_last (some p) (by simp; omega) h q1)
    have hnn : ∀ x ∈ swAppend (some p) h q1, 0 ≤ x := by
      intro x hx
      simp only [swAppend, swTrim_eq] at hx
      have := List.mem_of_mem_drop hx
      rw [List.mem_append, List.mem_singleton] at this
      rcases this with h | rfl
      · exact hh x h
      · exact h2
    obtain ⟨v, hv, hv0⟩ := pyMin_nonneg _ hne hnn
    refine ⟨.robust false v (some p) (swAppend (some p) h q1) (.prim false q1 s1), ?_, .robust v _ q1 s1 hv0 hnn h2 h3, hv0⟩
    rw [Crit.update]
    simp [h1, Crit.perc, hv, hv0]

theorem members_step {p : ℕ} (hp : 0 < p) (cs : List (Crit (DefState m n) ℝ)) (hc : ∀ c ∈ cs, Member p c) (a : Snap m n) :
    ∃ cs', Crit.updateAll (defRaw mooF mooX isInt bounds) a cs = some cs' ∧ cs'.length = cs.length ∧ ∀ c ∈ cs', Member p c ∧ 0 ≤ c.perc := by
  induction cs with
  | nil => exact ⟨[], by rw [Crit.updateAll], rfl, by simp⟩
  | cons c cs ih =>
    obtain ⟨c', h1, h2, h3⟩ := member_step mooF mooX isInt bounds hp c (hc c (List.mem_cons_self ..)) a
    obtain ⟨cs', h4, h5, h6⟩ := ih fun d hd => hc d (List.mem_cons_of_mem _ hd)
    refine ⟨c' :: cs', by rw [Crit.updateAll, h1]; simp [h4], by simp [h5], ?_⟩
    intro d hd
    rcases List.mem_cons.1 hd with rfl | hd
    · exact ⟨h2, h3⟩
    · exact h6 d hd

theorem default_updates {p : ℕ} (hp : 0 < p) (as : List (Snap m n)) (q : ℝ) (cs : List (Crit (DefState m n) ℝ)) (hne : cs ≠ [])
    (hc : ∀ c ∈ cs, Member p c) : ∃ r, Crit.updates (defRaw mooF mooX isInt bounds) as (.any false q cs) = some r := by
  induction as generalizing q cs with
  | nil => exact ⟨_, rfl⟩
  | cons a as ih =>
    obtain ⟨cs', h1, h2, h3⟩ := members_step mooF mooX isInt bounds hp cs hc a
    have hne' : cs' ≠ [] := by intro h; rw [h] at h2; exact hne (List.length_eq_zero_iff.1 h2.symm)
    cases hv : Crit.pyMax (cs'.map Crit.perc) with
    | none => cases cs' with
      | nil => exact absurd rfl hne'
      | cons x xs => simp [Crit.pyMax] at hv
    | some v =>
      have hv0 : 0 ≤ v := by
        obtain ⟨c, hc, e⟩ := List.mem_map.1 (pyMax_spec _ _ hv).1
        rw [← e]; exact (h3 c hc).2
      obtain ⟨r, hr⟩ := ih v cs' hne' fun c hc => (h3 c hc).1
      refine ⟨r, ?_⟩
      simp only [Crit.updates]
      rw [Crit.update]
      simp only [Bool.false_eq_true, if_false, h1, hv, hv0, if_true]
      exact hr

/-- The two kinds of default terminations. -/
structure IsDefault (period nSkip : ℕ) (xtol cvtol ftol : ℝ) (maxGen maxEvals : Limit) (t : Crit (DefState m n) ℝ) : Prop where
  kind : (nSkip = 0 ∧ t = defaultSingle xtol cvtol ftol period maxGen maxEvals) ∨ t = defaultMulti xtol cvtol ftol nSkip period maxGen maxEvals
  period : 0 < period
  gen : UsableLimit maxGen
  evals : UsableLimit maxEvals

variable {period nSkip : ℕ} {xtol cvtol ftol : ℝ} {maxGen maxEvals : Limit} {t : Crit (DefState m n) ℝ}

theorem IsDefault.shape (h : IsDefault period nSkip xtol cvtol ftol maxGen maxEvals t) :
    ∃ f, (f = .f ⟨ftol, none, 0, nSkip⟩ ∨ f = .fm ⟨ftol, none, 0, nSkip⟩) ∧
      t = defaultTermination period (.x ⟨xtol, none, 0, nSkip⟩) (.cv ⟨cvtol, none, 0, nSkip⟩) f maxGen maxEvals := by
  rcases h.kind with ⟨rfl, rfl⟩ | rfl
  · exact ⟨_, .inl rfl, rfl⟩
  · exact ⟨_, .inr rfl, rfl⟩

/-- **C108 (never raises).** Updating a default termination never raises, whatever the run looks like. -/
theorem C108_total (h : IsDefault period nSkip xtol cvtol ftol maxGen maxEvals t) (as : List (Snap m n)) :
    ∃ r, Crit.updates (defRaw mooF mooX isInt bounds) as t = some r := by
  obtain ⟨f, hf, rfl⟩ := h.shape
  refine default_updates mooF mooX isInt bounds h.period as 0 _ (by simp) ?_
  intro c hc
  have hfu : UsableState f := by rcases hf with rfl | rfl <;> trivial
  simp only [List.mem_cons, List.not_mem_nil, or_false] at hc
  rcases hc with rfl | rfl | rfl | rfl | rfl
  · exact .robust _ _ _ _ le_rfl (by simp) le_rfl trivial
  · exact .robust _ _ _ _ le_rfl (by simp) le_rfl trivial
  · exact .robust _ _ _ _ le_rfl (by simp) le_rfl hfu
  · exact .prim _ _ le_rfl h.gen
  · exact .prim _ _ le_rfl h.evals

theorem limit_updates (l : Limit) (hl : UsableLimit l) (get : Snap m n → ℕ) (mk : Limit → DefState m n)
    (hraw : ∀ q a, defRaw mooF mooX isInt bounds (mk l) q a = (limitProgress (get a) l).map fun p => (p, mk l)) (as : List (Snap m n)) (last : Snap m n)
    (q : ℝ) (r : Crit (DefState m n) ℝ) (h : Crit.updates (defRaw mooF mooX isInt bounds) (as ++ [last]) (.prim false q (mk l)) = some r) :
    r.hasTerminated = true ↔ LimitReached (get last) l := by
  induction as generalizing q with
  | nil =>
    obtain ⟨p, h1, h2, h3⟩ := limit_step (get last) l hl
    simp only [List.nil_append, Crit.updates] at h
    rw [Crit.update] at h
    simp [hraw, h1, h2] at h
    subst h
    rw [hasTerminated_iff]; exact h3
  | cons a as ih =>
    obtain ⟨p, h1, h2, h3⟩ := limit_step (get a) l hl
    simp only [List.cons_append, Crit.updates] at h
    rw [Crit.update] at h
    simp [hraw, h1, h2] at h
    exact ih p h

/-- **C108 (limits).** A run with a default termination ends at the latest when the number of generations or of evaluations reaches
its limit. -/
theorem C108_limits (h : IsDefault period nSkip xtol cvtol ftol maxGen maxEvals t) (as : List (Snap m n)) (last : Snap m n)
    (hlim : LimitReached last.nGen maxGen ∨ LimitReached last.nEval maxEvals) (r : Crit (DefState m n) ℝ)
    (hr : Crit.updates (defRaw mooF mooX isInt bounds) (as ++ [last]) t = some r) : r.hasTerminated = true := by
  obtain ⟨f, hf, rfl⟩ := h.shape
  obtain ⟨q, cs', -, hF, hT⟩ := any_updates _ (as ++ [last]) (by simp) 0 _ r hr
  rw [hT]
  obtain ⟨c1, l1, h1, hF1, rfl⟩ := List.forall₂_cons_left_iff.1 hF
  obtain ⟨c2, l2, h2, hF2, rfl⟩ := List.forall₂_cons_left_iff.1 hF1
  obtain ⟨c3, l3, h3, hF3, rfl⟩ := List.forall₂_cons_left_iff.1 hF2
  obtain ⟨c4, l4, h4, hF4, rfl⟩ := List.forall₂_cons_left_iff.1 hF3
  obtain ⟨c5, l5, h5, hF5, rfl⟩ := List.forall₂_cons_left_iff.1 hF4
  rcases hlim with hl | hl
  · exact ⟨c4, by simp, (limit_updates mooF mooX isInt bounds maxGen h.gen (·.nGen) .gen (fun _ _ => rfl) as last 0 c4 h4).2 hl⟩
  · exact ⟨c5, by simp, (limit_updates mooF mooX isInt bounds maxEvals h.evals (·.nEval) .evals (fun _ _ => rfl) as last 0 c5 h5).2 hl⟩

/-- **C108 (not too early).** Within the first `period` generations a default termination ends a run only because of a limit. -/
theorem C108_not_before (h : IsDefault period nSkip xtol cvtol ftol maxGen maxEvals t) (as : List (Snap m n)) (last : Snap m n)
    (hlen : as.length + 1 ≤ period) (r : Crit (DefState m n) ℝ)
    (hr : Crit.updates (defRaw mooF mooX isInt bounds) (as ++ [last]) t = some r) (ht : r.hasTerminated = true) :
    LimitReached last.nGen maxGen ∨ LimitReached last.nEval maxEvals := by
  obtain ⟨f, hf, rfl⟩ := h.shape
  obtain ⟨q, cs', -, hF, hT⟩ := any_updates _ (as ++ [last]) (by simp) 0 _ r hr
  rw [hT] at ht
  obtain ⟨c1, l1, h1, hF1, rfl⟩ := List.forall₂_cons_left_iff.1 hF
  obtain ⟨c2, l2, h2, hF2, rfl⟩ := List.forall₂_cons_left_iff.1 hF1
  obtain ⟨c3, l3, h3, hF3, rfl⟩ := List.forall₂_cons_left_iff.1 hF2
  obtain ⟨c4, l4, h4, hF4, rfl⟩ := List.forall₂_cons_left_iff.1 hF3
  obtain ⟨c5, l5, h5, hF5, rfl⟩ := List.forall₂_cons_left_iff.1 hF4
  cases hF5
  obtain ⟨a, rest, hrest⟩ : ∃ a rest, as ++ [last] = a :: rest := by
    cases as with
    | nil => exact ⟨last, [], rfl⟩
    | cons a as => exact ⟨a, as ++ [last], rfl⟩
  have hl : (a :: rest).length ≤ period := by rw [← hrest]; simpa using hlen
  rw [hrest] at h1 h2 h3
  have n1 : c1.hasTerminated = false := robust_first _ period a rest hl _ (.prim false 0 (.x ⟨xtol, some (xData isInt bounds a.X), 1, nSkip⟩)) c1
    (by rw [Crit.update]; simp [defRaw, deltaUpdate]) (by simp [Crit.perc]) h1
  have n3 : c3.hasTerminated = false := by
    rcases hf with rfl | rfl
    · exact robust_first _ period a rest hl _ (.prim false 0 (.f ⟨ftol, some (soData true (a.F.map fun e => (e.1 0, e.2))), 1, nSkip⟩)) c3 (by rw [Crit.update]; simp [defRaw, deltaUpdate])
        (by simp [Crit.perc]) h3
    · exact robust_first _ period a rest hl _ (.prim false 0 (.fm ⟨ftol, some (moData true a.F), 1, nSkip⟩)) c3 (by rw [Crit.update]; simp [defRaw, deltaUpdate])
        (by simp [Crit.perc]) h3
  have n2 : c2.hasTerminated = false := by
    obtain ⟨s', hs'⟩ : ∃ s', cvUpdate false a.hasConstr (a.F.any Prod.snd) ⟨cvtol, none, 0, nSkip⟩ 0 a.cv = (0, s') := by
      unfold cvUpdate
      split_ifs <;> first | exact absurd ‹False› id | exact ⟨_, rfl⟩
    refine robust_first _ period a rest hl _ (.prim false 0 (.cv s')) c2 ?_ (by simp [Crit.perc]) h2
    rw [Crit.update]
    simp [defRaw, hs']
  obtain ⟨c, hc, htc⟩ := ht
  simp only [List.mem_cons, List.not_mem_nil, or_false] at hc
  rcases hc with rfl | rfl | rfl | rfl | rfl
  · rw [n1] at htc; cases htc
  · rw [n2] at htc; cases htc
  · rw [n3] at htc; cases htc
  · exact .inl ((limit_updates mooF mooX isInt bounds maxGen h.gen (·.nGen) .gen (fun _ _ => rfl) as last 0 _ h4).1 htc)
  · exact .inr ((limit_updates mooF mooX isInt bounds maxEvals h.evals (·.nEval) .evals (fun _ _ => rfl) as last 0 _ h5).1 htc)

theorem igdOf_self {d : ℕ} (moo : Moocore d) (hmoo : MooIgdContract moo) (X : List (Fin d → ℝ)) (hX : X ≠ []) : igdOf moo X X = ((0 : ℝ) : WithTop ℝ) := by
  obtain ⟨I, hI⟩ := (C59_accepts ({ pf := X } : DistArgs d)).2 ⟨hX, by simp⟩
  unfold igdOf
  have hu : ProperUnits ({ pf := X } : DistArgs d) := by
    rintro s ⟨lo, hi, -, hs⟩ k
    rw [hs k]; simp
  have := ((C59_zero_iff moo hmoo _ I hI hu X hX).2.1).2 fun z hz => hz
  simp only [hI, Option.bind_some, this]

/-- **C108 (stagnation).** As soon as the variables of the optimum have not changed for `period + n_skip + 1` generations, a default
termination ends the run (tolerances are not negative). -/
theorem C108_stagnation (hmoo : MooIgdContract mooX) (h : IsDefault period nSkip xtol cvtol ftol maxGen maxEvals t) (hx : 0 ≤ xtol)
    (pre suf : List (Snap m n)) (X : List (Fin n → ℝ)) (hX : X ≠ []) (hsuf : ∀ a ∈ suf, a.X = some X) (hlen : period + nSkip + 1 ≤ suf.length)
    (r : Crit (DefState m n) ℝ) (hr : Crit.updates (defRaw mooF mooX isInt bounds) (pre ++ suf) t = some r) : r.hasTerminated = true := by
  obtain ⟨f, hf, rfl⟩ := h.shape
  have hne : pre ++ suf ≠ [] := by
    intro he
    have : suf = [] := (List.append_eq_nil_iff.1 he).2
    subst this; simp at hlen
  obtain ⟨q, cs', -, hF, hT⟩ := any_updates _ (pre ++ suf) hne 0 _ r hr
  obtain ⟨c1, l1, h1, hF1, rfl⟩ := List.forall₂_cons_left_iff.1 hF
  rw [hT]
  refine ⟨c1, by simp, ?_⟩
  refine robust_const _ _ _ _ (isDelta_x mooF mooX isInt bounds) (xData isInt bounds (some X)) pre suf (fun a ha => by rw [hsuf a ha])
    ⟨xtol, none, 0, nSkip⟩ ?_ period hlen c1 h1
  simp only [xData, Option.map_some, xDelta]
  rw [igdOf_self mooX hmoo _ (by simpa using hX)]
  exact_mod_cast hx

/-! ### when the objective-space criterion counts a generation as converged -/

/-- **C108 (one objective).** A change is counted as significant exactly if the best feasible value has improved by more than the
tolerance; becoming worse never counts as a change, and without a feasible solution in both generations the change is infinite. -/
theorem C108_single_delta (prev cur : List (ℝ × Bool)) (tol : ℝ) (htol : 0 ≤ tol) :
    (soDelta (soData true prev) (soData true cur) ≤ (tol : WithTop ℝ) ↔
      ∃ p c, IsLeast {v | (v, true) ∈ prev} p ∧ IsLeast {v | (v, true) ∈ cur} c ∧ p ≤ c + tol) := by
  have key : ∀ l : List (ℝ × Bool), (soData true l = ⊤ ∧ ∀ v, (v, true) ∉ l) ∨
      ∃ v : ℝ, soData true l = (v : WithTop ℝ) ∧ IsLeast {v | (v, true) ∈ l} v := by
    intro l
    unfold soData
    simp only [if_true]
    have hmem : ∀ v, v ∈ (l.filter Prod.snd).map Prod.fst ↔ (v, true) ∈ l := by
      intro v
      rw [List.mem_map]
      constructor
      · rintro ⟨⟨w, b⟩, h1, h2⟩
        obtain ⟨h3, h4⟩ := List.mem_filter.1 h1
        have h4' : b = true := h4
        have h2' : w = v := h2
        subst h4' h2'
        exact h3
      · intro h; exact ⟨(v, true), List.mem_filter.2 ⟨h, rfl⟩, rfl⟩
    cases hm : ((l.filter Prod.snd).map Prod.fst).min? with
    | none =>
      left
      rw [List.min?_eq_none_iff] at hm
      refine ⟨rfl, fun v hv => ?_⟩
      have := (hmem v).2 hv
      rw [hm] at this; simp at this
    | some v =>
      right
      refine ⟨v, rfl, ?_⟩
      rw [List.min?_eq_some_iff] at hm
      refine ⟨(hmem v).1 hm.1, fun w hw => ?_⟩
      exact hm.2 w ((hmem w).2 hw)
  rcases key prev with ⟨e1, n1⟩ | ⟨p, e1, l1⟩
  · rw [e1]
    constructor
    · intro h
      exact absurd h (by cases soData true cur <;> simp [soDelta])
    · rintro ⟨p, -, hp, -⟩; exact absurd hp.1 (n1 p)
  · rcases key cur with ⟨e2, n2⟩ | ⟨c, e2, l2⟩
    · rw [e1, e2]
      constructor
      · intro h; exact absurd h (by simp [soDelta])
      · rintro ⟨_, c, -, hc, -⟩; exact absurd hc.1 (n2 c)
    · rw [e1, e2]
      simp only [soDelta, WithTop.coe_le_coe, max_le_iff]
      constructor
      · rintro ⟨-, h⟩; exact ⟨p, c, l1, l2, by linarith⟩
      · rintro ⟨p', c', hp', hc', h⟩
        obtain rfl := hp'.unique l1
        obtain rfl := hc'.unique l2
        exact ⟨htol, by linarith⟩

/-- The feasible objective vectors. -/
def feasibleF (l : List ((Fin (m + 1) → ℝ) × Bool)) : List (Fin (m + 1) → ℝ) := (l.filter Prod.snd).map Prod.fst

theorem moData_some (l : List ((Fin (m + 1) → ℝ) × Bool)) (h : feasibleF l ≠ []) :
    ∃ lo hi, FrontRange (feasibleF l) lo hi ∧ moData true l = some ⟨lo, hi, feasibleF l⟩ := by
  obtain ⟨lo, hlo⟩ := ptMin_isSome h
  obtain ⟨hi, hhi⟩ := ptMax_isSome h
  refine ⟨lo, hi, frontRange_of hlo hhi, ?_⟩
  unfold moData
  unfold feasibleF at hlo hhi
  simp [hlo, hhi, feasibleF]

theorem moData_none (l : List ((Fin (m + 1) → ℝ) × Bool)) (h : feasibleF l = []) : moData true l = none := by
  unfold moData
  unfold feasibleF at h
  simp [h, ptMin]

theorem calcDelta_le (a b s : Fin (m + 1) → ℝ) (hs : ∀ k, 0 < s k) (t : ℝ) : calcDeltaNorm a b s ≤ t ↔ ∀ k, |a k - b k| ≤ t * s k := by
  unfold calcDeltaNorm
  rw [Finset.sup'_le_iff]
  simp only [Finset.mem_univ, true_implies]
  refine forall_congr' fun k => ?_
  rw [abs_div, abs_of_pos (hs k), div_le_iff₀ (hs k)]

theorem igdOf_value {d : ℕ} (moo : Moocore d) (hmoo : MooIgdContract moo) (pf F : List (Fin d → ℝ)) (hpf : pf ≠ []) (hF : F ≠ []) :
    igdOf moo pf F = ((invGenDist (euclid fun _ => 1) pf F : ℝ) : WithTop ℝ) := by
  obtain ⟨I, hI⟩ := (C59_accepts ({ pf := pf } : DistArgs d)).2 ⟨hpf, by simp⟩
  obtain ⟨s, hs⟩ := units_exist ({ pf := pf } : DistArgs d) hpf
  have hs1 : s = fun _ => 1 := by
    obtain ⟨lo, hi, -, hs⟩ := hs
    funext k; rw [hs k]; simp
  have := C59_value moo hmoo .igd _ I hI s hs F hF
  subst hs1
  unfold igdOf
  simp only [hI, Option.bind_some, this, textbook]

/-- **C108 (several objectives).** With ranges of at least `1e-32` in all objectives of the current feasible optimum, a generation
counts as converged exactly if the ideal and the nadir point have moved by at most `tol` times the range in every objective, and the
current points are on average at most `tol` away from the previous ones (in units of the ranges). -/
theorem C108_multi_delta (hmoo : MooIgdContract mooF) (prev cur : List ((Fin (m + 1) → ℝ) × Bool)) (tol : ℝ)
    (hp : feasibleF prev ≠ []) (hc : feasibleF cur ≠ []) (plo phi clo chi : Fin (m + 1) → ℝ) (hP : FrontRange (feasibleF prev) plo phi)
    (hC : FrontRange (feasibleF cur) clo chi) (hr : ∀ k, 1 / 10 ^ 32 ≤ chi k - clo k) :
    moDelta mooF (moData true prev) (moData true cur) ≤ (tol : WithTop ℝ) ↔
      (∀ k, |clo k - plo k| ≤ tol * (chi k - clo k)) ∧ (∀ k, |chi k - phi k| ≤ tol * (chi k - clo k)) ∧
      invGenDist (euclid fun k => chi k - clo k) (feasibleF cur) (feasibleF prev) ≤ tol := by
  obtain ⟨plo', phi', hP', ep⟩ := moData_some prev hp
  obtain ⟨clo', chi', hC', ec⟩ := moData_some cur hc
  obtain ⟨rfl, rfl⟩ := frontRange_unique hP hP'
  obtain ⟨rfl, rfl⟩ := frontRange_unique hC hC'
  have hpos : ∀ k, 0 < chi k - clo k := fun k => lt_of_lt_of_le (by positivity) (hr k)
  have hrange : moRange (⟨clo, chi, feasibleF cur⟩ : MoSnap m) = fun k => chi k - clo k := by
    funext k
    unfold moRange
    rw [if_neg (not_lt.2 (hr k))]
  rw [ep, ec]
  simp only [moDelta, max_le_iff, hrange]
  rw [WithTop.coe_le_coe, WithTop.coe_le_coe, calcDelta_le _ _ _ hpos, calcDelta_le _ _ _ hpos,
    igdOf_value mooF hmoo _ _ (by simpa using hc) (by simpa using hp), WithTop.coe_le_coe, and_assoc]
  have hmap : invGenDist (euclid fun _ => 1) ((feasibleF cur).map (indForward (some (clo, chi)))) ((feasibleF prev).map (indForward (some (clo, chi)))) =
      invGenDist (euclid fun k => chi k - clo k) (feasibleF cur) (feasibleF prev) := by
    refine invGenDist_map _ ?_ _ _
    intro x y
    unfold euclid
    congr 1
    refine Finset.sum_congr rfl fun k _ => ?_
    simp only [indForward, if_neg (sub_pos.1 (hpos k)).ne, div_one]
    congr 1
    rw [← sub_div]
    congr 1
    ring
  rw [hmap]

/-- **C108 (variables).** For variables that are not stored as integers, the change of the variables between two generations counts as
insignificant exactly if the mean distance of the current designs to the nearest previous ones, every variable measured in units of
its range, is at most the tolerance. -/
theorem C108_variables_delta (hmoo : MooIgdContract mooX) (lo hi : Fin n → ℝ) (hlt : ∀ k, lo k < hi k) (prev cur : List (Fin n → ℝ)) (tol : ℝ)
    (hp : prev ≠ []) (hc : cur ≠ []) :
    xDelta mooX (xData false (some (lo, hi)) (some prev)) (xData false (some (lo, hi)) (some cur)) ≤ (tol : WithTop ℝ) ↔
      invGenDist (euclid fun k => hi k - lo k) cur prev ≤ tol := by
  have hpos : ∀ k, 0 < hi k - lo k := fun k => sub_pos.2 (hlt k)
  have hd : ∀ l : List (Fin n → ℝ), xData false (some (lo, hi)) (some l) = some (l.map (indForward (some (lo, hi)))) := fun l => rfl
  rw [hd, hd]
  simp only [xDelta]
  rw [igdOf_value mooX hmoo _ _ (by simpa using hc) (by simpa using hp), WithTop.coe_le_coe]
  have hmap : invGenDist (euclid fun _ => 1) (cur.map (indForward (some (lo, hi)))) (prev.map (indForward (some (lo, hi)))) =
      invGenDist (euclid fun k => hi k - lo k) cur prev := by
    refine invGenDist_map _ ?_ _ _
    intro x y
    unfold euclid
    congr 1
    refine Finset.sum_congr rfl fun k _ => ?_
    simp only [indForward, if_neg (hlt k).ne, div_one]
    congr 1
    rw [← sub_div]
    congr 1
    ring
  rw [hmap]

/-- **C108 (units).** The decision does not depend on the units of the objectives: scaling (by positive factors) and shifting the
objectives of both generations changes nothing, as long as no range falls below `1e-32`. -/
theorem C108_units (hmoo : MooIgdContract mooF) (prev cur : List ((Fin (m + 1) → ℝ) × Bool)) (tol : ℝ) (s b : Fin (m + 1) → ℝ) (hs : ∀ k, 0 < s k)
    (hp : feasibleF prev ≠ []) (hc : feasibleF cur ≠ [])
    (hr : ∀ lo hi, FrontRange (feasibleF cur) lo hi → ∀ k, 1 / 10 ^ 32 ≤ hi k - lo k ∧ 1 / 10 ^ 32 ≤ s k * (hi k - lo k)) :
    moDelta mooF (moData true (prev.map fun e => (rescale s b e.1, e.2))) (moData true (cur.map fun e => (rescale s b e.1, e.2))) ≤ (tol : WithTop ℝ) ↔
      moDelta mooF (moData true prev) (moData true cur) ≤ (tol : WithTop ℝ) := by
  have hf : ∀ l : List ((Fin (m + 1) → ℝ) × Bool), feasibleF (l.map fun e => (rescale s b e.1, e.2)) = (feasibleF l).map (rescale s b) := by
    intro l
    unfold feasibleF
    rw [List.filter_map, List.map_map, List.map_map]
    rfl
  obtain ⟨plo, phi, hP, -⟩ := moData_some prev hp
  obtain ⟨clo, chi, hC, -⟩ := moData_some cur hc
  have hP2 := frontRange_rescale (t := b) hs hP
  have hC2 := frontRange_rescale (t := b) hs hC
  rw [C108_multi_delta mooF hmoo prev cur tol hp hc plo phi clo chi hP hC fun k => (hr clo chi hC k).1,
    C108_multi_delta mooF hmoo _ _ tol (by rw [hf]; simpa using hp) (by rw [hf]; simpa using hc) (rescale s b plo) (rescale s b phi)
      (rescale s b clo) (rescale s b chi) (by rw [hf]; exact hP2) (by rw [hf]; exact hC2) (fun k => by
        have := (hr clo chi hC k).2
        simp only [rescale]
        linarith), hf, hf]
  have e1 : ∀ (x y u v : Fin (m + 1) → ℝ) k, |rescale s b x k - rescale s b y k| ≤ tol * (rescale s b u k - rescale s b v k) ↔
      |x k - y k| ≤ tol * (u k - v k) := by
    intro x y u v k
    have a1 : rescale s b x k - rescale s b y k = s k * (x k - y k) := by simp only [rescale]; ring
    have a2 : tol * (rescale s b u k - rescale s b v k) = s k * (tol * (u k - v k)) := by simp only [rescale]; ring
    rw [a1, a2, abs_mul, abs_of_pos (hs k), mul_le_mul_iff_right₀ (hs k)]
  have e2 : invGenDist (euclid fun k => rescale s b chi k - rescale s b clo k) ((feasibleF cur).map (rescale s b)) ((feasibleF prev).map (rescale s b)) =
      invGenDist (euclid fun k => chi k - clo k) (feasibleF cur) (feasibleF prev) := by
    refine invGenDist_map _ ?_ _ _
    intro x y
    unfold euclid
    congr 1
    refine Finset.sum_congr rfl fun k _ => ?_
    have a1 : rescale s b x k - rescale s b y k = s k * (x k - y k) := by simp only [rescale]; ring
    have a2 : rescale s b chi k - rescale s b clo k = s k * (chi k - clo k) := by simp only [rescale]; ring
    show ((rescale s b x k - rescale s b y k) / (rescale s b chi k - rescale s b clo k)) ^ 2 = ((x k - y k) / (chi k - clo k)) ^ 2
    rw [a1, a2, mul_div_mul_left _ _ (hs k).ne']
  rw [e2]
  simp only [e1]

/-- **C108 (no feasible solution).** As long as no generation has a feasible optimum, the objective-space criterion of the default
terminations records no progress. -/
theorem C108_infeasible (f : DefState m n) (hf : f = .f ⟨ftol, none, 0, nSkip⟩ ∨ f = .fm ⟨ftol, none, 0, nSkip⟩)
    (as : List (Snap m n)) (hne : as ≠ []) (hinf : ∀ a ∈ as, ∀ e ∈ a.F, e.2 = false) (hp : 0 < period)
    (r : Crit (DefState m n) ℝ) (hr : Crit.updates (defRaw mooF mooX isInt bounds) as (.robust false 0 (some period) [] (.prim false 0 f)) = some r) :
    r.hasTerminated = false := by
  obtain ⟨qs, t1, t2, t3⟩ := C43_robust_window _ period as hne 0 _ r hr
  have hz : ∀ q ∈ qs, q = 0 := by
    rcases hf with rfl | rfl
    · refine top_trace _ _ _ _ (isDelta_f mooF mooX isInt bounds) as (fun d => d = ⊤) ?_ ?_ _ (by simp) qs t1
      · intro a ha
        have : (a.F.map fun e => (e.1 0, e.2)).filter Prod.snd = [] := by
          rw [List.filter_eq_nil_iff]
          intro e he
          obtain ⟨e', he', rfl⟩ := List.mem_map.1 he
          simp [hinf a ha e' he']
        simp [soData, this]
      · rintro d e rfl rfl; rfl
    · refine top_trace _ _ _ _ (isDelta_fm mooF mooX isInt bounds) as (fun d => d = none) ?_ ?_ _ (by simp) qs t1
      · intro a ha
        refine moData_none _ ?_
        unfold feasibleF
        rw [List.map_eq_nil_iff, List.filter_eq_nil_iff]
        intro e he
        simp [hinf a ha e he]
      · rintro d e rfl rfl; rfl
  by_contra hcon
  rw [Bool.not_eq_false, t3] at hcon
  have hl : 0 < qs.length := by rw [t2]; exact List.length_pos_iff.2 hne
  have hlast : qs[qs.length - 1] ∈ qs.drop (qs.length - period) := by
    rw [List.mem_iff_getElem]
    refine ⟨period.pred ⊓ (qs.length - 1), by simp; omega, ?_⟩
    rw [List.getElem_drop]
    congr 1
    simp; omega
  have h1 := hcon _ hlast
  rw [hz _ (List.getElem_mem _)] at h1
  exact absurd h1 (by norm_num)

/-- **C108 (integer variables, refuted).** For integer variables the normalised values are truncated to integers. For every period
there is a run with one integer variable and one objective in which the variable and the objective change in every generation, the
objective improves by 1 each time, and the default termination with tolerances 0 ends the run after `period + 1` generations. -/
theorem C108_integer_refuted (mooX : Moocore 1) (hmoo : MooIgdContract mooX) (mooF : Moocore 1) (p : ℕ) (hp : 0 < p) :
    ∃ (lo hi : Fin 1 → ℝ) (as : List (Snap 0 1)) (r : Crit (DefState 0 1) ℝ),
      as.length = p + 1 ∧
      (∀ (i : ℕ) (a : Snap 0 1), as[i]? = some a → a.X = some [fun _ => (i : ℝ) + 1] ∧ a.F = [(fun _ => -(i : ℝ), true)]) ∧
      (∀ i : ℕ, i < p + 1 → lo 0 ≤ (i : ℝ) + 1 ∧ (i : ℝ) + 1 ≤ hi 0) ∧
      Crit.updates (defRaw mooF mooX true (some (lo, hi))) as (defaultSingle 0 0 0 p .none .none) = some r ∧ r.hasTerminated = true := by
  let as : List (Snap 0 1) := (List.range (p + 1)).map fun (i : ℕ) => ⟨[(fun _ => -(i : ℝ), true)], some [fun _ => (i : ℝ) + 1], 0, false, i + 1, i + 1⟩
  have hdef : IsDefault p 0 0 0 0 .none .none (defaultSingle 0 0 0 p .none .none : Crit (DefState 0 1) ℝ) :=
    ⟨.inl ⟨rfl, rfl⟩, hp, trivial, trivial⟩
  obtain ⟨r, hr⟩ := C108_total mooF mooX true (some (fun _ => 0, fun _ => (p : ℝ) + 2)) hdef as
  refine ⟨fun _ => 0, fun _ => (p : ℝ) + 2, as, r, by simp [as], ?_, ?_, hr, ?_⟩
  · intro i a ha
    simp only [as, List.getElem?_map, Option.map_eq_some_iff] at ha
    obtain ⟨j, hj, rfl⟩ := ha
    have : j = i := by
      rw [List.getElem?_eq_some_iff] at hj
      obtain ⟨h1, h2⟩ := hj
      simpa using h2.symm
    subst this
    exact ⟨rfl, rfl⟩
  · intro i hi
    have : (i : ℝ) ≤ p := by exact_mod_cast Nat.lt_succ_iff.1 hi
    exact ⟨by positivity, by linarith⟩
  · obtain ⟨q, cs', -, hF, hT⟩ := any_updates _ as (by simp [as]) 0 _ r hr
    obtain ⟨c1, l1, h1, hF1, rfl⟩ := List.forall₂_cons_left_iff.1 hF
    rw [hT]
    refine ⟨c1, by simp, ?_⟩
    refine robust_const _ _ _ _ (isDelta_x mooF mooX true (some (fun _ => 0, fun _ => (p : ℝ) + 2))) (some [fun _ => 0]) [] as ?_
      ⟨0, none, 0, 0⟩ ?_ p (by simp [as]) c1 h1
    · intro a ha
      obtain ⟨i, hi, rfl⟩ := List.mem_map.1 ha
      have hi' : (i : ℝ) ≤ p := by exact_mod_cast Nat.lt_succ_iff.1 (List.mem_range.1 hi)
      have hp0 : (0 : ℝ) < (p : ℝ) + 2 := by positivity
      simp only [xData, Option.map_some, List.map_cons, List.map_nil, Option.isSome_some, Bool.and_self, if_true, Option.some.injEq,
        List.cons.injEq, and_true]
      funext k
      simp only [indForward, if_neg hp0.ne, sub_zero, truncReal]
      have h0 : 0 ≤ ((i : ℝ) + 1) / ((p : ℝ) + 2) := by positivity
      rw [if_pos h0]
      have : ⌊((i : ℝ) + 1) / ((p : ℝ) + 2)⌋ = 0 := by
        rw [Int.floor_eq_zero_iff]
        refine ⟨h0, ?_⟩
        rw [div_lt_one hp0]
        linarith
      rw [this]; simp
    · simp only [xDelta]
      rw [igdOf_self mooX hmoo _ (by simp)]

/-- **C108 (renormalisation, refuted).** `MultiObjectiveSpaceTerminationWithRenormalization` raises at its first update; in general an update raises, as long as the list of the start is what it remembers, exactly if it is not
one of those that are skipped. -/
theorem C108_renormalization_refuted (tol perc : ℝ) (nSkip : ℕ) (cur : Option (MoSnap m)) :
    renormUpdate mooF ⟨tol, some .list, 0, nSkip⟩ 0 (.dict cur) = none ∧
    ∀ c, renormUpdate mooF ⟨tol, some .list, c, nSkip⟩ perc (.dict cur) = none ↔ (nSkip + 1) ∣ c := by
  refine ⟨by simp [renormUpdate, renormDelta], fun c => ?_⟩
  rw [Nat.dvd_iff_mod_eq_zero]
  by_cases h : c % (nSkip + 1) = 0
  · simp [renormUpdate, renormDelta, h]
  · have hc : 0 < c := Nat.pos_of_ne_zero fun h0 => h (by simp [h0])
    simp [renormUpdate, hc, h]

end Default

/-- The defaults of `DefaultMultiObjectiveTermination`. -/
example : IsDefault 50 5 0.0005 (1 / 10 ^ 8) 0.005 (.fin 1000) (.fin 100000)
    (defaultMulti 0.0005 (1 / 10 ^ 8) 0.005 5 50 (.fin 1000) (.fin 100000) : Crit (DefState 1 2) ℝ) :=
  ⟨.inr rfl, by norm_num, trivial, trivial⟩

example : MooIgdContract (textbookMoo : Moocore 2) ∧ feasibleF ([(![0, 1], true), (![1, 0], true), (![5, 5], false)] : List ((Fin 2 → ℝ) × Bool)) ≠ [] ∧
    FrontRange (feasibleF ([(![0, 1], true), (![1, 0], true), (![5, 5], false)] : List ((Fin 2 → ℝ) × Bool))) (fun _ => 0) (fun _ => 1) := by
  refine ⟨textbookMoo_contract, by simp [feasibleF], ?_⟩
  intro k
  simp only [feasibleF, List.filter_cons, List.filter_nil, if_true, Bool.false_eq_true, if_false, List.map_cons, List.map_nil, List.mem_cons, List.not_mem_nil,
    or_false, exists_eq_or_imp, exists_eq_left]
  fin_cases k <;> simp [IsLeast, IsGreatest, lowerBounds, upperBounds]

end Props
