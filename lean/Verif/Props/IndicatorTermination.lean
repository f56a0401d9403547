import Verif.Model.IndicatorTermination
import Verif.Props.Termination
import Mathlib.Tactic.Linarith
import Mathlib.Tactic.FieldSimp
import Mathlib.Tactic.Ring
import Mathlib.Tactic.NormNum

/-!
# C136: stopping when an indicator reaches a threshold

`Reached goal thr v`: the value `v` is as good as the threshold asks for. The criterion should report a progress of at
least one exactly when the current value has reached the threshold, and a nonnegative progress otherwise. It does so when
the first value it sees has not reached the threshold yet; when the first value already has, it reports 0 or raises.
-/

set_option linter.unusedVariables false
set_option linter.unusedSectionVars false

namespace Props
open Model

variable {K : Type*} [Field K] [LinearOrder K] [IsStrictOrderedRing K]

/-- What the user asks for: at most the threshold when minimising, at least the threshold when maximising. -/
def Reached : Goal → K → K → Prop
  | .minimize, thr, v => v ≤ thr
  | .maximize, thr, v => thr ≤ v

/-- `u` is no better than every value of `vs`. -/
def WorstOf (goal : Goal) (vs : List K) (u : K) : Prop :=
  u ∈ vs ∧ ∀ w ∈ vs, Reached goal u w

/-- The state of the criterion after having seen the nonempty list of values `vs`. -/
def IndSeen (goal : Goal) (thr : K) (vs : List K) (c : Crit (IndState K) K) : Prop :=
  ∃ p lo hi, c = .prim false p { threshold := thr, goal := goal, range := some (lo, hi) } ∧
    WorstOf .maximize vs lo ∧ WorstOf .minimize vs hi

theorem indRange_spec (vs : List K) (v lo hi : K) (hlo : WorstOf .maximize vs lo) (hhi : WorstOf .minimize vs hi) :
    WorstOf .maximize (vs ++ [v]) (indRange (some (lo, hi)) v).1 ∧
      WorstOf .minimize (vs ++ [v]) (indRange (some (lo, hi)) v).2 := by
  obtain ⟨m1, b1⟩ := hlo
  obtain ⟨m2, b2⟩ := hhi
  simp only [indRange]
  constructor
  · by_cases h : v < lo
    · rw [if_pos h]
      refine ⟨by simp, fun w hw => ?_⟩
      rcases List.mem_append.1 hw with hw | hw
      · exact le_trans h.le (b1 w hw)
      · rw [List.mem_singleton.1 hw]; exact le_refl v
    · rw [if_neg h]
      refine ⟨List.mem_append_left _ m1, fun w hw => ?_⟩
      rcases List.mem_append.1 hw with hw | hw
      · exact b1 w hw
      · rw [List.mem_singleton.1 hw]; exact not_lt.1 h
  · by_cases h : hi < v
    · rw [if_pos h]
      refine ⟨by simp, fun w hw => ?_⟩
      rcases List.mem_append.1 hw with hw | hw
      · exact le_trans (b2 w hw) h.le
      · rw [List.mem_singleton.1 hw]; exact le_refl v
    · rw [if_neg h]
      refine ⟨List.mem_append_left _ m2, fun w hw => ?_⟩
      rcases List.mem_append.1 hw with hw | hw
      · exact b2 w hw
      · rw [List.mem_singleton.1 hw]; exact not_lt.1 h

/-- The progress as documented: the share of the way from the worst value seen so far to the threshold. -/
theorem indStep (goal : Goal) (thr : K) (vs : List K) (v : K) (c : Crit (IndState K) K)
    (hc : IndSeen goal thr vs c) (u : K) (hu : u ∈ vs) (hun : ¬ Reached goal thr u) :
    ∃ c', c.update indicatorRaw v = some c' ∧ IndSeen goal thr (vs ++ [v]) c' ∧
      (∀ w, WorstOf goal (vs ++ [v]) w → c'.perc * (thr - w) = v - w) ∧ 0 ≤ c'.perc ∧
      (1 ≤ c'.perc ↔ Reached goal thr v) := by
  obtain ⟨p, lo, hi, rfl, h1, h2⟩ := hc
  obtain ⟨r1, r2⟩ := indRange_spec vs v lo hi h1 h2
  generalize hr : indRange (some (lo, hi)) v = r at r1 r2
  obtain ⟨a, b⟩ := r
  cases goal with
  | minimize =>
    have hb : thr < b := by
      have h3 := r2.2 u (List.mem_append_left _ hu)
      simp only [Reached, not_le] at h3 hun
      exact lt_of_lt_of_le hun h3
    have hv : v ≤ b := r2.2 v (by simp)
    have hpos : 0 < b - thr := sub_pos.2 hb
    refine ⟨.prim false (1 - (v - thr) / (b - thr)) { threshold := thr, goal := .minimize, range := some (a, b) }, ?_,
      ⟨_, a, b, rfl, r1, r2⟩, ?_, ?_, ?_⟩
    · simp only [Crit.update, indicatorRaw, indicatorUpdate, hr, Bool.false_eq_true, if_false]
      rw [if_neg hpos.ne']
      simp only
      rw [if_pos]
      rw [sub_nonneg, div_le_one hpos]; linarith
    · intro w hw
      have : w = b := le_antisymm (r2.2 w hw.1) (hw.2 b r2.1)
      subst this
      simp only [Crit.perc]
      field_simp
      ring
    · simp only [Crit.perc]
      rw [sub_nonneg, div_le_one hpos]; linarith
    · simp only [Crit.perc, Reached]
      constructor
      · intro h
        by_contra hn
        have : 0 < (v - thr) / (b - thr) := div_pos (by linarith) hpos
        linarith
      · intro h
        have : (v - thr) / (b - thr) ≤ 0 := div_nonpos_of_nonpos_of_nonneg (by linarith) hpos.le
        linarith
  | maximize =>
    have hb : a < thr := by
      have h3 := r1.2 u (List.mem_append_left _ hu)
      simp only [Reached, not_le] at h3 hun
      exact lt_of_le_of_lt h3 hun
    have hv : a ≤ v := r1.2 v (by simp)
    have hpos : 0 < thr - a := sub_pos.2 hb
    refine ⟨.prim false ((v - a) / (thr - a)) { threshold := thr, goal := .maximize, range := some (a, b) }, ?_,
      ⟨_, a, b, rfl, r1, r2⟩, ?_, ?_, ?_⟩
    · simp only [Crit.update, indicatorRaw, indicatorUpdate, hr, Bool.false_eq_true, if_false]
      rw [if_neg hpos.ne']
      simp only
      rw [if_pos]
      exact div_nonneg (by linarith) hpos.le
    · intro w hw
      have : w = a := le_antisymm (hw.2 a r1.1) (r1.2 w hw.1)
      subst this
      simp only [Crit.perc]
      field_simp
    · simp only [Crit.perc]
      exact div_nonneg (by linarith) hpos.le
    · simp only [Crit.perc, Reached]
      rw [le_div_iff₀ hpos]
      constructor <;> intro h <;> linarith

theorem worstOf_singleton (goal : Goal) (v w : K) : WorstOf goal [v] w ↔ w = v := by
  constructor
  · intro h; simpa using h.1
  · rintro rfl
    refine ⟨by simp, fun w hw => ?_⟩
    rw [List.mem_singleton.1 hw]
    cases goal <;> exact le_refl _

/-- The first update of a new criterion, for a value that is not the threshold itself: the progress is 0. -/
theorem indFirst (goal : Goal) (thr v : K) (hv : v ≠ thr) :
    ∃ c', (newIndicator goal thr).update indicatorRaw v = some c' ∧ IndSeen goal thr [v] c' ∧ c'.perc = 0 := by
  have h1 : v - thr ≠ 0 := sub_ne_zero.2 hv
  have h2 : thr - v ≠ 0 := sub_ne_zero.2 hv.symm
  refine ⟨.prim false 0 { threshold := thr, goal := goal, range := some (v, v) }, ?_,
    ⟨0, v, v, rfl, (worstOf_singleton _ _ _).2 rfl, (worstOf_singleton _ _ _).2 rfl⟩, rfl⟩
  cases goal with
  | minimize =>
    simp only [newIndicator, Crit.update, indicatorRaw, indicatorUpdate, indRange, Bool.false_eq_true, if_false,
      if_neg h1, div_self h1, sub_self, le_refl, if_true]
  | maximize =>
    simp only [newIndicator, Crit.update, indicatorRaw, indicatorUpdate, indRange, Bool.false_eq_true, if_false,
      if_neg h2, sub_self, zero_div, le_refl, if_true]

theorem indRun (goal : Goal) (thr : K) (u : K) (hun : ¬ Reached goal thr u) :
    ∀ (vs seen : List K) (c : Crit (IndState K) K), IndSeen goal thr seen c → u ∈ seen → (1 ≤ c.perc ↔ ∃ l, seen.getLast? = some l ∧ Reached goal thr l) → 0 ≤ c.perc →
      (∀ w, WorstOf goal seen w → ∀ l, seen.getLast? = some l → c.perc * (thr - w) = l - w) →
    ∃ c', c.updates indicatorRaw vs = some c' ∧ 0 ≤ c'.perc ∧
      (∀ w, WorstOf goal (seen ++ vs) w → ∀ l, (seen ++ vs).getLast? = some l → c'.perc * (thr - w) = l - w) ∧
      (1 ≤ c'.perc ↔ ∃ l, (seen ++ vs).getLast? = some l ∧ Reached goal thr l)
  | [], seen, c, hc, hu, hi, hp, hw => ⟨c, rfl, hp, by simpa using hw, by simpa using hi⟩
  | v :: vs, seen, c, hc, hu, hi, hp, hw => by
    obtain ⟨c1, e1, s1, w1, p1, i1⟩ := indStep goal thr seen v c hc u hu hun
    obtain ⟨c2, e2, p2, w2, i2⟩ := indRun goal thr u hun vs (seen ++ [v]) c1 s1 (List.mem_append_left _ hu)
      (by rw [i1]; simp) p1 (by
        intro w hw l hl
        have : v = l := by simpa using hl
        subst this
        exact w1 w hw)
    refine ⟨c2, ?_, p2, by simpa using w2, by simpa using i2⟩
    simp only [Crit.updates, e1, e2]

/-- **C136** When the first indicator value has not reached the threshold, every later update succeeds; after any number of
updates the progress is nonnegative, is the share of the way from the worst value seen so far to the threshold that the
current value has covered, and the criterion has terminated exactly when the current value has reached the threshold. -/
theorem C136_reaches (goal : Goal) (thr v₀ : K) (h0 : ¬ Reached goal thr v₀) (vs : List K) (last : K)
    (hl : (v₀ :: vs).getLast? = some last) :
    ∃ c, (newIndicator goal thr).updates indicatorRaw (v₀ :: vs) = some c ∧ 0 ≤ c.perc ∧
      (∀ w, WorstOf goal (v₀ :: vs) w → c.perc * (thr - w) = last - w) ∧
      (c.hasTerminated = true ↔ Reached goal thr last) := by
  have hne : v₀ ≠ thr := by
    rintro rfl
    cases goal <;> exact h0 (le_refl _)
  obtain ⟨c1, e1, s1, p1⟩ := indFirst goal thr v₀ hne
  obtain ⟨c2, e2, p2, w2, i2⟩ := indRun goal thr v₀ h0 vs [v₀] c1 s1 (by simp)
    (by
      rw [p1]
      constructor
      · intro h; exact absurd h (by norm_num)
      · rintro ⟨l, hl, hr⟩
        have : v₀ = l := by simpa using hl
        subst this
        exact absurd hr h0) p1.ge
    (by
      intro w hw l hl
      have h1 : v₀ = l := by simpa using hl
      have h2 : w = v₀ := (worstOf_singleton _ _ _).1 hw
      rw [p1, h2, ← h1]; ring)
  refine ⟨c2, by simp only [Crit.updates, e1, e2], p2, fun w hw => w2 w hw last (by simpa using hl), ?_⟩
  rw [hasTerminated_iff, i2]
  have : [v₀] ++ vs = v₀ :: vs := rfl
  rw [this, hl]
  simp

example : ¬ Reached Goal.minimize (1 / 10 : ℚ) (8 / 10) ∧
    (((newIndicator .minimize (1 / 10 : ℚ)).updates indicatorRaw [8 / 10, 9 / 10, 5 / 10]).map Crit.perc) = some (1 / 2) ∧
    (((newIndicator .minimize (1 / 10 : ℚ)).updates indicatorRaw [8 / 10, 5 / 10, 1 / 10]).map Crit.hasTerminated)
      = some true := by
  refine ⟨by simp only [Reached]; norm_num, ?_, ?_⟩ <;> decide +kernel

/-- **C136** The first update never terminates the run: whatever the value, the progress is 0, or the update raises (the
value is exactly the threshold). -/
theorem C136_first_never (goal : Goal) (thr v : K) (c : Crit (IndState K) K)
    (h : (newIndicator goal thr).update indicatorRaw v = some c) : c.perc = 0 ∧ c.hasTerminated = false := by
  by_cases hv : v = thr
  · subst hv
    cases goal <;> simp [newIndicator, Crit.update, indicatorRaw, indicatorUpdate, indRange] at h
  · obtain ⟨c', e, -, p⟩ := indFirst goal thr v hv
    rw [e] at h
    obtain rfl := Option.some.inj h
    refine ⟨p, ?_⟩
    simp [Crit.hasTerminated, p]

/-- **C136** A first value equal to the threshold is an error. -/
theorem C136_first_equal (goal : Goal) (thr : K) : (newIndicator goal thr).update indicatorRaw thr = none := by
  cases goal <;> simp [newIndicator, Crit.update, indicatorRaw, indicatorUpdate, indRange]

/-- **C136** When every value is better than the threshold from the start, the criterion never terminates: as long as the
updates succeed the progress stays 0. -/
theorem C136_never_terminates (goal : Goal) (thr : K) (v₀ : K) (vs : List K)
    (hb : ∀ v ∈ v₀ :: vs, Reached goal thr v ∧ v ≠ thr) (c : Crit (IndState K) K)
    (h : (newIndicator goal thr).updates indicatorRaw (v₀ :: vs) = some c) : c.perc = 0 ∧ c.hasTerminated = false := by
  have key : ∀ (vs seen : List K) (c0 : Crit (IndState K) K), IndSeen goal thr seen c0 → c0.perc = 0 → seen ≠ [] →
      (∀ v ∈ seen ++ vs, Reached goal thr v ∧ v ≠ thr) → ∀ c, c0.updates indicatorRaw vs = some c → c.perc = 0 := by
    intro vs
    induction vs with
    | nil =>
      intro seen c0 _ hp _ _ c h
      simp only [Crit.updates, Option.some.injEq] at h
      rw [← h, hp]
    | cons v vs ih =>
      intro seen c0 hs hp hne hb c h
      simp only [Crit.updates] at h
      obtain ⟨p, lo, hi, rfl, h1, h2⟩ := hs
      obtain ⟨r1, r2⟩ := indRange_spec seen v lo hi h1 h2
      generalize hr : indRange (some (lo, hi)) v = r at r1 r2
      obtain ⟨a, b⟩ := r
      have hsub : ∀ u ∈ seen ++ [v], u ∈ seen ++ (v :: vs) := by
        intro u hu
        rcases List.mem_append.1 hu with hu | hu
        · exact List.mem_append_left _ hu
        · rw [List.mem_singleton.1 hu]; simp
      have hv := hb v (by simp)
      cases goal with
      | minimize =>
        have hbb := hb b (hsub b r2.1)
        have hblt : b < thr := lt_of_le_of_ne hbb.1 hbb.2
        have hvb : v ≤ b := r2.2 v (by simp)
        have hne0 : b - thr ≠ 0 := sub_ne_zero.2 hbb.2
        have hneg : b - thr < 0 := sub_neg.2 hblt
        simp only [Crit.update, indicatorRaw, indicatorUpdate, hr, Bool.false_eq_true, if_false, if_neg hne0] at h
        by_cases hq : 0 ≤ 1 - (v - thr) / (b - thr)
        · rw [if_pos hq] at h
          have h3 : 1 ≤ (v - thr) / (b - thr) := by
            rw [le_div_iff_of_neg hneg]; linarith
          have h4 : 1 - (v - thr) / (b - thr) = 0 := by linarith
          refine ih (seen ++ [v]) _ ⟨_, a, b, rfl, r1, r2⟩ (by simp only [Crit.perc]; exact h4) (by simp) (by simpa using hb) c h
        · rw [if_neg hq] at h
          simp at h
      | maximize =>
        have hbb := hb a (hsub a r1.1)
        have hblt : thr < a := lt_of_le_of_ne hbb.1 hbb.2.symm
        have hvb : a ≤ v := r1.2 v (by simp)
        have hne0 : thr - a ≠ 0 := sub_ne_zero.2 hbb.2.symm
        have hneg : thr - a < 0 := sub_neg.2 hblt
        simp only [Crit.update, indicatorRaw, indicatorUpdate, hr, Bool.false_eq_true, if_false, if_neg hne0] at h
        by_cases hq : 0 ≤ (v - a) / (thr - a)
        · rw [if_pos hq] at h
          have h4 : (v - a) / (thr - a) ≤ 0 := div_nonpos_of_nonneg_of_nonpos (by linarith) hneg.le
          refine ih (seen ++ [v]) _ ⟨_, a, b, rfl, r1, r2⟩ (by simp only [Crit.perc]; exact le_antisymm h4 hq) (by simp) (by simpa using hb) c h
        · rw [if_neg hq] at h
          simp at h
  simp only [Crit.updates] at h
  obtain ⟨c1, e1, s1, p1⟩ := indFirst goal thr v₀ (hb v₀ (by simp)).2
  rw [e1] at h
  have := key vs [v₀] c1 s1 p1 (by simp) (by simpa using hb) c h
  refine ⟨this, ?_⟩
  simp [Crit.hasTerminated, this]

example : (∀ v ∈ [(1 / 10 : ℚ), 2 / 10], Reached Goal.minimize (3 / 10) v ∧ v ≠ 3 / 10) ∧
    (((newIndicator .minimize (3 / 10 : ℚ)).updates indicatorRaw [1 / 10, 2 / 10]).map Crit.perc) = some 0 := by
  constructor
  · intro v hv
    simp only [List.mem_cons, List.not_mem_nil, or_false] at hv
    rcases hv with rfl | rfl <;> exact ⟨by simp only [Reached]; norm_num, by norm_num⟩
  · decide +kernel

/-- **C136** The full statement fails: an indicator that starts better than the threshold and improves makes the update
raise. -/
theorem C136_refuted : ∃ (thr v₀ v₁ : ℚ), Reached .minimize thr v₀ ∧ Reached .minimize v₀ v₁ ∧
    (newIndicator .minimize thr).updates indicatorRaw [v₀, v₁] = none := by
  refine ⟨3 / 10, 2 / 10, 1 / 10, by simp only [Reached]; norm_num, by simp only [Reached]; norm_num, by decide +kernel⟩

end Props
