import Verif.Model.Selection
import Verif.Props.Dominator
import Mathlib.Data.List.Range
import Mathlib.Data.List.Count
import Mathlib.Data.Fin.VecNotation

/-! # C28 (tournament selection) -/

set_option linter.unusedSectionVars false
set_option linter.unusedSimpArgs false

namespace Props
open Model Spec Lemmas

variable {α β γ : Type*} {m : ℕ}

/-! ### The comparisons -/

/-- Feasible in the sense of the tournaments. -/
def Feas [LinearOrder α] [Zero α] (x : TInd m α γ) : Prop := x.cv ≤ 0

theorem compareInd_smaller [LinearOrder β] {a b : ℕ} {x y : β} {r coin : Bool} {w : ℕ}
    (h : compareInd a x b y .smaller r coin = some w) : (w = a ∧ x ≤ y) ∨ (w = b ∧ y ≤ x) := by
  unfold compareInd at h
  simp only at h
  split_ifs at h with h1 h2 h3 h4
  · exact Or.inl ⟨(Option.some.inj h).symm, h1.le⟩
  · exact Or.inr ⟨(Option.some.inj h).symm, h2.le⟩
  · exact Or.inl ⟨(Option.some.inj h).symm, not_lt.1 h2⟩
  · exact Or.inr ⟨(Option.some.inj h).symm, not_lt.1 h1⟩

theorem compareInd_larger [LinearOrder β] {a b : ℕ} {x y : β} {r coin : Bool} {w : ℕ}
    (h : compareInd a x b y .larger r coin = some w) : (w = a ∧ y ≤ x) ∨ (w = b ∧ x ≤ y) := by
  unfold compareInd at h
  simp only at h
  split_ifs at h with h1 h2 h3 h4
  · exact Or.inl ⟨(Option.some.inj h).symm, h1.le⟩
  · exact Or.inr ⟨(Option.some.inj h).symm, h2.le⟩
  · exact Or.inl ⟨(Option.some.inj h).symm, not_lt.1 h2⟩
  · exact Or.inr ⟨(Option.some.inj h).symm, not_lt.1 h1⟩

/-- C28. `compare` returns the participant with the better value; with equal values a random one, or nothing. -/
theorem C28_compare [LinearOrder β] (a b : ℕ) (x y : β) (r coin : Bool) :
    (x < y → compareInd a x b y .smaller r coin = some a ∧ compareInd a x b y .larger r coin = some b) ∧
    (y < x → compareInd a x b y .smaller r coin = some b ∧ compareInd a x b y .larger r coin = some a) ∧
    (x = y → ∀ mth, compareInd a x b y mth r coin = if r then some (if coin then a else b) else none) := by
  refine ⟨fun h => ?_, fun h => ?_, ?_⟩
  · simp [compareInd, h, not_lt.2 h.le]
  · simp [compareInd, h, not_lt.2 h.le]
  · rintro rfl mth
    cases mth <;> simp [compareInd]

example : compareInd 3 (1 : ℤ) 5 2 .smaller false true = some 3 ∧ compareInd 3 (1 : ℤ) 5 2 .larger false true = some 5 ∧
    compareInd 3 (2 : ℤ) 5 2 .larger false true = none ∧ compareInd 3 (2 : ℤ) 5 2 .larger true false = some 5 := by decide

variable [LinearOrder α] [Zero α] [LinearOrder γ]

/-- The winner `w` of a tournament against `l` is admissible for NSGA-II: no larger violation when someone is infeasible;
among feasible ones not dominated (or not worse ranked), and if domination (or rank) does not decide, not more crowded. -/
structure Nsga2Winner (tt : TType) (w l : TInd m α γ) : Prop where
  cv : ¬ (Feas w ∧ Feas l) → w.cv ≤ l.cv
  dom : Feas w → Feas l → tt = .domCrowding → ¬ Dominates l.F w.F
  domTie : Feas w → Feas l → tt = .domCrowding → ¬ Dominates w.F l.F → l.crowding ≤ w.crowding
  rank : Feas w → Feas l → tt = .rankCrowding → w.rank ≤ l.rank
  rankTie : Feas w → Feas l → tt = .rankCrowding → w.rank = l.rank → l.crowding ≤ w.crowding

theorem compareInd_isSome [LinearOrder β] (a b : ℕ) (x y : β) (mth : CmpMethod) (coin : Bool) :
    ∃ w, compareInd a x b y mth true coin = some w := by
  cases mth <;> simp only [compareInd] <;> split_ifs <;> exact ⟨_, rfl⟩

/-- C28. A tournament of NSGA-II (either known type) has a winner; it is one of the two participants and it is admissible
against both, whatever the coin. -/
theorem C28_nsga2 (tt : TType) (htt : tt ≠ .unknown) (pop : ℕ → TInd m α γ) (coin : Bool) (a b : ℕ) :
    ∃ w, nsga2Compare tt pop coin a b = some w ∧
      ((w = a ∧ Nsga2Winner tt (pop a) (pop b)) ∨ (w = b ∧ Nsga2Winner tt (pop b) (pop a))) := by
  unfold nsga2Compare
  by_cases hc : 0 < (pop a).cv ∨ 0 < (pop b).cv
  · rw [if_pos hc]
    obtain ⟨w, hw⟩ := compareInd_isSome a b (pop a).cv (pop b).cv .smaller coin
    refine ⟨w, hw, ?_⟩
    have hn : ∀ x y : TInd m α γ, (0 < x.cv ∨ 0 < y.cv) → Feas x → ¬ Feas y := by
      intro x y h hx hy
      rcases h with h | h
      · exact absurd hx (not_le.2 h)
      · exact absurd hy (not_le.2 h)
    rcases compareInd_smaller hw with ⟨h1, h2⟩ | ⟨h1, h2⟩
    · exact Or.inl ⟨h1, fun _ => h2, fun h h' => absurd h' (hn _ _ hc h), fun h h' => absurd h' (hn _ _ hc h),
        fun h h' => absurd h' (hn _ _ hc h), fun h h' => absurd h' (hn _ _ hc h)⟩
    · exact Or.inr ⟨h1, fun _ => h2, fun h h' => absurd h' (hn _ _ hc.symm h), fun h h' => absurd h' (hn _ _ hc.symm h),
        fun h h' => absurd h' (hn _ _ hc.symm h), fun h h' => absurd h' (hn _ _ hc.symm h)⟩
  · rw [if_neg hc]
    have hfa : Feas (pop a) := not_lt.1 fun h => hc (Or.inl h)
    have hfb : Feas (pop b) := not_lt.1 fun h => hc (Or.inr h)
    obtain ⟨g1, g2, g3⟩ := C01_get_relation (pop a).F (pop b).F (none : Option ℕ) none
    simp only [Better] at g1 g2 g3
    have asym : ∀ {x y : Fin m → α}, Dominates x y → ¬ Dominates y x := fun {x y} h h' =>
      dominates_strictPO.irrefl x (dominates_strictPO.trans x y x h h')
    cases tt with
    | unknown => exact absurd rfl htt
    | domCrowding =>
      simp only
      by_cases h1 : getRelation (pop a).F (pop b).F (none : Option ℕ) none = 1
      · simp only [h1, if_true]
        have hd := g1.1 h1
        exact ⟨a, rfl, Or.inl ⟨rfl, fun h => absurd ⟨hfa, hfb⟩ h, fun _ _ _ => asym hd, fun _ _ _ h => absurd hd h,
          by simp, by simp⟩⟩
      · by_cases h2 : getRelation (pop a).F (pop b).F (none : Option ℕ) none = -1
        · rw [h2]
          have hd := g2.1 h2
          exact ⟨b, rfl, Or.inr ⟨rfl, fun h => absurd ⟨hfb, hfa⟩ h, fun _ _ _ => asym hd, fun _ _ _ h => absurd hd h,
            by simp, by simp⟩⟩
        · simp only [h1, h2, if_false]
          obtain ⟨w, hw⟩ := compareInd_isSome a b (pop a).crowding (pop b).crowding .larger coin
          refine ⟨w, hw, ?_⟩
          have n1 : ¬ Dominates (pop a).F (pop b).F := fun h => h1 (g1.2 h)
          have n2 : ¬ Dominates (pop b).F (pop a).F := fun h => h2 (g2.2 h)
          rcases compareInd_larger hw with ⟨e, h⟩ | ⟨e, h⟩
          · exact Or.inl ⟨e, fun h => absurd ⟨hfa, hfb⟩ h, fun _ _ _ => n2, fun _ _ _ _ => h, by simp, by simp⟩
          · exact Or.inr ⟨e, fun h => absurd ⟨hfb, hfa⟩ h, fun _ _ _ => n1, fun _ _ _ _ => h, by simp, by simp⟩
    | rankCrowding =>
      obtain ⟨c1, c2, c3⟩ := C28_compare a b (pop a).rank (pop b).rank false coin
      rcases lt_trichotomy (pop a).rank (pop b).rank with h | h | h
      · simp only [(c1 h).1]
        exact ⟨a, rfl, Or.inl ⟨rfl, fun h => absurd ⟨hfa, hfb⟩ h, by simp, by simp, fun _ _ _ => h.le,
          fun _ _ _ h' => absurd h' h.ne⟩⟩
      · simp only [c3 h .smaller]
        obtain ⟨w, hw⟩ := compareInd_isSome a b (pop a).crowding (pop b).crowding .larger coin
        refine ⟨w, hw, ?_⟩
        rcases compareInd_larger hw with ⟨e, h'⟩ | ⟨e, h'⟩
        · exact Or.inl ⟨e, fun h => absurd ⟨hfa, hfb⟩ h, by simp, by simp, fun _ _ _ => h.le, fun _ _ _ _ => h'⟩
        · exact Or.inr ⟨e, fun h => absurd ⟨hfb, hfa⟩ h, by simp, by simp, fun _ _ _ => h.ge, fun _ _ _ _ => h'⟩
      · simp only [(c2 h).1]
        exact ⟨b, rfl, Or.inr ⟨rfl, fun h => absurd ⟨hfb, hfa⟩ h, by simp, by simp, fun _ _ _ => h.le,
          fun _ _ _ h' => absurd h' h.ne⟩⟩

/-- C28. The order of the participants plays no role beyond the meaning of the coin. -/
theorem C28_nsga2_symm (tt : TType) (pop : ℕ → TInd m α γ) (coin : Bool) (a b : ℕ) :
    nsga2Compare tt pop coin a b = nsga2Compare tt pop (!coin) b a := by
  have cs' : ∀ (x y : ℕ) (mth : CmpMethod) (r : Bool),
      compareInd a x b y mth r coin = compareInd b y a x mth r (!coin) := by
    intro x y mth r
    rcases lt_trichotomy x y with h | h | h <;> cases mth <;> cases coin <;> simp [compareInd, h, not_lt.2 h.le]
  have ca : compareInd a (pop a).cv b (pop b).cv .smaller true coin =
      compareInd b (pop b).cv a (pop a).cv .smaller true (!coin) := by
    rcases lt_trichotomy (pop a).cv (pop b).cv with h | h | h <;> cases coin <;> simp [compareInd, h, not_lt.2 h.le]
  have cc : compareInd a (pop a).crowding b (pop b).crowding .larger true coin =
      compareInd b (pop b).crowding a (pop a).crowding .larger true (!coin) := by
    rcases lt_trichotomy (pop a).crowding (pop b).crowding with h | h | h <;> cases coin <;>
      simp [compareInd, h, not_lt.2 h.le]
  have hrel := C01_antisymmetric (pop a).F (pop b).F (none : Option ℕ) none
  unfold nsga2Compare
  by_cases hc : 0 < (pop a).cv ∨ 0 < (pop b).cv
  · rw [if_pos hc, if_pos hc.symm, ca]
  · rw [if_neg hc, if_neg (fun h => hc h.symm)]
    cases tt with
    | unknown => rfl
    | domCrowding =>
      simp only
      rw [hrel]
      by_cases h1 : getRelation (pop a).F (pop b).F (none : Option ℕ) none = 1
      · rw [h1]; rfl
      · by_cases h2 : getRelation (pop a).F (pop b).F (none : Option ℕ) none = -1
        · rw [h2]; rfl
        · have n1 : ¬ - getRelation (pop a).F (pop b).F (none : Option ℕ) none = 1 := by omega
          have n2 : ¬ - getRelation (pop a).F (pop b).F (none : Option ℕ) none = -1 := by omega
          simp only [h1, h2, n1, n2, if_false, cc]
    | rankCrowding =>
      simp only
      rw [cs' (pop a).rank (pop b).rank .smaller false, cc]

/-- Three individuals: a feasible one, one it dominates, and an infeasible one with better objectives. -/
def exPop28 : ℕ → TInd 2 ℤ ℤ := fun i =>
  if i = 0 then ⟨0, ![1, 2], 0, 3⟩ else if i = 1 then ⟨0, ![2, 2], 1, 9⟩ else ⟨1, ![0, 0], 0, 9⟩

example : nsga2Compare .domCrowding exPop28 false 0 1 = some 0 ∧ nsga2Compare .domCrowding exPop28 true 1 0 = some 0 ∧
    nsga2Compare .rankCrowding exPop28 false 2 1 = some 1 ∧ nsga2Compare .domCrowding exPop28 true 2 0 = some 0 := by
  decide

/-- C28 (single objective GA). The winner is a participant with the smaller violation if one is infeasible, otherwise with
the smaller objective value. -/
theorem C28_ga (pop : ℕ → TInd 1 α γ) (coin : Bool) (a b : ℕ) :
    ∃ w l, gaCompare pop coin a b = some w ∧ ((w = a ∧ l = b) ∨ (w = b ∧ l = a)) ∧
      (¬ (Feas (pop w) ∧ Feas (pop l)) → (pop w).cv ≤ (pop l).cv) ∧
      (Feas (pop w) → Feas (pop l) → (pop w).F 0 ≤ (pop l).F 0) := by
  unfold gaCompare
  by_cases hc : 0 < (pop a).cv ∨ 0 < (pop b).cv
  · rw [if_pos hc]
    obtain ⟨w, hw⟩ := compareInd_isSome a b (pop a).cv (pop b).cv .smaller coin
    have hn : ¬ (Feas (pop a) ∧ Feas (pop b)) := fun h => by
      rcases hc with h' | h'
      · exact absurd h.1 (not_le.2 h')
      · exact absurd h.2 (not_le.2 h')
    rcases compareInd_smaller hw with ⟨rfl, h2⟩ | ⟨rfl, h2⟩
    · exact ⟨w, b, hw, Or.inl ⟨rfl, rfl⟩, fun _ => h2, fun h h' => absurd ⟨h, h'⟩ hn⟩
    · exact ⟨w, a, hw, Or.inr ⟨rfl, rfl⟩, fun _ => h2, fun h h' => absurd ⟨h', h⟩ hn⟩
  · rw [if_neg hc]
    have hfa : Feas (pop a) := not_lt.1 fun h => hc (Or.inl h)
    have hfb : Feas (pop b) := not_lt.1 fun h => hc (Or.inr h)
    obtain ⟨w, hw⟩ := compareInd_isSome a b ((pop a).F 0) ((pop b).F 0) .smaller coin
    rcases compareInd_smaller hw with ⟨rfl, h2⟩ | ⟨rfl, h2⟩
    · exact ⟨w, b, hw, Or.inl ⟨rfl, rfl⟩, fun h => absurd ⟨hfa, hfb⟩ h, fun _ _ => h2⟩
    · exact ⟨w, a, hw, Or.inr ⟨rfl, rfl⟩, fun h => absurd ⟨hfb, hfa⟩ h, fun _ _ => h2⟩

example : gaCompare (fun i => (⟨if i = 2 then 1 else 0, ![(i : ℤ)], 0, 0⟩ : TInd 1 ℤ ℤ)) true 5 3 = some 3 ∧
    gaCompare (fun i => (⟨if i = 2 then 1 else 0, ![(i : ℤ)], 0, 0⟩ : TInd 1 ℤ ℤ)) true 2 3 = some 3 := by decide

/-- C28 (NSGA-III, SMS-EMOA, C-TAEA, SPEA2, U-NSGA-III). The winner is a participant; it never has the larger violation
when someone is infeasible (C-TAEA: it is feasible if someone is); among feasible ones it is not dominated (SMS-EMOA, C-TAEA),
has the smaller SPEA2 fitness, respectively within a niche the better rank and then the smaller distance (U-NSGA-III). -/
theorem C28_others (pop : ℕ → TInd m α γ) (speaF dist : ℕ → γ) (niche : ℕ → ℕ) (coin other : Bool) (a b : ℕ) :
    (∃ w l, nsga3Compare pop coin other a b = some w ∧ ((w = a ∧ l = b) ∨ (w = b ∧ l = a)) ∧
      (¬ (Feas (pop w) ∧ Feas (pop l)) → (pop w).cv ≤ (pop l).cv)) ∧
    (∃ w l, smsCompare pop coin a b = some w ∧ ((w = a ∧ l = b) ∨ (w = b ∧ l = a)) ∧
      (¬ (Feas (pop w) ∧ Feas (pop l)) → (pop w).cv ≤ (pop l).cv) ∧
      (Feas (pop w) → Feas (pop l) → ¬ Dominates (pop l).F (pop w).F)) ∧
    (∃ w l, ctaeaCompare pop coin a b = w ∧ ((w = a ∧ l = b) ∨ (w = b ∧ l = a)) ∧
      (Feas (pop l) → Feas (pop w)) ∧
      (Feas (pop w) → Feas (pop l) → ¬ Dominates (pop l).F (pop w).F)) ∧
    (∃ w l, speaCompare pop speaF coin a b = some w ∧ ((w = a ∧ l = b) ∨ (w = b ∧ l = a)) ∧
      (¬ (Feas (pop w) ∧ Feas (pop l)) → (pop w).cv ≤ (pop l).cv) ∧
      (Feas (pop w) → Feas (pop l) → speaF w ≤ speaF l)) ∧
    (∃ w l, unsga3Compare pop niche dist coin other a b = w ∧ ((w = a ∧ l = b) ∨ (w = b ∧ l = a)) ∧
      (¬ (Feas (pop w) ∧ Feas (pop l)) → (pop w).cv ≤ (pop l).cv) ∧
      (Feas (pop w) → Feas (pop l) → niche w = niche l → (pop w).rank ≤ (pop l).rank ∧
        ((pop w).rank = (pop l).rank → dist w ≤ dist l))) := by
  have asym : ∀ {x y : Fin m → α}, Dominates x y → ¬ Dominates y x := fun {x y} h h' =>
    dominates_strictPO.irrefl x (dominates_strictPO.trans x y x h h')
  obtain ⟨g1, g2, g3⟩ := C01_get_relation (pop a).F (pop b).F (none : Option ℕ) none
  simp only [Better] at g1 g2 g3
  have relcase : ∃ w l, (if getRelation (pop a).F (pop b).F (none : Option ℕ) none = 1 then a
      else if getRelation (pop a).F (pop b).F (none : Option ℕ) none = -1 then b else if coin = true then a else b) = w ∧
      ((w = a ∧ l = b) ∨ (w = b ∧ l = a)) ∧ ¬ Dominates (pop l).F (pop w).F := by
    by_cases h1 : getRelation (pop a).F (pop b).F (none : Option ℕ) none = 1
    · exact ⟨a, b, by rw [if_pos h1], Or.inl ⟨rfl, rfl⟩, asym (g1.1 h1)⟩
    · by_cases h2 : getRelation (pop a).F (pop b).F (none : Option ℕ) none = -1
      · exact ⟨b, a, by rw [if_neg h1, if_pos h2], Or.inr ⟨rfl, rfl⟩, asym (g2.1 h2)⟩
      · cases coin
        · exact ⟨b, a, by rw [if_neg h1, if_neg h2]; rfl, Or.inr ⟨rfl, rfl⟩, fun h => h1 (g1.2 h)⟩
        · exact ⟨a, b, by rw [if_neg h1, if_neg h2]; rfl, Or.inl ⟨rfl, rfl⟩, fun h => h2 (g2.2 h)⟩
  by_cases hc : 0 < (pop a).cv ∨ 0 < (pop b).cv
  · have hn : ¬ (Feas (pop a) ∧ Feas (pop b)) := fun h => by
      rcases hc with h' | h'
      · exact absurd h.1 (not_le.2 h')
      · exact absurd h.2 (not_le.2 h')
    have hn' : ¬ (Feas (pop b) ∧ Feas (pop a)) := fun h => hn h.symm
    have key : ∀ c, ∃ w l, compareInd a (pop a).cv b (pop b).cv .smaller true c = some w ∧
        ((w = a ∧ l = b) ∨ (w = b ∧ l = a)) ∧ (pop w).cv ≤ (pop l).cv ∧ ¬ (Feas (pop w) ∧ Feas (pop l)) := by
      intro c
      obtain ⟨w, hw⟩ := compareInd_isSome a b (pop a).cv (pop b).cv .smaller c
      rcases compareInd_smaller hw with ⟨rfl, h2⟩ | ⟨rfl, h2⟩
      · exact ⟨w, b, hw, Or.inl ⟨rfl, rfl⟩, h2, hn⟩
      · exact ⟨w, a, hw, Or.inr ⟨rfl, rfl⟩, h2, hn'⟩
    obtain ⟨w, l, k1, k2, k3, k4⟩ := key coin
    obtain ⟨w', l', k1', k2', k3', k4'⟩ := key other
    refine ⟨⟨w', l', by rw [nsga3Compare, if_pos hc, k1'], k2', fun _ => k3'⟩,
      ⟨w, l, by rw [smsCompare, if_pos hc, k1], k2, fun _ => k3, fun h h' => absurd ⟨h, h'⟩ k4⟩, ?_,
      ⟨w, l, by rw [speaCompare, if_pos hc, k1], k2, fun _ => k3, fun h h' => absurd ⟨h, h'⟩ k4⟩,
      ⟨w', l', by simp only [unsga3Compare, if_pos hc, k1'], k2', fun _ => k3', fun h h' => absurd ⟨h, h'⟩ k4'⟩⟩
    unfold ctaeaCompare
    have hn2 : ¬ ((pop a).cv ≤ 0 ∧ (pop b).cv ≤ 0) := hn
    rw [if_neg hn2]
    by_cases ha : (pop a).cv ≤ 0
    · exact ⟨a, b, by rw [if_pos ha], Or.inl ⟨rfl, rfl⟩, fun _ => ha, fun h h' => absurd ⟨h, h'⟩ hn⟩
    · rw [if_neg ha]
      by_cases hb : (pop b).cv ≤ 0
      · exact ⟨b, a, by rw [if_pos hb], Or.inr ⟨rfl, rfl⟩, fun _ => hb, fun h h' => absurd ⟨h, h'⟩ hn'⟩
      · rw [if_neg hb]
        cases coin
        · exact ⟨b, a, rfl, Or.inr ⟨rfl, rfl⟩, fun h => absurd h ha, fun h h' => absurd ⟨h, h'⟩ hn'⟩
        · exact ⟨a, b, rfl, Or.inl ⟨rfl, rfl⟩, fun h => absurd h hb, fun h h' => absurd ⟨h, h'⟩ hn⟩
  · have hfa : Feas (pop a) := not_lt.1 fun h => hc (Or.inl h)
    have hfb : Feas (pop b) := not_lt.1 fun h => hc (Or.inr h)
    have hf : ∀ {w l}, ((w = a ∧ l = b) ∨ (w = b ∧ l = a)) → Feas (pop w) ∧ Feas (pop l) := by
      rintro w l (⟨rfl, rfl⟩ | ⟨rfl, rfl⟩)
      · exact ⟨hfa, hfb⟩
      · exact ⟨hfb, hfa⟩
    obtain ⟨w, l, r1, r2, r3⟩ := relcase
    refine ⟨?_, ⟨w, l, by simp only [smsCompare, if_neg hc, r1], r2, fun h => absurd (hf r2) h, fun _ _ => r3⟩,
      ⟨w, l, ?_, r2, fun _ => (hf r2).1, fun _ _ => r3⟩, ?_, ?_⟩
    · cases coin
      · exact ⟨b, a, by rw [nsga3Compare, if_neg hc]; rfl, Or.inr ⟨rfl, rfl⟩, fun h => absurd ⟨hfb, hfa⟩ h⟩
      · exact ⟨a, b, by rw [nsga3Compare, if_neg hc]; rfl, Or.inl ⟨rfl, rfl⟩, fun h => absurd ⟨hfa, hfb⟩ h⟩
    · have : (pop a).cv ≤ 0 ∧ (pop b).cv ≤ 0 := ⟨hfa, hfb⟩
      simp only [ctaeaCompare, if_pos this, r1]
    · obtain ⟨v, hv⟩ := compareInd_isSome a b (speaF a) (speaF b) .smaller coin
      rcases compareInd_smaller hv with ⟨rfl, h2⟩ | ⟨rfl, h2⟩
      · exact ⟨v, b, by rw [speaCompare, if_neg hc, hv], Or.inl ⟨rfl, rfl⟩, fun h => absurd ⟨hfa, hfb⟩ h, fun _ _ => h2⟩
      · exact ⟨v, a, by rw [speaCompare, if_neg hc, hv], Or.inr ⟨rfl, rfl⟩, fun h => absurd ⟨hfb, hfa⟩ h, fun _ _ => h2⟩
    · simp only [unsga3Compare, if_neg hc]
      by_cases hni : niche a = niche b
      · rw [if_pos hni]
        by_cases hr : (pop a).rank = (pop b).rank
        · rw [if_neg (by simpa using hr)]
          obtain ⟨c1, c2, c3⟩ := C28_compare a b (dist a) (dist b) false other
          rcases lt_trichotomy (dist a) (dist b) with h | h | h
          · rw [(c1 h).1]
            exact ⟨a, b, rfl, Or.inl ⟨rfl, rfl⟩, fun h => absurd ⟨hfa, hfb⟩ h, fun _ _ _ => ⟨hr.le, fun _ => h.le⟩⟩
          · rw [c3 h .smaller]
            cases coin
            · exact ⟨b, a, rfl, Or.inr ⟨rfl, rfl⟩, fun h => absurd ⟨hfb, hfa⟩ h, fun _ _ _ => ⟨hr.ge, fun _ => h.ge⟩⟩
            · exact ⟨a, b, rfl, Or.inl ⟨rfl, rfl⟩, fun h => absurd ⟨hfa, hfb⟩ h, fun _ _ _ => ⟨hr.le, fun _ => h.le⟩⟩
          · rw [(c2 h).1]
            exact ⟨b, a, rfl, Or.inr ⟨rfl, rfl⟩, fun h => absurd ⟨hfb, hfa⟩ h, fun _ _ _ => ⟨hr.ge, fun _ => h.le⟩⟩
        · rw [if_pos hr]
          obtain ⟨c1, c2, c3⟩ := C28_compare a b (pop a).rank (pop b).rank false other
          rcases lt_or_gt_of_ne hr with h | h
          · rw [(c1 h).1]
            exact ⟨a, b, rfl, Or.inl ⟨rfl, rfl⟩, fun h => absurd ⟨hfa, hfb⟩ h,
              fun _ _ _ => ⟨h.le, fun h' => absurd h' hr⟩⟩
          · rw [(c2 h).1]
            exact ⟨b, a, rfl, Or.inr ⟨rfl, rfl⟩, fun h => absurd ⟨hfb, hfa⟩ h,
              fun _ _ _ => ⟨h.le, fun h' => absurd h'.symm hr⟩⟩
      · rw [if_neg hni]
        cases coin
        · exact ⟨b, a, rfl, Or.inr ⟨rfl, rfl⟩, fun h => absurd ⟨hfb, hfa⟩ h, fun _ _ h => absurd h.symm hni⟩
        · exact ⟨a, b, rfl, Or.inl ⟨rfl, rfl⟩, fun h => absurd ⟨hfa, hfb⟩ h, fun _ _ h => absurd h hni⟩

example : smsCompare exPop28 false 0 1 = some 0 ∧ ctaeaCompare exPop28 true 2 1 = 1 ∧
    nsga3Compare exPop28 true true 2 1 = some 1 ∧ speaCompare exPop28 (fun i => (10 - i : ℤ)) true 0 1 = some 1 ∧
    unsga3Compare exPop28 (fun _ => 4) (fun i => (i : ℤ)) true true 1 0 = 0 := by decide

/-! ### The participants -/

theorem count_take_flatten (n : ℕ) (hn : 0 < n) (i : ℕ) (hi : i < n) : ∀ (L : List (List ℕ)) (r : ℕ),
    (∀ p ∈ L, p.Perm (List.range n)) → r ≤ L.length * n →
    r / n ≤ (L.flatten.take r).count i ∧ (L.flatten.take r).count i ≤ (r + n - 1) / n := by
  intro L
  induction L with
  | nil =>
    intro r _ hr
    have : r = 0 := by simpa using hr
    subst this
    simp
  | cons p L ih =>
    intro r hL hr
    have hp := hL p (List.mem_cons_self ..)
    have hlen : p.length = n := by rw [hp.length_eq]; simp
    have hc : p.count i = 1 := by
      rw [hp.count_eq]
      exact List.count_eq_one_of_mem List.nodup_range (List.mem_range.2 hi)
    rw [List.flatten_cons]
    by_cases hrn : n ≤ r
    · obtain ⟨h1, h2⟩ := ih (r - n) (fun q hq => hL q (List.mem_cons_of_mem _ hq)) (by
        rw [List.length_cons, Nat.succ_mul] at hr; omega)
      rw [List.take_append, List.take_of_length_le (by omega), List.count_append, hc, hlen]
      have e1 : r / n = (r - n) / n + 1 := by
        conv_lhs => rw [show r = (r - n) + n by omega]
        exact Nat.add_div_right _ hn
      have e2 : (r + n - 1) / n = (r - n + n - 1) / n + 1 := by
        conv_lhs => rw [show r + n - 1 = (r - n + n - 1) + n by omega]
        exact Nat.add_div_right _ hn
      rw [e1, e2]
      omega
    · have hlt : r < n := by omega
      rw [List.take_append_of_le_length (by omega), Nat.div_eq_of_lt hlt]
      refine ⟨Nat.zero_le _, ?_⟩
      have hle : (p.take r).count i ≤ 1 := hc ▸ (List.take_sublist r p).count_le i
      rcases Nat.eq_zero_or_pos r with rfl | hr0
      · simp
      · have : (r + n - 1) / n = 1 := by
          rw [show r + n - 1 = (r - 1) + n by omega, Nat.add_div_right _ hn, Nat.div_eq_of_lt (by omega)]
        omega

theorem block_nodup (n q c : ℕ) (hn : n = q * c) (hc : 0 < c) : ∀ (L : List (List ℕ)) (t : ℕ),
    (∀ p ∈ L, p.Perm (List.range n)) → ((L.flatten.drop (t * c)).take c).Nodup := by
  intro L
  induction L with
  | nil => intro t _; simp
  | cons p L ih =>
    intro t hL
    have hp := hL p (List.mem_cons_self ..)
    have hlen : p.length = n := by rw [hp.length_eq]; simp
    have hnd : p.Nodup := hp.nodup_iff.2 List.nodup_range
    rw [List.flatten_cons]
    by_cases ht : t < q
    · have hle : t * c + c ≤ n := by
        rw [hn, ← Nat.succ_mul]; exact Nat.mul_le_mul_right c ht
      rw [List.drop_append_of_le_length (by omega), List.take_append_of_le_length (by rw [List.length_drop]; omega)]
      exact ((List.take_sublist _ _).trans (List.drop_sublist _ _)).nodup hnd
    · obtain ⟨u, rfl⟩ : ∃ u, t = q + u := ⟨t - q, by omega⟩
      have : (q + u) * c = p.length + u * c := by rw [hlen, hn, Nat.add_mul]
      rw [this, List.drop_append, List.drop_eq_nil_of_le (by omega), List.nil_append]
      simp only [Nat.add_sub_cancel_left]
      exact ih u fun r hr => hL r (List.mem_cons_of_mem _ hr)

theorem length_flatten_perms (n : ℕ) : ∀ (L : List (List ℕ)), (∀ p ∈ L, p.Perm (List.range n)) →
    L.flatten.length = L.length * n := by
  intro L
  induction L with
  | nil => simp
  | cons p L ih =>
    intro hL
    have hp := hL p (List.mem_cons_self ..)
    have hlen : p.length = n := by rw [hp.length_eq]; simp
    rw [List.flatten_cons, List.length_append, ih fun q hq => hL q (List.mem_cons_of_mem _ hq), hlen, List.length_cons,
      Nat.succ_mul, Nat.add_comm]

theorem flatten_reshape (c : ℕ) : ∀ (rows : ℕ) (P : List ℕ), P.length = rows * c → (reshapeRows P rows c).flatten = P := by
  intro rows
  induction rows with
  | zero => intro P hP; simp at hP; simp [reshapeRows, hP]
  | succ rows ih =>
    intro P hP
    rw [Nat.succ_mul] at hP
    have h := ih (P.drop c) (by rw [List.length_drop]; omega)
    have he : reshapeRows P (rows + 1) c = P.take c :: reshapeRows (P.drop c) rows c := by
      simp only [reshapeRows, List.range_succ_eq_map, List.map_cons, List.map_map, Nat.zero_mul, List.drop_zero]
      congr 1
      apply List.map_congr_left
      intro t _
      simp only [Function.comp, List.drop_drop, Nat.succ_mul]
      rw [Nat.add_comm]
    rw [he, List.flatten_cons, h, List.take_append_drop]

/-- C28. The participants of the tournaments: one row for each parent to select, each with `pressure` valid indices; over
all tournaments every individual appears equally often, up to one; and if the pressure divides the population size, the
participants of a tournament are different individuals. -/
theorem C28_participants (n pressure nSelect nParents : ℕ) (hn : 0 < n) (hr : 0 < nSelect * nParents * pressure)
    (perms : ℕ → List ℕ) (hp : ∀ j, (perms j).Perm (List.range n)) :
    ∃ P, participants n pressure nSelect nParents perms = some P ∧ P.length = nSelect * nParents ∧
      (∀ row ∈ P, row.length = pressure ∧ (∀ i ∈ row, i < n) ∧ (pressure ∣ n → row.Nodup)) ∧
      (∀ i, i < n → nSelect * nParents * pressure / n ≤ P.flatten.count i ∧
        P.flatten.count i ≤ (nSelect * nParents * pressure + n - 1) / n) := by
  set R := nSelect * nParents * pressure with hR
  set k := (R + n - 1) / n with hk
  have hk0 : k ≠ 0 := by
    have : 1 ≤ k := (Nat.one_le_div_iff hn).2 (by omega)
    omega
  have hRk : R ≤ k * n := by
    have h1 := Nat.div_add_mod (R + n - 1) n
    have h2 := Nat.mod_lt (R + n - 1) hn
    rw [← hk, Nat.mul_comm] at h1
    omega
  set L := (List.range k).map perms with hL
  have hLp : ∀ p ∈ L, p.Perm (List.range n) := by
    intro p hpL
    obtain ⟨j, _, rfl⟩ := List.mem_map.1 hpL
    exact hp j
  have hLl : L.length = k := by simp [hL]
  have hfl : (List.range k).flatMap perms = L.flatten := by rw [hL, List.flatMap_def]
  have hlen : L.flatten.length = k * n := by rw [length_flatten_perms n L hLp, hLl]
  have hpart : participants n pressure nSelect nParents perms =
      some (reshapeRows (L.flatten.take R) (nSelect * nParents) pressure) := by
    unfold participants randomPermutations
    simp only [← hR, ← hk, if_neg (Nat.pos_iff_ne_zero.1 hn), if_neg hk0, hfl]
  have htl : (L.flatten.take R).length = nSelect * nParents * pressure := by rw [List.length_take, hlen]; omega
  refine ⟨_, hpart, by simp [reshapeRows], ?_, ?_⟩
  · intro row hrow
    obtain ⟨t, ht, rfl⟩ := List.mem_map.1 hrow
    have ht := List.mem_range.1 ht
    have hb : t * pressure + pressure ≤ R := by
      rw [hR, ← Nat.succ_mul]; exact Nat.mul_le_mul_right pressure ht
    have he : ((L.flatten.take R).drop (t * pressure)).take pressure = (L.flatten.drop (t * pressure)).take pressure := by
      rw [List.drop_take, List.take_take, Nat.min_eq_left (by omega)]
    refine ⟨by rw [List.length_take, List.length_drop, htl, ← hR]; omega, ?_, ?_⟩
    · intro i hi
      have : i ∈ L.flatten := List.mem_of_mem_take (List.mem_of_mem_drop (List.mem_of_mem_take hi))
      obtain ⟨p, hpL, hip⟩ := List.mem_flatten.1 this
      exact List.mem_range.1 ((hLp p hpL).mem_iff.1 hip)
    · rintro ⟨q, hq⟩
      rw [he]
      have hp0 : 0 < pressure := by
        rcases Nat.eq_zero_or_pos pressure with h | h
        · rw [hR, h] at hr; simp at hr
        · exact h
      exact block_nodup n q pressure (by rw [hq, Nat.mul_comm]) hp0 L t hLp
  · intro i hi
    rw [flatten_reshape pressure _ _ htl]
    exact count_take_flatten n hn i hi L R hLp (by rw [hLl]; exact hRk)

example : [2, 0, 3, 1].Perm (List.range 4) ∧ [1, 2, 3, 0].Perm (List.range 4) ∧
    participants 4 2 3 1 (fun j => if j = 0 then [2, 0, 3, 1] else [1, 2, 3, 0]) = some [[2, 0], [3, 1], [1, 2]] := by decide

/-- C28. Without individuals, or without anything to select, the selection raises. -/
theorem C28_nothing_to_select (n pressure nSelect nParents : ℕ) (perms : ℕ → List ℕ)
    (h : n = 0 ∨ nSelect * nParents * pressure = 0) : participants n pressure nSelect nParents perms = none := by
  unfold participants randomPermutations
  rcases h with h | h
  · simp [h]
  · by_cases hn : n = 0
    · simp [hn]
    · have : (n - 1) / n = 0 := Nat.div_eq_of_lt (by omega)
      simp [h, hn, this]

example : participants 3 2 0 2 (fun _ => [0, 1, 2]) = none := by decide

theorem runTournaments_spec (comp : ℕ → ℕ → ℕ → Option ℕ) : ∀ (P : List (List ℕ)) (i : ℕ),
    (∀ row ∈ P, row.length = 2) → (∀ i a b, comp i a b = some a ∨ comp i a b = some b) →
    ∃ S, runTournaments comp i P = some S ∧ S.length = P.length ∧
      ∀ t < P.length, ∃ a b w, P[t]? = some [a, b] ∧ S[t]? = some w ∧ comp (i + t) a b = some w ∧
        (w = a ∨ w = b) := by
  intro P
  induction P with
  | nil => intro i _ _; exact ⟨[], rfl, rfl, fun t ht => absurd ht (by simp)⟩
  | cons row P ih =>
    intro i hP hc
    obtain ⟨S, h1, h2, h3⟩ := ih (i + 1) (fun r hr => hP r (List.mem_cons_of_mem _ hr)) hc
    have hrow := hP row (List.mem_cons_self ..)
    match row, hrow with
    | [a, b], _ =>
      obtain ⟨w, hw, hwab⟩ : ∃ w, comp i a b = some w ∧ (w = a ∨ w = b) := by
        rcases hc i a b with h | h
        · exact ⟨a, h, Or.inl rfl⟩
        · exact ⟨b, h, Or.inr rfl⟩
      refine ⟨w :: S, by simp [runTournaments, hw, h1], by simp [h2], ?_⟩
      intro t ht
      cases t with
      | zero => exact ⟨a, b, w, rfl, rfl, by simpa using hw, hwab⟩
      | succ t =>
        obtain ⟨a', b', w', e1, e2, e3, e4⟩ := h3 t (by simpa using ht)
        exact ⟨a', b', w', by simpa using e1, by simpa using e2, by rw [← e3]; congr 1; omega, e4⟩

/-- C28. `TournamentSelection` with pressure two and a comparison that returns one of its participants: an
`n_select × n_parents` matrix of valid indices; entry `(s, p)` is the winner of tournament `s * n_parents + p`. -/
theorem C28_tournament (n nSelect nParents : ℕ) (hn : 0 < n) (hr : 0 < nSelect * nParents) (perms : ℕ → List ℕ)
    (hp : ∀ j, (perms j).Perm (List.range n)) (comp : ℕ → ℕ → ℕ → Option ℕ)
    (hc : ∀ i a b, comp i a b = some a ∨ comp i a b = some b) :
    ∃ P S, participants n 2 nSelect nParents perms = some P ∧
      tournamentSelect n 2 nSelect nParents perms comp = some S ∧ S.length = nSelect ∧
      (∀ row ∈ S, row.length = nParents) ∧
      ∀ s < nSelect, ∀ p < nParents, ∃ a b w, P[s * nParents + p]? = some [a, b] ∧
        (S[s]?.bind fun row => row[p]?) = some w ∧ comp (s * nParents + p) a b = some w ∧ (w = a ∨ w = b) ∧ w < n := by
  obtain ⟨P, h1, h2, h3, _⟩ := C28_participants n 2 nSelect nParents hn (by omega) perms hp
  obtain ⟨W, w1, w2, w3⟩ := runTournaments_spec comp P 0 (fun row hrow => (h3 row hrow).1) hc
  have hrowlen : ∀ s < nSelect, s * nParents + nParents ≤ W.length := by
    intro s hs
    rw [w2, h2, ← Nat.succ_mul]
    exact Nat.mul_le_mul_right nParents hs
  refine ⟨P, reshapeRows W nSelect nParents, h1, by simp [tournamentSelect, h1, w1], by simp [reshapeRows], ?_, ?_⟩
  · intro row hrow
    obtain ⟨s, hs, rfl⟩ := List.mem_map.1 hrow
    have := hrowlen s (List.mem_range.1 hs)
    rw [List.length_take, List.length_drop]
    omega
  · intro s hs p hp'
    have hlt : s * nParents + p < P.length := by have := hrowlen s hs; omega
    obtain ⟨a, b, w, e1, e2, e3, e4⟩ := w3 _ hlt
    refine ⟨a, b, w, e1, ?_, by simpa using e3, e4, ?_⟩
    · have : (reshapeRows W nSelect nParents)[s]? = some ((W.drop (s * nParents)).take nParents) := by
        simp [reshapeRows, List.getElem?_map, List.getElem?_range, hs]
      rw [this]
      simp only [Option.bind_some, List.getElem?_take, if_pos hp', List.getElem?_drop]
      exact e2
    · have hab := (h3 [a, b] (List.mem_of_getElem? e1)).2.1
      rcases e4 with rfl | rfl
      · exact hab _ (by simp)
      · exact hab _ (by simp)

/-- Every comparison above fits `C28_tournament`. -/
example (pop : ℕ → TInd m α γ) (coin : ℕ → Bool) :
    ∀ i a b, nsga2Compare .domCrowding pop (coin i) a b = some a ∨ nsga2Compare .domCrowding pop (coin i) a b = some b := by
  intro i a b
  obtain ⟨w, hw, h⟩ := C28_nsga2 .domCrowding (by decide) pop (coin i) a b
  rcases h with ⟨rfl, _⟩ | ⟨rfl, _⟩
  · exact Or.inl hw
  · exact Or.inr hw

example : tournamentSelect 4 2 2 2 (fun j => if j = 0 then [2, 0, 3, 1] else [1, 2, 3, 0])
    (fun _ a b => nsga2Compare .domCrowding exPop28 true a b) = some [[0, 1], [1, 0]] := by decide

/-- C28. With another pressure than two a binary tournament raises. -/
theorem C28_pressure (n pressure nSelect nParents : ℕ) (hn : 0 < n) (hr : 0 < nSelect * nParents * pressure)
    (h2 : pressure ≠ 2) (perms : ℕ → List ℕ) (hp : ∀ j, (perms j).Perm (List.range n)) (comp : ℕ → ℕ → ℕ → Option ℕ) :
    tournamentSelect n pressure nSelect nParents perms comp = none := by
  obtain ⟨P, h1, hl, h3, _⟩ := C28_participants n pressure nSelect nParents hn hr perms hp
  have hpos : 0 < P.length := by
    rw [hl]; exact Nat.pos_of_mul_pos_right hr
  match P, hpos with
  | row :: P, _ =>
    have hrow := (h3 row (List.mem_cons_self ..)).1
    have : runTournaments comp 0 (row :: P) = none := by
      unfold runTournaments
      match row, hrow with
      | [], _ => rfl
      | [a], _ => rfl
      | [a, b], h => exact absurd h.symm h2
      | a :: b :: c :: rest, _ => rfl
    simp [tournamentSelect, h1, this]

example : tournamentSelect 3 3 1 1 (fun _ => [0, 1, 2]) (fun _ a _ => some a) = none := by decide

/-- C28 (random selection). `RandomSelection` returns `n_select` rows of `n_parents` valid indices; every individual is
selected equally often, up to one; the parents of a mating are different if their number divides the population size. -/
theorem C28_random (n nSelect nParents : ℕ) (hn : 0 < n) (hr : 0 < nSelect * nParents) (perms : ℕ → List ℕ)
    (hp : ∀ j, (perms j).Perm (List.range n)) :
    ∃ P, randomSelect n nSelect nParents perms = some P ∧ P.length = nSelect ∧
      (∀ row ∈ P, row.length = nParents ∧ (∀ i ∈ row, i < n) ∧ (nParents ∣ n → row.Nodup)) ∧
      (∀ i, i < n → nSelect * nParents / n ≤ P.flatten.count i ∧
        P.flatten.count i ≤ (nSelect * nParents + n - 1) / n) := by
  have := C28_participants n nParents nSelect 1 hn (by simpa using hr) perms hp
  simp only [Nat.mul_one] at this
  have he : randomSelect n nSelect nParents perms = participants n nParents nSelect 1 perms := by
    simp only [randomSelect, participants, Nat.mul_one]
  rw [he]
  exact this

example : randomSelect 4 3 2 (fun j => if j = 0 then [2, 0, 3, 1] else [1, 2, 3, 0]) = some [[2, 0], [3, 1], [1, 2]] := by
  decide

end Props
