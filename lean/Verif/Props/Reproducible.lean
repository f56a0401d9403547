import Verif.Lemmas.Reproducible

/-!
# C162: a run with a seed can be repeated

`Spec.Reproducible` (`Spec/Reproducible.lean`): the result and the state of the generator afterwards depend on the generator of
the run only, not on the entropy of the operating system.
-/

set_option linter.unusedSimpArgs false

namespace Props

open Spec Model Lemmas

variable {Γ A X : Type*} {m : ℕ}

/-- The generator can return both answers. -/
def TwoSided (R : Rng Γ) : Prop := ∃ g g', (R.coin g).1 = true ∧ (R.coin g').1 = false

/-- A generator for the examples: a list of digits, two lists behave differently. -/
def exRng : Rng Bool where
  coin g := (g, g)
  permutation n g := (if g then List.finRange n else (List.finRange n).reverse, g)
  random k g := (List.replicate k (if g then 1 / 2 else 1 / 4), g)
  normal mu sd g := (List.zipWith (fun a b => a + 6 * b) mu sd, g)
  choose n k g := (if g then (List.finRange n).take k else ((List.finRange n).reverse).take k, g)
  ofSeed s := s % 2 == 1

example : TwoSided exRng := ⟨true, false, rfl, rfl⟩

/-! ### Comparisons that pass the generator on -/

theorem rep_pair_passed (R : Rng Γ) (at' : SelAttrs m) (kind : SelKind) (hk : kind ≠ .nsga3 ∧ kind ≠ .unsga3 ∧ kind ≠ .nicheGa) (a b : ℕ) :
    Reproducible (rPair R at' kind a b) := by
  unfold rPair
  cases kind with
  | ga =>
    dsimp only
    split_ifs
    exacts [rep_compare_passed _ _ _ _ _ _ _, rep_compare_passed _ _ _ _ _ _ _, rep_pure _]
  | nsga2 tt =>
    cases tt with
    | domCrowding =>
      dsimp only
      split_ifs
      exacts [rep_compare_passed _ _ _ _ _ _ _, rep_pure _, rep_pure _, rep_compare_passed _ _ _ _ _ _ _]
    | rankCrowding =>
      dsimp only
      split_ifs
      · exact rep_compare_passed _ _ _ _ _ _ _
      · refine rep_bind (rep_compare_passed _ _ _ _ _ _ _) fun S => ?_
        cases S
        · exact rep_compare_passed _ _ _ _ _ _ _
        · exact rep_pure _
    | unknown =>
      dsimp only
      split_ifs
      exacts [rep_compare_passed _ _ _ _ _ _ _, rep_pure _]
  | sms =>
    dsimp only
    split_ifs
    exacts [rep_compare_passed _ _ _ _ _ _ _, rep_pure _, rep_pure _, rep_own _ _ _]
  | ctaea =>
    dsimp only
    split_ifs
    exacts [rep_pure _, rep_pure _, rep_own _ _ _, rep_pure _, rep_pure _, rep_own _ _ _]
  | spea2 =>
    dsimp only
    split_ifs
    exacts [rep_compare_passed _ _ _ _ _ _ _, rep_compare_passed _ _ _ _ _ _ _]
  | nsga3 => exact absurd rfl hk.1
  | unsga3 => exact absurd rfl hk.2.1
  | nicheGa => exact absurd rfl hk.2.2

/-- Runs of GA, NSGA-II, SMS-EMOA, SPEA2 and of the comparison of C-TAEA: for every seed the result is the same on every machine and
at every time, for any operators that use the generator they are given. -/
theorem C162_ga_family (R : Rng Γ) (P : GaParts Γ X m) (hP : PartsOk P) (hk : P.kind ≠ .nsga3 ∧ P.kind ≠ .unsga3 ∧ P.kind ≠ .nicheGa)
    (popSize nOff maxIter k seed : ℕ) (os os' : ℕ → Γ) :
    resultFrom (rGaRun R P popSize nOff maxIter k) (R.ofSeed seed) os = resultFrom (rGaRun R P popSize nOff maxIter k) (R.ofSeed seed) os' :=
  (rep_gaRun R hP (fun pop a b => rep_pair_passed R _ _ hk a b) popSize nOff maxIter k ⟨R.ofSeed seed, os, 0⟩ ⟨R.ofSeed seed, os', 0⟩ rfl).1

/-- A decorated function with a default seed (`reference_direction.py:73`, `knapsack.py:40`, `traveling_salesman.py:42`,
`flowshop_scheduling.py:84`) returns the same whatever generators there are, and leaves the generator of the run alone. -/
theorem C162_default_seed (R : Rng Γ) (s : ℕ) (f : Rand Γ A) (hf : Reproducible f) (w w' : Entropy Γ) :
    (callRandom R (.omitted (some s)) f w).1 = (callRandom R (.omitted (some s)) f w').1 ∧
    (callRandom R (.omitted (some s)) f w).2.cur = w.cur :=
  ⟨(hf { w with cur := R.ofSeed s } { w' with cur := R.ofSeed s } rfl).1, rfl⟩

/-! ### Comparisons that do not -/

/-- The results of a tied comparison with a generator of its own. -/
theorem compare_tied_omitted {β : Type*} [LinearOrder β] (R : Rng Γ) (a b : ℕ) (v : β) (w : Entropy Γ) :
    (rCompare R (.omitted none) a v b v .smaller true w).1 = some (if (R.coin (w.os w.made)).1 then a else b) ∧
    (rCompare R (.omitted none) a v b v .smaller true w).2.cur = w.cur ∧ (rCompare R (.omitted none) a v b v .smaller true w).2.os = w.os := by
  unfold rCompare callRandom
  simp only [lt_irrefl, if_false, if_true, rBind, rChoice2, rDraw, rPure, and_self, and_true]
  rfl

/-- Two individuals tie in a positive violation. -/
def TiedViolation (at' : SelAttrs m) (a b : ℕ) : Prop := a ≠ b ∧ 0 < (at'.ind a).cv ∧ (at'.ind a).cv = (at'.ind b).cv

theorem not_rep_tied {β : Type*} [LinearOrder β] (R : Rng Γ) (hR : TwoSided R) {a b : ℕ} (hab : a ≠ b) (v : β) :
    ¬ Reproducible (rCompare R (.omitted none) a v b v .smaller true) := by
  obtain ⟨g, g', hg, hg'⟩ := hR
  intro h
  have h1 := (h ⟨g, fun _ => g, 0⟩ ⟨g, fun _ => g', 0⟩ rfl).1
  rw [(compare_tied_omitted R a b v _).1, (compare_tied_omitted R a b v _).1] at h1
  simp only [hg, hg', if_true, Bool.false_eq_true, if_false] at h1
  exact hab (Option.some.inj h1)

theorem rep_omitted_same {β : Type*} [LinearOrder β] (R : Rng Γ) (a : ℕ) (v w : β) (rr : Bool) :
    Reproducible (rCompare R (.omitted none) a v a w .smaller rr) := by
  rcases ne_or_eq v w with h | h
  · exact rep_compare_untied R _ a v a w _ rr (Or.inl h)
  · subst h
    cases rr
    · exact rep_compare_untied R _ a v a v _ _ (Or.inr rfl)
    · intro w w' hw
      obtain ⟨h1, h2, -⟩ := compare_tied_omitted R a a v w
      obtain ⟨h1', h2', -⟩ := compare_tied_omitted R a a v w'
      rw [h1, h1', h2, h2']
      simp only [ite_self]
      exact ⟨trivial, hw⟩

/-- NSGA-III and U-NSGA-III: a tournament can be repeated exactly if the two are not tied in a positive violation. -/
theorem C162_nsga3_pair (R : Rng Γ) (hR : TwoSided R) (at' : SelAttrs m) (kind : SelKind) (hk : kind = .nsga3 ∨ kind = .unsga3) (a b : ℕ) :
    Reproducible (rPair R at' kind a b) ↔ ¬ TiedViolation at' a b := by
  constructor
  · rintro h ⟨hab, h0, heq⟩
    refine not_rep_tied R hR hab (at'.ind a).cv ?_
    rcases hk with rfl | rfl
    · unfold rPair at h
      simp only [h0, true_or, if_true] at h
      rw [← heq] at h
      exact h
    · unfold rPair at h
      simp only [h0, true_or, if_true] at h
      rw [← heq] at h
      intro w w' hw
      obtain ⟨h1, h2, -⟩ := compare_tied_omitted R a b (at'.ind a).cv w
      obtain ⟨h1', h2', -⟩ := compare_tied_omitted R a b (at'.ind a).cv w'
      have := h w w' hw
      unfold rBind at this
      rw [h1, h1'] at this
      dsimp only [rPure] at this
      rw [h1, h1', h2, h2']
      exact ⟨this.1, hw⟩
  · intro h
    have hcv : 0 < (at'.ind a).cv ∨ 0 < (at'.ind b).cv →
        Reproducible (rCompare R (.omitted none) a (at'.ind a).cv b (at'.ind b).cv .smaller true) := by
      intro h0
      by_cases hab : a = b
      · subst hab
        exact rep_omitted_same _ _ _ _ _
      · refine rep_compare_untied R _ _ _ _ _ _ _ (Or.inl fun heq => h ⟨hab, ?_, heq⟩)
        rcases h0 with h0 | h0
        · exact h0
        · rw [heq]; exact h0
    rcases hk with rfl | rfl
    · unfold rPair
      dsimp only
      split_ifs with h0
      · exact hcv h0
      · exact rep_own _ _ _
    · unfold rPair
      dsimp only
      refine rep_bind ?_ fun S => ?_
      · split_ifs with h0
        · exact hcv h0
        · exact rep_compare_untied R _ _ _ _ _ _ _ (Or.inr rfl)
        · exact rep_compare_untied R _ _ _ _ _ _ _ (Or.inr rfl)
        · exact rep_pure _
      · cases S
        exacts [rep_own _ _ _, rep_pure _]

/-- The niche GA: additionally, the two must not be feasible, of the same round and of the same rank. -/
theorem C162_niche_pair (R : Rng Γ) (hR : TwoSided R) (at' : SelAttrs m) (a b : ℕ) :
    Reproducible (rPair R at' .nicheGa a b) ↔ ¬ (TiedViolation at' a b ∨
      (a ≠ b ∧ (at'.ind a).cv ≤ 0 ∧ (at'.ind b).cv ≤ 0 ∧ at'.iter a = at'.iter b ∧ (at'.ind a).rank = (at'.ind b).rank)) := by
  have hiter : at'.iter a = at'.iter b → ∀ w, (rCompare R (.omitted none) a (at'.iter a) b (at'.iter b) .smaller false w).1 = none ∧
      (rCompare R (.omitted none) a (at'.iter a) b (at'.iter b) .smaller false w).2 = { w with made := w.made + 1 } := by
    intro heq w
    rw [← heq]
    unfold rCompare callRandom
    simp only [lt_irrefl, if_false, Bool.false_eq_true, rPure, and_self]
  constructor
  · rintro h (⟨hab, h0, heq⟩ | ⟨hab, ha, hb, hi, hr⟩)
    · refine not_rep_tied R hR hab (at'.ind a).cv ?_
      unfold rPair at h
      simp only [h0, true_or, if_true] at h
      rw [← heq] at h
      exact h
    · unfold rPair at h
      simp only [not_lt.2 ha, not_lt.2 hb, or_false, if_false] at h
      rw [← hr] at h
      obtain ⟨g, g', hg, hg'⟩ := hR
      have h1 := (h ⟨g, fun _ => g, 0⟩ ⟨g, fun _ => g', 0⟩ rfl).1
      unfold rBind at h1
      rw [(hiter hi _).1, (hiter hi _).1, (hiter hi _).2, (hiter hi _).2] at h1
      dsimp only at h1
      rw [(compare_tied_omitted R a b _ _).1, (compare_tied_omitted R a b _ _).1] at h1
      simp only [hg, hg', if_true, Bool.false_eq_true, if_false] at h1
      exact hab (Option.some.inj h1)
  · intro h
    unfold rPair
    dsimp only
    split_ifs with h0
    · by_cases hab : a = b
      · subst hab
        exact rep_omitted_same _ _ _ _ _
      · refine rep_compare_untied R _ _ _ _ _ _ _ (Or.inl fun heq => h (Or.inl ⟨hab, ?_, heq⟩))
        rcases h0 with h0 | h0
        · exact h0
        · rw [heq]; exact h0
    · rw [not_or, not_lt, not_lt] at h0
      by_cases hi : at'.iter a = at'.iter b
      · refine rep_bind_on (rep_compare_untied R _ _ _ _ _ _ _ (Or.inr rfl)) fun w => ?_
        rw [(hiter hi w).1]
        dsimp only
        by_cases hab : a = b
        · subst hab
          exact rep_omitted_same _ _ _ _ _
        · exact rep_compare_untied R _ _ _ _ _ _ _ (Or.inl fun hr => h (Or.inr ⟨hab, h0.1, h0.2, hi, hr⟩))
      · refine rep_bind_on (rep_compare_untied R _ _ _ _ _ _ _ (Or.inr rfl)) fun w => ?_
        have : ∃ v, (rCompare R (.omitted none) a (at'.iter a) b (at'.iter b) .smaller false w).1 = some v := by
          unfold rCompare callRandom
          simp only [Bool.false_eq_true, if_false]
          rcases lt_or_gt_of_ne hi with h' | h'
          · rw [if_pos h']; exact ⟨a, rfl⟩
          · rw [if_neg (not_lt.2 h'.le), if_pos h']; exact ⟨b, rfl⟩
        obtain ⟨v, hv⟩ := this
        rw [hv]
        exact rep_pure _

/-- The winner of a tournament of NSGA-III or U-NSGA-III always exists, and the machine's generators stay what they are. -/
theorem nsga3_pair_some (R : Rng Γ) (at' : SelAttrs m) (kind : SelKind) (hk : kind = .nsga3 ∨ kind = .unsga3) (a b : ℕ) (w : Entropy Γ) :
    (∃ v, (rPair R at' kind a b w).1 = some v) ∧ (rPair R at' kind a b w).2.os = w.os := by
  have hc : ∀ {β : Type} [LinearOrder β] (av bv : β) (rr : Bool),
      (rCompare R (.omitted none) a av b bv .smaller rr w).2.os = w.os ∧
      (rr = true → ∃ v, (rCompare R (.omitted none) a av b bv .smaller rr w).1 = some v) := by
    intro β _ av bv rr
    unfold rCompare callRandom
    dsimp only
    split_ifs with h1 h2 h3
    · exact ⟨rfl, fun _ => ⟨a, rfl⟩⟩
    · exact ⟨rfl, fun _ => ⟨b, rfl⟩⟩
    · exact ⟨rfl, fun _ => ⟨_, rfl⟩⟩
    · exact ⟨rfl, fun h => absurd h h3⟩
  rcases hk with rfl | rfl
  · unfold rPair
    dsimp only
    split_ifs
    · exact ⟨(hc _ _ true).2 rfl, (hc _ _ true).1⟩
    · exact ⟨⟨_, rfl⟩, rfl⟩
  · unfold rPair
    dsimp only
    generalize hf : (if 0 < (at'.ind a).cv ∨ 0 < (at'.ind b).cv then
        rCompare R (.omitted none) a (at'.ind a).cv b (at'.ind b).cv .smaller true
      else if at'.niche a = at'.niche b then
          if (at'.ind a).rank ≠ (at'.ind b).rank then rCompare R (.omitted none) a (at'.ind a).rank b (at'.ind b).rank .smaller false
          else rCompare R (.omitted none) a (at'.dist a) b (at'.dist b) .smaller false
        else rPure none) = f
    have hos : (f w).2.os = w.os := by
      rw [← hf]
      split_ifs
      exacts [(hc _ _ _).1, (hc _ _ _).1, (hc _ _ _).1, rfl]
    unfold rBind
    cases (f w).1 with
    | none => exact ⟨⟨_, rfl⟩, hos⟩
    | some v => exact ⟨⟨v, rfl⟩, hos⟩

/-- The tournaments of a whole selection can be repeated exactly if no two compared individuals are tied in a positive violation. -/
theorem C162_nsga3_tournaments (R : Rng Γ) (hR : TwoSided R) (at' : SelAttrs m) (kind : SelKind) (hk : kind = .nsga3 ∨ kind = .unsga3)
    (pairs : List (ℕ × ℕ)) :
    Reproducible (rTournaments (rPair R at' kind) (pairs.map fun p => [p.1, p.2])) ↔ ∀ p ∈ pairs, ¬ TiedViolation at' p.1 p.2 := by
  constructor
  · intro h
    obtain ⟨g, g', hg, hg'⟩ := hR
    have key : ∀ (pairs : List (ℕ × ℕ)) (w w' : Entropy Γ), w.cur = w'.cur → w.os = (fun _ => g) → w'.os = (fun _ => g') →
        (rTournaments (rPair R at' kind) (pairs.map fun p => [p.1, p.2]) w).1 =
          (rTournaments (rPair R at' kind) (pairs.map fun p => [p.1, p.2]) w').1 →
        (∃ r, (rTournaments (rPair R at' kind) (pairs.map fun p => [p.1, p.2]) w).1 = some r) ∧
        ∀ p ∈ pairs, ¬ TiedViolation at' p.1 p.2 := by
      intro pairs
      induction pairs with
      | nil => exact fun w w' _ _ _ _ => ⟨⟨[], rfl⟩, fun p hp => absurd hp (List.not_mem_nil)⟩
      | cons p ps ih =>
        intro w w' hw ho ho' heq
        have ex : ∀ (ps : List (ℕ × ℕ)) (w : Entropy Γ), ∃ r, (rTournaments (rPair R at' kind) (ps.map fun p => [p.1, p.2]) w).1 = some r := by
          intro ps
          induction ps with
          | nil => exact fun w => ⟨[], rfl⟩
          | cons p ps ih' =>
            intro w
            obtain ⟨⟨v, hv⟩, -⟩ := nsga3_pair_some R at' kind hk p.1 p.2 w
            obtain ⟨r, hr⟩ := ih' (rPair R at' kind p.1 p.2 w).2
            refine ⟨v :: r, ?_⟩
            rw [List.map_cons, rTournaments]
            unfold rBind
            rw [hv]
            dsimp only
            rw [hr]
            rfl
        refine ⟨ex _ _, ?_⟩
        obtain ⟨⟨v, hv⟩, hos⟩ := nsga3_pair_some R at' kind hk p.1 p.2 w
        obtain ⟨⟨v', hv'⟩, hos'⟩ := nsga3_pair_some R at' kind hk p.1 p.2 w'
        obtain ⟨r, hr⟩ := ex ps (rPair R at' kind p.1 p.2 w).2
        obtain ⟨r', hr'⟩ := ex ps (rPair R at' kind p.1 p.2 w').2
        rw [List.map_cons, rTournaments] at heq
        unfold rBind at heq
        rw [hv, hv'] at heq
        dsimp only at heq
        rw [hr, hr'] at heq
        simp only [rPure, Option.some.injEq, List.cons.injEq] at heq
        obtain ⟨hvv, hrr⟩ := heq
        have hp : ¬ TiedViolation at' p.1 p.2 := by
          rintro ⟨hab, h0, hcv⟩
          have h1 : (rPair R at' kind p.1 p.2 w).1 = some p.1 := by
            rcases hk with rfl | rfl
            · unfold rPair
              simp only [h0, true_or, if_true]
              rw [← hcv, (compare_tied_omitted R _ _ _ w).1, ho, hg, if_pos rfl]
            · unfold rPair
              simp only [h0, true_or, if_true]
              unfold rBind
              rw [← hcv, (compare_tied_omitted R _ _ _ w).1, ho, hg, if_pos rfl]
              rfl
          have h2 : (rPair R at' kind p.1 p.2 w').1 = some p.2 := by
            rcases hk with rfl | rfl
            · unfold rPair
              simp only [h0, true_or, if_true]
              rw [← hcv, (compare_tied_omitted R _ _ _ w').1, ho', hg', if_neg (by simp)]
            · unfold rPair
              simp only [h0, true_or, if_true]
              unfold rBind
              rw [← hcv, (compare_tied_omitted R _ _ _ w').1, ho', hg', if_neg (by simp)]
              rfl
          rw [hv] at h1
          rw [hv'] at h2
          exact hab ((Option.some.inj h1).symm.trans (hvv.trans (Option.some.inj h2)))
        have hcur := ((C162_nsga3_pair R ⟨g, g', hg, hg'⟩ at' kind hk p.1 p.2).2 hp w w' hw).2
        have := (ih _ _ hcur (hos.trans ho) (hos'.trans ho') (by rw [hr, hr', hrr])).2
        intro q hq
        rcases List.mem_cons.1 hq with rfl | hq
        · exact hp
        · exact this q hq
    exact (key pairs ⟨g, fun _ => g, 0⟩ ⟨g, fun _ => g', 0⟩ rfl rfl rfl
      (h ⟨g, fun _ => g, 0⟩ ⟨g, fun _ => g', 0⟩ rfl).1).2
  · intro h
    refine rep_tournaments _ fun a b hab => ?_
    obtain ⟨p, hp, hpe⟩ := List.mem_map.1 hab
    simp only [List.cons.injEq, and_true] at hpe
    obtain ⟨rfl, rfl⟩ := hpe
    exact (C162_nsga3_pair R hR at' kind hk _ _).2 (h p hp)

/-- Runs of NSGA-III and U-NSGA-III can be repeated if every solution is feasible. -/
theorem C162_nsga3_run_partial (R : Rng Γ) (hR : TwoSided R) (P : GaParts Γ X m) (hP : PartsOk P) (hk : P.kind = .nsga3 ∨ P.kind = .unsga3)
    (hf : ∀ pop i, ((P.attrs pop).ind i).cv ≤ 0) (popSize nOff maxIter k seed : ℕ) (os os' : ℕ → Γ) :
    resultFrom (rGaRun R P popSize nOff maxIter k) (R.ofSeed seed) os = resultFrom (rGaRun R P popSize nOff maxIter k) (R.ofSeed seed) os' :=
  (rep_gaRun R hP (fun pop a b => (C162_nsga3_pair R hR _ _ hk a b).2 fun h => absurd h.2.1 (not_lt.2 (hf pop a))) popSize nOff maxIter k
    ⟨R.ofSeed seed, os, 0⟩ ⟨R.ofSeed seed, os', 0⟩ rfl).1

/-- The parts of the examples: individuals are numbers, all of violation one or all feasible; the crossover copies the
selected parents and adds ten. -/
def exParts (kind : SelKind) (cv : ℚ) : GaParts Bool ℕ 1 where
  kind := kind
  attrs _ := ⟨fun _ => ⟨cv, fun _ => 0, 0, 0⟩, fun _ => 0, fun _ => 0, fun _ => 0, fun _ => 0⟩
  nParents := 1
  nChildren := 1
  crossover pop S := rPure (S.flatten.map fun i => pop.getD i 0 + 10)
  crossoverRepair := none
  mutation off := rPure off
  mutationRepair := none
  repair off := rPure off
  elim o _ _ := o
  survive pop n := rPure (pop.reverse.take n)
  advanceFirst := true
  sample n := rPure (List.range n)

theorem exParts_ok (kind : SelKind) (cv : ℚ) : PartsOk (exParts kind cv) :=
  ⟨fun _ _ => rep_pure _, fun _ h => (by cases h), fun _ => rep_pure _, fun _ h => (by cases h), fun _ => rep_pure _, fun _ _ => rep_pure _,
    fun _ => rep_pure _⟩

/-- One generation of NSGA-III or U-NSGA-III from a fixed seed has different results on different machines: the two members are infeasible with
the same violation, and the tournaments between them are decided by the operating system. The same run of NSGA-II has one
result. -/
theorem C162_nsga3_run_refuted (kind : SelKind) (hk : kind = .nsga3 ∨ kind = .unsga3 ∨ kind = .nicheGa) :
    resultFrom (rGaRun exRng (exParts kind 1) 2 2 100 1) (exRng.ofSeed 1) (fun _ => true) ≠
      resultFrom (rGaRun exRng (exParts kind 1) 2 2 100 1) (exRng.ofSeed 1) (fun _ => false) := by
  rcases hk with rfl | rfl | rfl <;> decide +kernel

example : resultFrom (rGaRun exRng (exParts (.nsga2 .domCrowding) 1) 2 2 100 1) (exRng.ofSeed 1) (fun _ => true) = [11, 11] := by decide +kernel
example : resultFrom (rGaRun exRng (exParts .nsga3 0) 2 2 100 1) (exRng.ofSeed 1) (fun _ => false) = [11, 11] := by decide +kernel
example : resultFrom (rGaRun exRng (exParts .nsga3 1) 2 2 100 1) (exRng.ofSeed 1) (fun _ => false) = [10, 10] := by decide +kernel
example : ∀ pop i, (((exParts .nsga3 0).attrs pop).ind i).cv ≤ 0 := fun _ _ => le_refl _

/-! ### Pattern search -/

/-- `numpy`'s permutations are permutations. -/
def Rng.Permutes (R : Rng Γ) : Prop := ∀ n g, (R.permutation n g).1.Perm (List.finRange n)

theorem C162_pattern_partial (R : Rng Γ) (hR : Rng.Permutes R) (at' : Attrs (Fin 1 → ℚ) ℚ ℚ 1) (xl xu : Option (Fin 1 → ℚ)) (delta : Fin 1 → ℚ)
    (initRho step : ℚ) : ∀ (k : ℕ) (s : PatternState ℚ 1), Reproducible (rPatternRun R at' xl xu delta initRho step k s)
  | 0, _ => rep_pure _
  | k + 1, s => by
    refine rep_bind (rep_bind (rep_omitted' R hR) fun _ => rep_pure _) fun r =>
      rep_bind (C162_pattern_partial R hR at' xl xu delta initRho step k r.1) fun _ => rep_pure _
where
  rep_omitted' (R : Rng Γ) (hR : Rng.Permutes R) : Reproducible (rOrder R 1) := by
    intro w w' h
    have e : ∀ g, (R.permutation 1 g).1 = [0] := fun g => List.perm_singleton.1 (hR 1 g)
    exact ⟨(e _).trans (e _).symm, h⟩

/-- The objective `(x + y - 1/2)²` of two variables, without constraints. -/
def exSquare : Attrs (Fin 2 → ℚ) ℚ ℚ 1 := ⟨fun x _ => (x 0 + x 1 - 1 / 2) ^ 2, fun _ => true, fun _ => 0⟩

/-- The first iteration on `(x + y - 1/2)²` from the origin ends in `(1/2, 0)` or in `(0, 1/2)`, as the operating system has it;
whatever the generator, if it can return both orders. -/
theorem C162_pattern_refuted (R : Rng Γ) (seed : ℕ) (g g' : Γ) (hg : (R.permutation 2 g).1 = [0, 1]) (hg' : (R.permutation 2 g').1 = [1, 0]) :
    (resultFrom (rPatternRun R exSquare none none (fun _ => 1) (1 / 2) 2 1 (patternInit (fun _ => 0) (1 / 2))) (R.ofSeed seed) (fun _ => g)).1.explr
        = ![1 / 2, 0] ∧
    (resultFrom (rPatternRun R exSquare none none (fun _ => 1) (1 / 2) 2 1 (patternInit (fun _ => 0) (1 / 2))) (R.ofSeed seed) (fun _ => g')).1.explr
        = ![0, 1 / 2] := by
  have key : ∀ (h : Γ) (o : List (Fin 2)), (R.permutation 2 h).1 = o →
      (resultFrom (rPatternRun R exSquare none none (fun _ => 1) (1 / 2) 2 1 (patternInit (fun _ => 0) (1 / 2))) (R.ofSeed seed) (fun _ => h)).1.explr =
        (patternNext exSquare none none (fun _ => 1) (1 / 2) 2 o (patternInit (fun _ => 0) (1 / 2))).1.explr := by
    intro h o ho
    subst ho
    rfl
  rw [key g _ hg, key g' _ hg']
  constructor <;> decide +kernel

/-- The run that draws is the run of the local search model, on the orders drawn from the operating system's generators `os i`
for the successive iterations; `k` iterations draw `k` orders. -/
theorem C162_pattern_model {n : ℕ} (R : Rng Γ) (at' : Attrs (Fin n → ℚ) ℚ ℚ 1) (xl xu : Option (Fin n → ℚ)) (delta : Fin n → ℚ)
    (initRho step : ℚ) (k : ℕ) : ∀ (s : PatternState ℚ n) (w : Entropy Γ),
      (rPatternRun R at' xl xu delta initRho step k s w).1 =
        patternRun at' xl xu delta initRho step ((List.range k).map fun i => (R.permutation n (w.os (w.made + i))).1) s := by
  induction k with
  | zero => exact fun _ _ => rfl
  | succ k ih =>
    intro s w
    have e : (rOrder R n w).2.os = w.os ∧ (rOrder R n w).2.made = w.made + 1 ∧ (rOrder R n w).1 = (R.permutation n (w.os w.made)).1 :=
      ⟨rfl, rfl, rfl⟩
    have h := ih (patternNext at' xl xu delta initRho step (rOrder R n w).1 s).1 (rOrder R n w).2
    rw [e.1, e.2.1] at h
    rw [List.range_succ_eq_map, List.map_cons, List.map_map]
    have hm : ((fun i => (R.permutation n (w.os (w.made + i))).1) ∘ Nat.succ) =
        fun i => (R.permutation n (w.os (w.made + 1 + i))).1 := by
      funext i
      simp only [Function.comp_apply, Nat.succ_eq_add_one, Nat.add_assoc, Nat.add_comm 1 i]
    rw [hm]
    change (((rPatternRun R at' xl xu delta initRho step k (patternNext at' xl xu delta initRho step (rOrder R n w).1 s).1 (rOrder R n w).2).1).1,
      (patternNext at' xl xu delta initRho step (rOrder R n w).1 s).2 ++
      ((rPatternRun R at' xl xu delta initRho step k (patternNext at' xl xu delta initRho step (rOrder R n w).1 s).1 (rOrder R n w).2).1).2) = _
    rw [h, e.2.2]
    rfl

example : (exRng.permutation 2 true).1 = [0, 1] ∧ (exRng.permutation 2 false).1 = [1, 0] := by decide
example : Rng.Permutes exRng := fun n g => by cases g <;> simp [exRng, List.reverse_perm]

/-! ### Gaussian mutation -/

theorem wherePos_nil {r n : ℕ} {mask : Fin r → Fin n → Bool} (h : ∀ i j, mask i j = false) : wherePos mask = [] := by
  simp [wherePos, h]

theorem rep_gaussDraw {r n : ℕ} (R : Rng Γ) (X : Fin r → Fin n → ℚ) (xl xu : Fin n → ℚ) (sigma prob : Fin r → ℚ) :
    Reproducible (rGaussDraw R X xl xu sigma prob) :=
  rep_bind (rep_draw _) fun _ => rep_bind (rep_draw _) fun _ => rep_pure _

theorem setWhere_none {r n : ℕ} (X Y : Fin r → Fin n → ℚ) {mask : Fin r → Fin n → Bool} (h : ∀ i j, mask i j = false) : setWhere X mask Y = X := by
  funext i j
  simp [setWhere, h]

/-- Inside the bounds nothing is repaired. -/
theorem repair_inside {r n : ℕ} (R : Rng Γ) (arg : RArg) (Xp X : Fin r → Fin n → ℚ) (xl xu : Fin n → ℚ) (h : ∀ i j, xl j ≤ Xp i j ∧ Xp i j ≤ xu j) :
    rRepairRandomInit R arg Xp X xl xu = callRandom R arg (rPure Xp) := by
  have h1 : ∀ i j, below Xp xl i j = false := fun i j => decide_eq_false (not_lt.2 (h i j).1)
  have h2 : ∀ i j, above Xp xu i j = false := fun i j => decide_eq_false (not_lt.2 (h i j).2)
  unfold rRepairRandomInit
  simp only [wherePos_nil h1, List.length_nil, lt_irrefl, if_false, setWhere_none _ _ h1, wherePos_nil h2, setWhere_none _ _ h2]
  rfl

/-- Gaussian mutation can be repeated if no value drawn leaves the bounds; its result is then what was drawn. -/
theorem C162_gauss_partial {r n : ℕ} (R : Rng Γ) (X : Fin r → Fin n → ℚ) (xl xu : Fin n → ℚ) (sigma prob : Fin r → ℚ) (w w' : Entropy Γ) (hw : w.cur = w'.cur)
    (h : ∀ i j, xl j ≤ (rGaussDraw R X xl xu sigma prob w).1 i j ∧ (rGaussDraw R X xl xu sigma prob w).1 i j ≤ xu j) :
    (rMutGauss R X xl xu sigma prob w).1 = (rGaussDraw R X xl xu sigma prob w).1 ∧
    (rMutGauss R X xl xu sigma prob w').1 = (rMutGauss R X xl xu sigma prob w).1 := by
  obtain ⟨h1, -⟩ := rep_gaussDraw R X xl xu sigma prob w w' hw
  unfold rMutGauss rBind
  dsimp only
  rw [repair_inside R _ _ X xl xu h, repair_inside R _ _ X xl xu (h1 ▸ h), ← h1]
  exact ⟨rfl, rfl⟩

/-- Gaussian mutation leaves individuals with probability zero alone, whatever non-negative numbers are drawn; a probability of one mutates every variable: each gets the number drawn for it. -/
theorem C162_gauss_probability {r n : ℕ} (R : Rng Γ) (X : Fin r → Fin n → ℚ) (xl xu : Fin n → ℚ) (sigma prob : Fin r → ℚ) (w : Entropy Γ)
    (hR : ∀ k g, (R.random k g).1.length = k ∧ ∀ u ∈ (R.random k g).1, 0 ≤ u ∧ u < 1) :
    (∀ i, prob i = 0 → (rGaussDraw R X xl xu sigma prob w).1 i = X i) ∧
    ((∀ i, prob i = 1) → ∀ i j, (rGaussDraw R X xl xu sigma prob w).1 i j =
      (R.normal ((wherePos fun (_ : Fin r) (_ : Fin n) => true).map fun p => X p.1 p.2) ((wherePos fun (_ : Fin r) (_ : Fin n) => true).map fun p => sigma p.1 * (xu p.2 - xl p.2))
        (R.random (r * n) w.cur).2).1.getD ((wherePos fun (_ : Fin r) (_ : Fin n) => true).idxOf (i, j)) 0) := by
  obtain ⟨hl, hu⟩ := hR (r * n) w.cur
  have hlt : ∀ (i : Fin r) (j : Fin n), i.val * n + j.val < (R.random (r * n) w.cur).1.length := fun i j => by
    rw [hl]
    have : (i.val + 1) * n ≤ r * n := Nat.mul_le_mul_right n i.2
    have := j.2
    rw [Nat.add_mul] at *
    omega
  have hd : ∀ (i : Fin r) (j : Fin n), 0 ≤ (R.random (r * n) w.cur).1.getD (i.val * n + j.val) 0 ∧ (R.random (r * n) w.cur).1.getD (i.val * n + j.val) 0 < 1 := fun i j => by
    rw [List.getD_eq_getElem?_getD, List.getElem?_eq_getElem (hlt i j)]
    exact hu _ (List.getElem_mem _)
  have key : ∀ mask : Fin r → Fin n → Bool, (mask = fun i j => decide ((R.random (r * n) w.cur).1.getD (i.val * n + j.val) 0 < prob i)) →
      (rGaussDraw R X xl xu sigma prob w).1 = setWhere X mask (atPos mask (R.normal ((wherePos mask).map fun p => X p.1 p.2) ((wherePos mask).map fun p => sigma p.1 * (xu p.2 - xl p.2))
        (R.random (r * n) w.cur).2).1) := by
    rintro mask rfl; rfl
  refine ⟨fun i hi => ?_, fun h1 i j => ?_⟩
  · funext j
    have : decide ((R.random (r * n) w.cur).1.getD (i.val * n + j.val) 0 < prob i) = false := decide_eq_false (by rw [hi]; exact not_lt.2 (hd i j).1)
    rw [key _ rfl]
    unfold setWhere
    exact if_neg fun e => Bool.false_ne_true (this.symm.trans e)
  · have : (fun (_ : Fin r) (_ : Fin n) => true) = (fun (i : Fin r) (j : Fin n) => decide ((R.random (r * n) w.cur).1.getD (i.val * n + j.val) 0 < prob i)) := by
      funext i j
      exact (decide_eq_true (by rw [h1 i]; exact (hd i j).2)).symm
    rw [key _ this]
    rfl

/-- The condition on the generator can be met. -/
example : ∀ k g, (exRng.random k g).1.length = k ∧ ∀ u ∈ (exRng.random k g).1, 0 ≤ u ∧ u < 1 := by
  intro k g
  refine ⟨by simp [exRng], fun u hu => ?_⟩
  rw [List.eq_of_mem_replicate hu]
  cases g <;> norm_num

/-- One variable, drawn above its upper bound: the result depends on the operating system, whatever the generator, if it can
return two different numbers. -/
theorem C162_gauss_refuted (R : Rng Γ) (X : Fin 1 → Fin 1 → ℚ) (xl xu : Fin 1 → ℚ) (sigma prob : Fin 1 → ℚ) (g : Γ) (os os' : ℕ → Γ)
    (hX : X 0 0 < xu 0) (hb : xl 0 ≤ xu 0) (h : xu 0 < (rGaussDraw R X xl xu sigma prob ⟨g, os, 0⟩).1 0 0)
    (hu : (R.random 1 (os 0)).1.getD 0 0 ≠ (R.random 1 (os' 0)).1.getD 0 0) :
    resultFrom (rMutGauss R X xl xu sigma prob) g os ≠ resultFrom (rMutGauss R X xl xu sigma prob) g os' := by
  have key : ∀ o : ℕ → Γ, resultFrom (rMutGauss R X xl xu sigma prob) g o 0 0 = xu 0 - (R.random 1 (o 0)).1.getD 0 0 * (xu 0 - X 0 0) := by
    intro o
    have hd : xu 0 < (rGaussDraw R X xl xu sigma prob ⟨g, o, 0⟩).1 0 0 := by
      rw [← (rep_gaussDraw R X xl xu sigma prob ⟨g, os, 0⟩ ⟨g, o, 0⟩ rfl).1]; exact h
    have hos : (rGaussDraw R X xl xu sigma prob ⟨g, o, 0⟩).2.os = o ∧ (rGaussDraw R X xl xu sigma prob ⟨g, o, 0⟩).2.made = 0 := ⟨rfl, rfl⟩
    unfold resultFrom rMutGauss rBind
    generalize rGaussDraw R X xl xu sigma prob ⟨g, o, 0⟩ = q at hd hos
    obtain ⟨Xp, v⟩ := q
    dsimp only at hd hos ⊢
    have h1 : ∀ i j, below Xp xl i j = false := fun i j => by
      rw [Subsingleton.elim i 0, Subsingleton.elim j 0]
      exact decide_eq_false (not_lt.2 (hb.trans hd.le))
    have h2 : above Xp xu = fun _ _ => true := by
      funext i j
      rw [Subsingleton.elim i 0, Subsingleton.elim j 0]
      exact decide_eq_true hd
    have h3 : wherePos (fun (_ : Fin 1) (_ : Fin 1) => true) = [(0, 0)] := by decide
    unfold rRepairRandomInit callRandom
    simp only [wherePos_nil h1, List.length_nil, lt_irrefl, if_false, setWhere_none _ _ h1, rBind, rPure, h2, h3, List.length_cons, zero_add, Nat.zero_lt_one, if_true,
      rDraw, setWhere, atPos, hos.1, hos.2]
    simp
  intro heq
  have := congrFun (congrFun heq 0) 0
  rw [key, key] at this
  have hne : xu 0 - X 0 0 ≠ 0 := sub_ne_zero.2 hX.ne'
  exact hu (mul_right_cancel₀ hne (sub_right_injective this))

/-- The hypotheses of `C162_gauss_refuted` and `C162_gauss_partial` can be met. -/
example : (1 : ℚ) < (rGaussDraw exRng (fun (_ : Fin 1) (_ : Fin 1) => 1 / 2) (fun _ => 0) (fun _ => 1) (fun _ => 1 / 4) (fun _ => 1)
    ⟨true, fun _ => true, 0⟩).1 0 0 := by decide +kernel
example : ∀ i j, (0 : ℚ) ≤ (rGaussDraw exRng (fun (_ : Fin 1) (_ : Fin 1) => 1 / 2) (fun _ => 0) (fun _ => 1) (fun _ => 1 / 20) (fun _ => 1)
    ⟨true, fun _ => true, 0⟩).1 i j ∧ (rGaussDraw exRng (fun (_ : Fin 1) (_ : Fin 1) => 1 / 2) (fun _ => 0) (fun _ => 1) (fun _ => 1 / 20) (fun _ => 1)
    ⟨true, fun _ => true, 0⟩).1 i j ≤ 1 := by decide +kernel
example : (exRng.random 1 true).1.getD 0 0 ≠ (exRng.random 1 false).1.getD 0 0 := by decide +kernel

/-! ### Archives and parameter control -/

/-- An archive can be repeated exactly if it never has more than `max_size` solutions to keep (for a generator that can choose
differently). -/
theorem C162_archive (R : Rng Γ) (maxSize : Option ℕ) (truncSize : ℕ) (opt : List A) (hn : opt.Nodup)
    (hR : ∃ g g', (R.choose opt.length truncSize g).1 ≠ (R.choose opt.length truncSize g').1) :
    Reproducible (rTruncate R maxSize truncSize opt) ↔ ∀ k, maxSize = some k → k = 0 ∨ opt.length ≤ k := by
  constructor
  · rintro h k rfl
    by_contra hk
    rw [not_or, not_le] at hk
    obtain ⟨g, g', hg⟩ := hR
    have := (h ⟨g, fun _ => g, 0⟩ ⟨g, fun _ => g', 0⟩ rfl).1
    unfold rTruncate at this
    dsimp only at this
    rw [if_pos ⟨hk.1, hk.2⟩] at this
    have inj : Function.Injective opt.get := List.nodup_iff_injective_get.1 hn
    exact hg (List.map_injective_iff.2 inj this)
  · intro h
    unfold rTruncate
    cases maxSize with
    | none => exact rep_pure _
    | some k =>
      dsimp only
      rw [if_neg]
      · exact rep_pure _
      · rintro ⟨h1, h2⟩
        rcases h k rfl with h | h
        · exact h1 h
        · omega

example : ∃ g g', (exRng.choose [3, 5].length 1 g).1 ≠ (exRng.choose [3, 5].length 1 g').1 := ⟨true, false, by decide⟩
example : ([3, 5] : List ℕ).Nodup := by decide

/-- The parameters of differential evolution: with `NoParameterControl` (the default) they can be repeated, with
`RandomParameterControl` they cannot, if there are any and the generator can draw differently. -/
theorem C162_de_control (R : Rng Γ) (control : Option ℕ) (N : ℕ)
    (hR : ∀ k, 0 < k → ∃ g g', (R.random k g).1 ≠ (R.random k g').1) (h0 : ∀ g, (R.random 0 g).1 = []) :
    Reproducible (rDeControl R control N) ↔ ∀ params, control = some params → params * N = 0 := by
  constructor
  · rintro h params rfl
    by_contra hk
    obtain ⟨g, g', hg⟩ := hR _ (Nat.pos_of_ne_zero hk)
    exact hg (h ⟨g, fun _ => g, 0⟩ ⟨g, fun _ => g', 0⟩ rfl).1
  · intro h
    unfold rDeControl rControlDo
    cases control with
    | none => exact rep_omitted R _ (det_pure _) (rep_pure _)
    | some params =>
      dsimp only
      rw [h params rfl]
      exact rep_omitted R _ (fun w w' => (h0 _).trans (h0 _).symm) (rep_draw _)

example : ∀ k, 0 < k → ∃ g g', (exRng.random k g).1 ≠ (exRng.random k g').1 := fun k hk => ⟨true, false, by
  obtain ⟨k, rfl⟩ := Nat.exists_eq_succ_of_ne_zero hk.ne'
  simp [exRng, List.replicate_succ]⟩

/-! ### The same tournaments as elsewhere in the model -/

/-- The comparisons of `Model/Selection.lean`, where the coins are arguments (the two of NSGA-III are given as two). -/
def pairOf (at' : SelAttrs 1) (kind : SelKind) (coin other : Bool) (a b : ℕ) : Option ℕ :=
  match kind with
  | .ga => gaCompare at'.ind coin a b
  | .nsga2 tt => nsga2Compare tt at'.ind coin a b
  | .sms => smsCompare at'.ind coin a b
  | .ctaea => some (ctaeaCompare at'.ind coin a b)
  | .spea2 => speaCompare at'.ind at'.speaF coin a b
  | .nsga3 => nsga3Compare at'.ind coin other a b
  | .unsga3 => some (unsga3Compare at'.ind at'.niche at'.dist coin other a b)
  | .nicheGa => none

theorem rCompare_fst {β : Type*} [LinearOrder β] (R : Rng Γ) (arg : RArg) (a : ℕ) (av : β) (b : ℕ) (bv : β) (me : CmpMethod) (rr : Bool) (w : Entropy Γ) :
    ∃ c : Bool, (rCompare R arg a av b bv me rr w).1 = compareInd a av b bv me rr c ∧ (arg = .passed → c = (R.coin w.cur).1) := by
  have key : ∀ v : Entropy Γ, ∀ me : CmpMethod,
      ((match me with
      | .larger =>
        if bv < av then rPure (some a)
        else if av < bv then rPure (some b)
        else if rr then rBind (rChoice2 R a b) fun w => rPure (some w) else rPure none
      | .smaller =>
        if av < bv then rPure (some a)
        else if bv < av then rPure (some b)
        else if rr then rBind (rChoice2 R a b) fun w => rPure (some w) else rPure none : Rand Γ (Option ℕ)) v).1 =
      compareInd a av b bv me rr (R.coin v.cur).1 := by
    intro v me
    cases me <;> unfold compareInd <;> dsimp only <;> split_ifs <;> first | rfl | simp_all [rBind, rChoice2, rDraw, rPure]
  unfold rCompare callRandom
  match arg with
  | .passed => exact ⟨_, key w me, fun _ => rfl⟩
  | .omitted none => exact ⟨_, key _ me, fun h => by cases h⟩
  | .omitted (some s) => exact ⟨_, key _ me, fun h => by cases h⟩

/-- One tournament is the comparison of `Model/Selection.lean` for coins that were drawn. -/
theorem rPair_fst (R : Rng Γ) (at' : SelAttrs 1) (kind : SelKind) (hk : kind ≠ .nicheGa) (a b : ℕ) (w : Entropy Γ) :
    ∃ coin other, (rPair R at' kind a b w).1 = pairOf at' kind coin other a b := by
  unfold rPair pairOf
  cases kind with
  | ga =>
    unfold gaCompare
    dsimp only
    split_ifs with h0 h1
    · obtain ⟨c, hc, -⟩ := rCompare_fst R .passed a (at'.ind a).cv b (at'.ind b).cv .smaller true w
      exact ⟨c, c, hc⟩
    · obtain ⟨c, hc, -⟩ := rCompare_fst R .passed a ((at'.ind a).F 0) b ((at'.ind b).F 0) .smaller true w
      exact ⟨c, c, hc⟩
    · omega
  | nsga2 tt =>
    unfold nsga2Compare
    by_cases h0 : 0 < (at'.ind a).cv ∨ 0 < (at'.ind b).cv
    · simp only [h0, if_true]
      obtain ⟨c, hc, -⟩ := rCompare_fst R .passed a (at'.ind a).cv b (at'.ind b).cv .smaller true w
      exact ⟨c, c, hc⟩
    · simp only [h0, if_false]
      cases tt with
      | domCrowding =>
        dsimp only
        split_ifs
        · exact ⟨true, true, rfl⟩
        · exact ⟨true, true, rfl⟩
        · obtain ⟨c, hc, -⟩ := rCompare_fst R .passed a (at'.ind a).crowding b (at'.ind b).crowding .larger true w
          exact ⟨c, c, hc⟩
      | rankCrowding =>
        unfold rBind
        dsimp only
        obtain ⟨c, hc, -⟩ := rCompare_fst R .passed a (at'.ind a).rank b (at'.ind b).rank .smaller false w
        have hcc : ∀ c', compareInd a (at'.ind a).rank b (at'.ind b).rank .smaller false c' =
            compareInd a (at'.ind a).rank b (at'.ind b).rank .smaller false c := fun c' => by
          unfold compareInd; simp
        rw [hc]
        cases hS : compareInd a (at'.ind a).rank b (at'.ind b).rank .smaller false c with
        | some v => exact ⟨c, c, by rw [hS]; rfl⟩
        | none =>
          dsimp only
          obtain ⟨c', hc', -⟩ := rCompare_fst R .passed a (at'.ind a).crowding b (at'.ind b).crowding .larger true
            (rCompare R .passed a (at'.ind a).rank b (at'.ind b).rank .smaller false w).2
          exact ⟨c', c', by rw [hcc, hS]; exact hc'⟩
      | unknown => exact ⟨true, true, rfl⟩
  | sms =>
    unfold smsCompare
    dsimp only
    split_ifs
    · obtain ⟨c, hc, -⟩ := rCompare_fst R .passed a (at'.ind a).cv b (at'.ind b).cv .smaller true w
      exact ⟨c, c, hc⟩
    · exact ⟨true, true, rfl⟩
    · exact ⟨true, true, rfl⟩
    · exact ⟨(R.coin w.cur).1, true, rfl⟩
  | ctaea =>
    unfold ctaeaCompare
    dsimp only
    split_ifs
    · exact ⟨true, true, rfl⟩
    · exact ⟨true, true, rfl⟩
    · exact ⟨(R.coin w.cur).1, true, rfl⟩
    · exact ⟨true, true, rfl⟩
    · exact ⟨true, true, rfl⟩
    · exact ⟨(R.coin w.cur).1, true, rfl⟩
  | spea2 =>
    unfold speaCompare
    dsimp only
    split_ifs
    · obtain ⟨c, hc, -⟩ := rCompare_fst R .passed a (at'.ind a).cv b (at'.ind b).cv .smaller true w
      exact ⟨c, c, hc⟩
    · obtain ⟨c, hc, -⟩ := rCompare_fst R .passed a (at'.speaF a) b (at'.speaF b) .smaller true w
      exact ⟨c, c, hc⟩
  | nsga3 =>
    unfold nsga3Compare
    dsimp only
    split_ifs
    · obtain ⟨c, hc, -⟩ := rCompare_fst R (.omitted none) a (at'.ind a).cv b (at'.ind b).cv .smaller true w
      exact ⟨c, c, hc⟩
    · exact ⟨(R.coin w.cur).1, true, rfl⟩
  | unsga3 =>
    unfold unsga3Compare rBind
    dsimp only
    have fin : ∀ (f : Rand Γ (Option ℕ)) (other : Bool) (S : Bool → Option ℕ), (f w).1 = S other →
        ∃ (coin : Bool) (other' : Bool), ((match (f w).1 with
          | some v => rPure (some v)
          | none => fun w => rPure (some (rChoice2 R a b w).1) (rChoice2 R a b w).2 : Rand Γ (Option ℕ)) (f w).2).1 =
          some (match S other' with
            | some v => v
            | none => if coin then a else b) := by
      intro f other S hS
      rw [hS]
      cases h : S other with
      | some v => exact ⟨true, other, by rw [h]; rfl⟩
      | none => exact ⟨(R.coin (f w).2.cur).1, other, by rw [h]; rfl⟩
    split_ifs
    · obtain ⟨c, hc, -⟩ := rCompare_fst R (.omitted none) a (at'.ind a).cv b (at'.ind b).cv .smaller true w
      exact fin _ c (fun c => compareInd a (at'.ind a).cv b (at'.ind b).cv .smaller true c) hc
    · obtain ⟨c, hc, -⟩ := rCompare_fst R (.omitted none) a (at'.ind a).rank b (at'.ind b).rank .smaller false w
      exact fin _ c (fun c => compareInd a (at'.ind a).rank b (at'.ind b).rank .smaller false c) hc
    · obtain ⟨c, hc, -⟩ := rCompare_fst R (.omitted none) a (at'.dist a) b (at'.dist b) .smaller false w
      exact fin _ c (fun c => compareInd a (at'.dist a) b (at'.dist b) .smaller false c) hc
    · exact fin (rPure none) true (fun _ => none) rfl
  | nicheGa => exact absurd rfl hk

/-- The whole selection is the one of `Model/Selection.lean` for permutations and coins that were drawn: what is proved there for
all draws holds of it. -/
theorem C162_model (R : Rng Γ) (at' : SelAttrs 1) (kind : SelKind) (hk : kind ≠ .nicheGa) (n pressure nSelect nParents : ℕ) (w : Entropy Γ) :
    ∃ (perms : ℕ → List ℕ) (coin other : ℕ → Bool),
      (rTournamentSelect R n pressure nSelect nParents (rPair R at' kind) w).1 =
        tournamentSelect n pressure nSelect nParents perms (fun i => pairOf at' kind (coin i) (other i)) := by
  have hT : ∀ (rows : List (List ℕ)) (i : ℕ) (w : Entropy Γ), ∃ coin other : ℕ → Bool,
      (rTournaments (rPair R at' kind) rows w).1 = runTournaments (fun i => pairOf at' kind (coin i) (other i)) i rows := by
    have congr : ∀ (rows : List (List ℕ)) (i : ℕ) (f g : ℕ → ℕ → ℕ → Option ℕ), (∀ j, i ≤ j → f j = g j) →
        runTournaments f i rows = runTournaments g i rows := by
      intro rows
      induction rows with
      | nil => exact fun _ _ _ _ => rfl
      | cons row rows ih =>
        intro i f g h
        unfold runTournaments
        rw [h i le_rfl, ih (i + 1) f g fun j hj => h j (by omega)]
    intro rows
    induction rows with
    | nil => exact fun i w => ⟨fun _ => true, fun _ => true, rfl⟩
    | cons row rows ih =>
      intro i w
      match row with
      | [] => exact ⟨fun _ => true, fun _ => true, rfl⟩
      | [_] => exact ⟨fun _ => true, fun _ => true, rfl⟩
      | _ :: _ :: _ :: _ => exact ⟨fun _ => true, fun _ => true, rfl⟩
      | [a, b] =>
        obtain ⟨c, o, hco⟩ := rPair_fst R at' kind hk a b w
        obtain ⟨cs, os, hcs⟩ := ih (i + 1) (rPair R at' kind a b w).2
        refine ⟨fun j => if j = i then c else cs j, fun j => if j = i then o else os j, ?_⟩
        unfold rTournaments runTournaments rBind
        have e := congr rows (i + 1) (fun j => pairOf at' kind (if j = i then c else cs j) (if j = i then o else os j))
          (fun j => pairOf at' kind (cs j) (os j)) (fun j hj => by
            have : j ≠ i := by omega
            simp only [this, if_false])
        rw [e, ← hcs]
        simp only [if_true]
        rw [hco]
        cases pairOf at' kind c o a b with
        | none => rfl
        | some v =>
          dsimp only
          cases (rTournaments (rPair R at' kind) rows (rPair R at' kind a b w).2).1 <;> rfl
  have hP : ∀ (l k : ℕ) (w : Entropy Γ), ∃ perms : ℕ → List ℕ, (rPermutations R l k w).1 = (List.range k).map perms := by
    intro l k
    induction k with
    | zero => exact fun w => ⟨fun _ => [], rfl⟩
    | succ k ih =>
      intro w
      obtain ⟨p, hp⟩ := ih (rDraw (R.permutation l) w).2
      refine ⟨fun i => if i = 0 then ((R.permutation l w.cur).1.map Fin.val) else p (i - 1), ?_⟩
      unfold rPermutations rBind
      dsimp only
      rw [hp, List.range_succ_eq_map, List.map_cons, List.map_map]
      unfold rPure rDraw
      simp only [if_true, List.cons.injEq, true_and]
      apply List.map_congr_left
      intro i _
      simp
  unfold rTournamentSelect tournamentSelect participants randomPermutations
  dsimp only
  by_cases hn : n = 0
  · simp only [hn, if_true]
    exact ⟨fun _ => [], fun _ => true, fun _ => true, rfl⟩
  · simp only [hn, if_false]
    obtain ⟨perms, hp⟩ := hP n ((nSelect * nParents * pressure + n - 1) / n) w
    unfold rBind
    by_cases h0 : (nSelect * nParents * pressure + n - 1) / n = 0
    · simp only [h0, if_true]
      exact ⟨fun _ => [], fun _ => true, fun _ => true, rfl⟩
    · simp only [h0, if_false, callRandom]
      rw [hp]
      obtain ⟨c, o, hco⟩ := hT (reshapeRows (((List.range ((nSelect * nParents * pressure + n - 1) / n)).map perms).flatten.take
        (nSelect * nParents * pressure)) (nSelect * nParents) pressure) 0 (rPermutations R n ((nSelect * nParents * pressure + n - 1) / n) w).2
      refine ⟨perms, c, o, ?_⟩
      rw [hco, ← List.flatMap_def]
      rfl

end Props
