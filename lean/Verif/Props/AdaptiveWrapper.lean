import Verif.Model.AdaptiveWrapper
import Verif.Props.Algorithm

/-! # C163: an algorithm wrapped in adaptive constraint handling -/

set_option linter.unusedSimpArgs false
set_option linter.unusedSectionVars false
set_option linter.unusedVariables false

namespace Props
open Model

section
variable {σ P S K C M : Type*} [Field K] [LinearOrder K]

/-- The wrapped algorithm is in the same state as the algorithm itself: attributes, counters, termination, callbacks, history,
archive; the evaluations were counted by the evaluator underneath. -/
structure SameAsPlain (s : AlgState (AcState σ C M) P S K) (t : AlgState σ P S K) : Prop where
  st : s.st.st = t.st
  initialized : s.initialized = t.initialized
  nIter : s.nIter = t.nIter
  term : s.term = t.term
  callbacks : s.callbacks = t.callbacks
  history : s.history = t.history
  finalized : s.finalized = t.finalized
  archived : s.archived = t.archived
  counted : s.st.wrappedNEval = t.nEval

/-- Both raised, or both are in the same state. -/
def SameOutcome : Option (AlgState (AcState σ C M) P S K) → Option (AlgState σ P S K) → Prop
  | none, none => True
  | some s, some t => SameAsPlain s t
  | _, _ => False

/-- A criterion that does not read the number of evaluations. -/
def IgnoresEvals (raw : S → K → AlgView σ → Option (K × S)) : Prop :=
  ∀ s p n a b st, raw s p ⟨n, a, st⟩ = raw s p ⟨n, b, st⟩

mutual
theorem update_congr {A B : Type*} (f : S → K → A → Option (K × S)) (g : S → K → B → Option (K × S)) (a : A) (b : B)
    (h : ∀ s p, f s p a = g s p b) : ∀ c : Crit S K, Crit.update f a c = Crit.update g b c
  | .prim force p s => by simp only [Crit.update, h]
  | .any force p cs => by simp only [Crit.update, updateAll_congr f g a b h cs]
  | .all force p cs => by simp only [Crit.update, updateAll_congr f g a b h cs]
  | .robust force p size hist c => by simp only [Crit.update, update_congr f g a b h c]
theorem updateAll_congr {A B : Type*} (f : S → K → A → Option (K × S)) (g : S → K → B → Option (K × S)) (a : A) (b : B)
    (h : ∀ s p, f s p a = g s p b) : ∀ cs : List (Crit S K), Crit.updateAll f a cs = Crit.updateAll g b cs
  | [] => by simp only [Crit.updateAll]
  | c :: cs => by simp only [Crit.updateAll, update_congr f g a b h c, updateAll_congr f g a b h cs]
end

variable (raw : S → K → AlgView σ → Option (K × S)) (h : C → AlgHooks σ P) (dflt : C) (pol : AcPolicy σ P K C M)
  (saveHistory hasArchive : Bool)

theorem same_finish {s : AlgState (AcState σ C M) P S K} {t : AlgState σ P S K} (hst : SameAsPlain s t) (i : Option P) :
    SameAsPlain (algFinish hasArchive i s) (algFinish hasArchive i t) := by
  obtain ⟨a1, a2, a3, a4, a5, a6, a7, a8, a9⟩ := algFinish_fields hasArchive i s
  obtain ⟨b1, b2, b3, b4, b5, b6, b7, b8, b9⟩ := algFinish_fields hasArchive i t
  exact ⟨by rw [a1, b1, hst.st], by rw [a2, b2, hst.initialized], by rw [a3, b3, hst.nIter], by rw [a5, b5, hst.term],
    by rw [a6, b6, hst.callbacks], by rw [a7, b7, hst.history], by rw [a8, b8, hst.finalized, hst.term],
    by rw [a9, b9, hst.archived], by rw [a1, b4, hst.counted]⟩

theorem same_post (hraw : IgnoresEvals raw) (g : AlgHooks σ P) (hg : ∀ c, h c = g) (perc : K)
    {s : AlgState (AcState σ C M) P S K} {t : AlgState σ P S K} (hst : SameAsPlain s t) (i : Option P) :
    SameOutcome ((algPostAdvance (acRaw raw) (acHooks h dflt pol perc) saveHistory s).map (algFinish hasArchive i))
      ((algPostAdvance raw g saveHistory t).map (algFinish hasArchive i)) := by
  unfold algPostAdvance
  dsimp only
  have hu := update_congr (acRaw (C := C) (M := M) raw) raw
    (⟨s.nIter, s.nEval, (acHooks h dflt pol perc).setOptimum s.st⟩ : AlgView (AcState σ C M))
    (⟨t.nIter, t.nEval, g.setOptimum t.st⟩ : AlgView σ) (by
      intro x p
      simp only [acRaw, acHooks, hg, hst.st, hst.nIter]
      exact hraw _ _ _ _ _ _) s.term
  rw [hu, hst.term]
  cases Crit.update raw ⟨t.nIter, t.nEval, g.setOptimum t.st⟩ t.term with
  | none => exact trivial
  | some c =>
    refine same_finish hasArchive ?_ i
    exact ⟨by simp only [acHooks, hg, hst.st], hst.initialized, by simp only [hst.nIter], rfl,
      by simp only [hst.callbacks, hst.nIter], by simp only [hst.history, hst.nIter], hst.finalized, hst.archived,
      by simp only [acHooks, hst.counted]⟩

theorem same_advance (hraw : IgnoresEvals raw) (g : AlgHooks σ P) (hg : ∀ c, h c = g) (hadv : CompletesGenerations g)
    (perc : K) {s : AlgState (AcState σ C M) P S K} {t : AlgState σ P S K} (hst : SameAsPlain s t) (i : Option P) :
    SameOutcome (algAdvance (acRaw raw) (acHooks h dflt pol perc) saveHistory hasArchive i s)
      (algAdvance raw g saveHistory hasArchive i t) := by
  unfold algAdvance
  dsimp only
  by_cases hi : t.initialized = false
  · rw [if_pos hi, if_pos (hst.initialized.trans hi)]
    refine same_post raw h dflt pol saveHistory hasArchive hraw g hg perc ?_ i
    exact ⟨by simp only [acHooks, hg, hst.st], rfl, rfl, hst.term, hst.callbacks, hst.history, hst.finalized,
      hst.archived, hst.counted⟩
  · rw [if_neg hi, if_neg (by rw [hst.initialized]; exact hi), if_neg (hadv _ _), if_neg (by simp [acHooks])]
    refine same_post raw h dflt pol saveHistory hasArchive hraw g hg perc ?_ i
    exact ⟨by simp only [acHooks, hg, hst.st], hst.initialized, hst.nIter, hst.term, hst.callbacks, hst.history,
      hst.finalized, hst.archived, hst.counted⟩

theorem same_next (hraw : IgnoresEvals raw) (g : AlgHooks σ P) (hg : ∀ c, h c = g) (hadv : CompletesGenerations g)
    {s : AlgState (AcState σ C M) P S K} {t : AlgState σ P S K} (hst : SameAsPlain s t) :
    SameOutcome (acNext raw h dflt pol saveHistory hasArchive s) (algNext raw g saveHistory hasArchive t) := by
  unfold acNext algNext
  dsimp only
  have hinf : (algInfill (acHooks h dflt pol s.term.perc) s).1 = (algInfill g t).1 ∧
      SameAsPlain (algInfill (acHooks h dflt pol s.term.perc) s).2 (algInfill g t).2 := by
    unfold algInfill
    by_cases hi : t.initialized = false
    · rw [if_pos hi, if_pos (hst.initialized.trans hi)]
      exact ⟨by simp only [acHooks, hg, hst.st], by simp only [acHooks, hg, hst.st], hst.initialized, rfl, hst.term,
        hst.callbacks, hst.history, hst.finalized, hst.archived, hst.counted⟩
    · rw [if_neg hi, if_neg (by rw [hst.initialized]; exact hi)]
      exact ⟨by simp only [acHooks, hg, hst.st], by simp only [acHooks, hg, hst.st], hst.initialized, hst.nIter,
        hst.term, hst.callbacks, hst.history, hst.finalized, hst.archived, hst.counted⟩
  obtain ⟨h1, h2⟩ := hinf
  rw [h1]
  cases (algInfill g t).1 with
  | none => exact same_advance raw h dflt pol saveHistory hasArchive hraw g hg hadv _ h2 none
  | some p =>
    refine same_advance raw h dflt pol saveHistory hasArchive hraw g hg hadv _ ?_ (some p)
    have hs2 := h2.st
    have hc2 := h2.counted
    refine ⟨?_, h2.initialized, h2.nIter, h2.term, h2.callbacks, h2.history, h2.finalized, h2.archived, ?_⟩
    · show ((h _).eval p _).1 = _
      rw [hg, hs2]
    · show _ + ((h _).eval p _).2 = _
      rw [hg, hs2, hc2]

theorem same_nextN (hraw : IgnoresEvals raw) (g : AlgHooks σ P) (hg : ∀ c, h c = g) (hadv : CompletesGenerations g) :
    ∀ (k : ℕ) {s : AlgState (AcState σ C M) P S K} {t : AlgState σ P S K}, SameAsPlain s t →
    SameOutcome (acNextN raw h dflt pol saveHistory hasArchive k s) (algNextN raw g saveHistory hasArchive k t) := by
  intro k
  induction k with
  | zero => intro s t hst; exact hst
  | succ k ih =>
    intro s t hst
    have := same_next raw h dflt pol saveHistory hasArchive hraw g hg hadv hst
    rw [acNextN, algNextN]
    revert this
    cases acNext raw h dflt pol saveHistory hasArchive s <;> cases algNext raw g saveHistory hasArchive t
    · exact fun _ => trivial
    · exact fun h => h.elim
    · exact fun h => h.elim
    · exact fun hh => ih hh

theorem same_run (hraw : IgnoresEvals raw) (g : AlgHooks σ P) (hg : ∀ c, h c = g) (hadv : CompletesGenerations g) :
    ∀ (fuel : ℕ) {s : AlgState (AcState σ C M) P S K} {t : AlgState σ P S K}, SameAsPlain s t →
    SameOutcome (acRun raw h dflt pol saveHistory hasArchive fuel s) (algRun raw g saveHistory hasArchive fuel t) := by
  intro fuel
  induction fuel with
  | zero =>
    intro s t hst
    rw [acRun, algRun]
    have : algHasNext s = algHasNext t := by unfold algHasNext; rw [hst.term]
    rw [this]
    split_ifs
    · exact trivial
    · exact hst
  | succ k ih =>
    intro s t hst
    have h0 : algHasNext s = algHasNext t := by unfold algHasNext; rw [hst.term]
    have := same_next raw h dflt pol saveHistory hasArchive hraw g hg hadv hst
    rw [acRun, algRun, h0]
    split_ifs
    · revert this
      cases acNext raw h dflt pol saveHistory hasArchive s <;> cases algNext raw g saveHistory hasArchive t
      · exact fun _ => trivial
      · exact fun h => h.elim
      · exact fun h => h.elim
      · exact fun hh => ih hh
    · exact hst

/-- **C163** (what holds). If the configuration makes no difference to the algorithm (for example on a problem without
constraints), it needs no `_setup`, every `_advance` completes a generation and the termination does not read the number of
evaluations, then wrapping it changes nothing: the run raises, is unfinished or ends exactly when the one of the algorithm
itself does, in the same state, with the same callbacks, history and archive, whatever the adaptation does. -/
theorem C163_same_run (hraw : IgnoresEvals raw) (g : AlgHooks σ P) (hg : ∀ c, h c = g) (hadv : CompletesGenerations g)
    (setup : σ → Crit S K → σ × Crit S K) (st : σ) (t : Crit S K) (hset : setup st t = (st, t)) (mem : M) (fuel : ℕ) :
    SameOutcome (acRun raw h dflt pol saveHistory hasArchive fuel (acSetup setup dflt mem st t))
      (algRun raw g saveHistory hasArchive fuel (plainSetup setup st t)) := by
  refine same_run raw h dflt pol saveHistory hasArchive hraw g hg hadv fuel ?_
  unfold acSetup plainSetup
  rw [hset]
  exact ⟨rfl, rfl, rfl, rfl, rfl, rfl, rfl, rfl, rfl⟩

/-! ### What the wrapped hooks do to the counters -/

theorem ac_completes (perc : K) : CompletesGenerations (acHooks h dflt pol perc) := by
  intro i s
  simp [acHooks]

theorem acNext_counted (s : AlgState (AcState σ C M) P S K) :
    ∃ st', acNext raw h dflt pol saveHistory hasArchive s =
      (Crit.update (acRaw raw) ⟨genOf s, s.nEval, st'⟩ s.term).map fun t =>
        algFinish hasArchive (algInfill (acHooks h dflt pol s.term.perc) s).1
          { s with st := st', initialized := true, nIter := genOf s + 1, nEval := s.nEval, term := t,
                   history := if saveHistory then s.history ++ [genOf s] else s.history,
                   callbacks := s.callbacks ++ [genOf s] } := by
  obtain ⟨st', e, hcase, he⟩ := algNext_counted (acRaw raw) (acHooks h dflt pol s.term.perc) saveHistory hasArchive
    (ac_completes h dflt pol _) s
  have e0 : e = 0 := by
    rcases hcase with ⟨_, h0⟩ | ⟨p, st, _, h0⟩
    · exact h0
    · exact h0
  subst e0
  exact ⟨st', he⟩

/-- **C163** (the number of evaluations, refuted). Whatever the algorithm evaluates, `evaluator.n_eval` of the wrapped
algorithm never changes: displays and criteria see the value at `setup`. -/
theorem C163_n_eval_frozen_refuted (k : ℕ) : ∀ (s s' : AlgState (AcState σ C M) P S K),
    acNextN raw h dflt pol saveHistory hasArchive k s = some s' → s'.nEval = s.nEval := by
  induction k with
  | zero => intro s s' hs; simp only [acNextN, Option.some.injEq] at hs; rw [hs]
  | succ k ih =>
    intro s s' hs
    rw [acNextN] at hs
    obtain ⟨st', he⟩ := acNext_counted raw h dflt pol saveHistory hasArchive s
    cases hn : acNext raw h dflt pol saveHistory hasArchive s with
    | none => rw [hn] at hs; simp at hs
    | some s1 =>
      rw [hn] at hs
      rw [ih s1 s' hs]
      rw [he, Option.map_eq_some_iff] at hn
      obtain ⟨c, _, rfl⟩ := hn
      rw [(algFinish_fields hasArchive _ _).2.2.2.1]

/-- `_setup` of the wrapped algorithm is not called: the wrapped algorithm starts in the state it was constructed in, the algorithm
itself in the one `_setup` makes. -/
theorem setup_skipped (setup : σ → Crit S K → σ × Crit S K) (mem : M) (st : σ) (t : Crit S K) :
    (acSetup setup dflt mem st t : AlgState (AcState σ C M) P S K).st.st = st ∧
    (acSetup setup dflt mem st t : AlgState (AcState σ C M) P S K).term = t ∧
    (plainSetup setup st t : AlgState σ P S K).st = (setup st t).1 ∧
    (plainSetup setup st t : AlgState σ P S K).term = (setup st t).2 := ⟨rfl, rfl, rfl, rfl⟩

end

section Runs
variable {σ P K C M : Type*} [Field K] [LinearOrder K] [IsStrictOrderedRing K]
variable (h : C → AlgHooks σ P) (dflt : C) (pol : AcPolicy σ P K C M) (saveHistory hasArchive : Bool)

theorem acRaw_nGen (N : ℕ) : acRaw (C := C) (M := M) (nGenRaw (σ := σ) (K := K) N) = nGenRaw N := rfl

theorem acRaw_nEval (N : ℕ) : acRaw (C := C) (M := M) (nEvalRaw (σ := σ) (K := K) N) = nEvalRaw N := rfl

theorem ac_nGen_steps (N : ℕ) (hN : 1 ≤ N) (j k : ℕ) (s : AlgState (AcState σ C M) P Unit K) (hjk : j + k ≤ N)
    (hs : NGenInv N k saveHistory s) :
    ∃ s', acNextN (nGenRaw N) h dflt pol saveHistory hasArchive j s = some s' ∧ NGenInv N (k + j) saveHistory s' := by
  induction j generalizing k s with
  | zero => exact ⟨s, rfl, hs⟩
  | succ j ih =>
    obtain ⟨s1, h1, h2⟩ := hs.step (acHooks h dflt pol s.term.perc) saveHistory hasArchive hN (by omega)
      (ac_completes h dflt pol _)
    have h1' : acNext (nGenRaw N) h dflt pol saveHistory hasArchive s = some s1 := h1
    obtain ⟨s2, h3, h4⟩ := ih (k + 1) s1 (by omega) h2
    refine ⟨s2, by rw [acNextN, h1']; exact h3, ?_⟩
    rwa [show k + (j + 1) = k + 1 + j by omega]

theorem acRun_of_nextN {S : Type*} (raw : S → K → AlgView σ → Option (K × S)) :
    ∀ (k fuel : ℕ) (s s' : AlgState (AcState σ C M) P S K), k ≤ fuel →
    acNextN raw h dflt pol saveHistory hasArchive k s = some s' →
    (∀ j s'', j < k → acNextN raw h dflt pol saveHistory hasArchive j s = some s'' → algHasNext s'' = true) →
    algHasNext s' = false → acRun raw h dflt pol saveHistory hasArchive fuel s = some s' := by
  intro k
  induction k with
  | zero =>
    intro fuel s s' _ h1 _ h3
    simp only [acNextN, Option.some.injEq] at h1
    subst h1
    cases fuel <;> simp [acRun, h3]
  | succ k ih =>
    intro fuel s s' hf h1 h2 h3
    obtain ⟨fuel, rfl⟩ : ∃ f, fuel = f + 1 := ⟨fuel - 1, by omega⟩
    rw [acNextN] at h1
    cases hn : acNext raw h dflt pol saveHistory hasArchive s with
    | none => rw [hn] at h1; simp at h1
    | some s1 =>
      rw [hn] at h1
      dsimp only at h1
      rw [acRun, if_pos (h2 0 s (by omega) rfl), hn]
      dsimp only
      refine ih fuel s1 s' (by omega) h1 ?_ h3
      intro j s'' hj hjs
      exact h2 (j + 1) s'' (by omega) (by rw [acNextN, hn]; exact hjs)

theorem ac_fresh_inv (N : ℕ) (hN : 1 ≤ N) (setup : σ → Crit Unit K → σ × Crit Unit K) (mem : M) (st : σ) :
    NGenInv N 0 saveHistory (acSetup setup dflt mem st (.prim false 0 ()) : AlgState (AcState σ C M) P Unit K) := by
  refine ⟨⟨0, rfl⟩, rfl, by simp, rfl, by simp [acSetup, algFresh], ?_, ?_⟩
  · rw [acSetup, fresh_hasNext]; simp; omega
  · simp [acSetup, algFresh]; omega

/-- **C163** (`n_gen`). With termination `("n_gen", N)`, `N ≥ 1`, the run of every wrapped algorithm, also of a loop-wise one,
ends after exactly `N` calls of `next()`; callbacks are called with `n_gen = 1, ..., N`. -/
theorem C163_n_gen_run (N : ℕ) (hN : 1 ≤ N) (setup : σ → Crit Unit K → σ × Crit Unit K) (mem : M) (st : σ) (fuel : ℕ)
    (hf : N ≤ fuel) :
    ∃ s, acRun (nGenRaw (K := K) N) h dflt pol saveHistory hasArchive fuel
        (acSetup setup dflt mem st (.prim false 0 ())) = some s ∧
      acNextN (nGenRaw (K := K) N) h dflt pol saveHistory hasArchive N
        (acSetup setup dflt mem st (.prim false 0 ())) = some s ∧
      s.callbacks = (List.range N).map (· + 1) ∧ algHasNext s = false ∧ s.finalized = 1 := by
  have h0 := ac_fresh_inv (K := K) (P := P) dflt saveHistory N hN setup mem st
  obtain ⟨s, h1, h2⟩ := ac_nGen_steps h dflt pol saveHistory hasArchive N hN N 0 _ (by omega) h0
  rw [Nat.zero_add] at h2
  have hn : algHasNext s = false := by rw [h2.hasNext]; simp
  refine ⟨s, ?_, h1, h2.callbacks, hn, by simpa using h2.finalized⟩
  refine acRun_of_nextN h dflt pol saveHistory hasArchive _ N fuel _ s hf h1 ?_ hn
  intro j s'' hj hs''
  obtain ⟨s2, g1, g2⟩ := ac_nGen_steps h dflt pol saveHistory hasArchive N hN j 0 _ (by omega) h0
  rw [g1] at hs''
  simp only [Option.some.injEq] at hs''
  subst hs''
  rw [Nat.zero_add] at g2
  rw [g2.hasNext]
  simpa using hj

/-- The state of a run with `("n_eval", B)`: no progress. -/
structure Stuck (s : AlgState (AcState σ C M) P Unit K) : Prop where
  term : s.term = .prim false 0 ()
  nEval : s.nEval = 0

theorem Stuck.hasNext {s : AlgState (AcState σ C M) P Unit K} (hs : Stuck s) : algHasNext s = true := by
  unfold algHasNext
  rw [Bool.not_eq_true', ← Bool.not_eq_true, hasTerminated_iff, hs.term]
  simp [Crit.perc]

theorem Stuck.step {s : AlgState (AcState σ C M) P Unit K} (hs : Stuck s) (B : ℕ) (hB : 1 ≤ B) :
    ∃ s', acNext (nEvalRaw (K := K) B) h dflt pol saveHistory hasArchive s = some s' ∧ Stuck s' := by
  obtain ⟨st', he⟩ := acNext_counted (nEvalRaw (K := K) B) h dflt pol saveHistory hasArchive s
  obtain ⟨n, rfl⟩ : ∃ n, B = n + 1 := ⟨B - 1, by omega⟩
  have hu : Crit.update (acRaw (nEvalRaw (K := K) (n + 1))) (⟨genOf s, s.nEval, st'⟩ : AlgView (AcState σ C M)) s.term =
      some (.prim false 0 ()) := by
    rw [hs.term]
    simp [Crit.update, acRaw, nEvalRaw, limitProgress, hs.nEval]
  rw [hu] at he
  refine ⟨_, he, ?_⟩
  obtain ⟨f1, f2, f3, f4, f5, _⟩ := algFinish_fields hasArchive (algInfill (acHooks h dflt pol s.term.perc) s).1
    { s with st := st', initialized := true, nIter := genOf s + 1, nEval := s.nEval, term := Crit.prim false (0 : K) (),
             history := if saveHistory then s.history ++ [genOf s] else s.history,
             callbacks := s.callbacks ++ [genOf s] }
  exact ⟨f5, f4.trans hs.nEval⟩

/-- **C163** (`n_eval`, refuted). With termination `("n_eval", B)`, `B ≥ 1`, the run of a wrapped algorithm never ends: no call
of `next()` raises, after every number of them `has_next()` is true, and `run()` does not return. -/
theorem C163_n_eval_never_ends_refuted (B : ℕ) (hB : 1 ≤ B) (setup : σ → Crit Unit K → σ × Crit Unit K) (mem : M) (st : σ) :
    (∀ k, ∃ s, acNextN (nEvalRaw (K := K) B) h dflt pol saveHistory hasArchive k
        (acSetup setup dflt mem st (.prim false 0 ())) = some s ∧ algHasNext s = true) ∧
    (∀ fuel, acRun (nEvalRaw (K := K) B) h dflt pol saveHistory hasArchive fuel
        (acSetup setup dflt mem st (.prim false 0 ())) = none) := by
  have h0 : Stuck (acSetup setup dflt mem st (.prim false 0 ()) : AlgState (AcState σ C M) P Unit K) := ⟨rfl, rfl⟩
  constructor
  · intro k
    have : ∀ (k : ℕ) (s : AlgState (AcState σ C M) P Unit K), Stuck s →
        ∃ s', acNextN (nEvalRaw (K := K) B) h dflt pol saveHistory hasArchive k s = some s' ∧ Stuck s' := by
      intro k
      induction k with
      | zero => exact fun s hs => ⟨s, rfl, hs⟩
      | succ k ih =>
        intro s hs
        obtain ⟨s1, h1, h2⟩ := hs.step h dflt pol saveHistory hasArchive B hB
        obtain ⟨s2, h3, h4⟩ := ih s1 h2
        exact ⟨s2, by rw [acNextN, h1]; exact h3, h4⟩
    obtain ⟨s, h1, h2⟩ := this k _ h0
    exact ⟨s, h1, h2.hasNext⟩
  · intro fuel
    have : ∀ (fuel : ℕ) (s : AlgState (AcState σ C M) P Unit K), Stuck s →
        acRun (nEvalRaw (K := K) B) h dflt pol saveHistory hasArchive fuel s = none := by
      intro fuel
      induction fuel with
      | zero => intro s hs; rw [acRun, if_pos hs.hasNext]
      | succ k ih =>
        intro s hs
        obtain ⟨s1, h1, h2⟩ := hs.step h dflt pol saveHistory hasArchive B hB
        rw [acRun, if_pos hs.hasNext, h1]
        exact ih s1 h2
    exact this fuel _ h0

end Runs

/-! ### The configuration and the number of evaluations -/

section Config
variable {σ P S K C M : Type*} [Field K] [LinearOrder K]

/-- The attributes after `next()` of an algorithm that completes generations. -/
def nextSt (h : AlgHooks σ P) (s : AlgState σ P S K) : σ :=
  h.setOptimum (if s.initialized = false then
    h.initAdvance (algInfill h s).1 ((algInfill h s).1.elim (algInfill h s).2.st fun p => (h.eval p (algInfill h s).2.st).1)
  else (h.advance (algInfill h s).1
    ((algInfill h s).1.elim (algInfill h s).2.st fun p => (h.eval p (algInfill h s).2.st).1)).2)

theorem algNext_st (raw : S → K → AlgView σ → Option (K × S)) (h : AlgHooks σ P) (saveHistory hasArchive : Bool)
    (hadv : CompletesGenerations h) (s s' : AlgState σ P S K) (hs : algNext raw h saveHistory hasArchive s = some s') :
    s'.st = nextSt h s ∧ s'.initialized = true := by
  have key : ∀ (i : Option P) (a b : AlgState σ P S K), algAdvance raw h saveHistory hasArchive i a = some b →
      b.st = h.setOptimum (if a.initialized = false then h.initAdvance i a.st else (h.advance i a.st).2) ∧
      b.initialized = true := by
    intro i a b hb
    unfold algAdvance at hb
    dsimp only at hb
    rw [if_neg (hadv _ _)] at hb
    by_cases hi : a.initialized = false
    · rw [if_pos hi] at hb
      rw [if_pos hi]
      rw [Option.map_eq_some_iff] at hb
      obtain ⟨d, hd, rfl⟩ := hb
      unfold algPostAdvance at hd
      dsimp only at hd
      split at hd
      · simp at hd
      · simp only [Option.some.injEq] at hd
        rw [(algFinish_fields hasArchive i d).1, (algFinish_fields hasArchive i d).2.1, ← hd]
        exact ⟨rfl, rfl⟩
    · rw [if_neg hi] at hb
      rw [if_neg hi]
      rw [Option.map_eq_some_iff] at hb
      obtain ⟨d, hd, rfl⟩ := hb
      unfold algPostAdvance at hd
      dsimp only at hd
      split at hd
      · simp at hd
      · simp only [Option.some.injEq] at hd
        rw [(algFinish_fields hasArchive i d).1, (algFinish_fields hasArchive i d).2.1, ← hd]
        exact ⟨rfl, by simpa using hi⟩
  have hin : (algInfill h s).2.initialized = s.initialized := by
    unfold algInfill; split_ifs <;> rfl
  unfold algNext at hs
  dsimp only at hs
  unfold nextSt
  cases hp : (algInfill h s).1 with
  | none =>
    rw [hp] at hs
    obtain ⟨k1, k2⟩ := key _ _ _ hs
    exact ⟨by rw [k1, hin]; rfl, k2⟩
  | some p =>
    rw [hp] at hs
    obtain ⟨k1, k2⟩ := key _ _ _ hs
    exact ⟨by rw [k1]; simp only [hin]; rfl, k2⟩

variable (raw : S → K → AlgView σ → Option (K × S)) (h : C → AlgHooks σ P) (dflt : C) (pol : AcPolicy σ P K C M)
  (saveHistory hasArchive : Bool)

/-- **C163** (judging). After every `next()` of a wrapped algorithm the shared configuration is the default one again, and the
optimum was determined with it: the tolerance of the adaptation never decides which solution is reported as feasible. -/
theorem C163_optimum_default (s s' : AlgState (AcState σ C M) P S K)
    (hs : acNext raw h dflt pol saveHistory hasArchive s = some s') :
    s'.st.config = dflt ∧ ∃ x, s'.st.st = (h dflt).setOptimum x := by
  obtain ⟨h1, _⟩ := algNext_st _ _ saveHistory hasArchive (ac_completes h dflt pol _) s s' hs
  rw [h1]
  unfold nextSt
  by_cases hi : s.initialized = false
  · rw [if_pos hi]; exact ⟨rfl, _, rfl⟩
  · rw [if_neg hi]; exact ⟨rfl, _, rfl⟩

/-- The first `next()` remembers and does not adapt. -/
theorem acNext_first (s s' : AlgState (AcState σ C M) P S K) (hi : s.initialized = false)
    (hs : acNext raw h dflt pol saveHistory hasArchive s = some s') :
    s'.initialized = true ∧ s'.st.adapted = s.st.adapted ∧
    s'.st.mem = pol.remember ((h s.st.config).initInfill s.st.st).1
      (((h s.st.config).initInfill s.st.st).1.elim ((h s.st.config).initInfill s.st.st).2 fun p =>
        ((h s.st.config).eval p ((h s.st.config).initInfill s.st.st).2).1) s.st.mem := by
  obtain ⟨h1, h2⟩ := algNext_st _ _ saveHistory hasArchive (ac_completes h dflt pol _) s s' hs
  refine ⟨h2, ?_⟩
  rw [h1]
  unfold nextSt
  rw [if_pos hi]
  unfold algInfill
  rw [if_pos hi]
  dsimp only [acHooks]
  cases ((h s.st.config).initInfill s.st.st).1 <;> exact ⟨rfl, rfl⟩

/-- Every later `next()` adapts at the progress of the termination. -/
theorem acNext_later (s s' : AlgState (AcState σ C M) P S K) (hi : s.initialized = true)
    (hs : acNext raw h dflt pol saveHistory hasArchive s = some s') :
    s'.initialized = true ∧ s'.st.adapted = pol.adapt s.term.perc s.st.mem s.st.adapted ∧ s'.st.mem = s.st.mem := by
  obtain ⟨h1, h2⟩ := algNext_st _ _ saveHistory hasArchive (ac_completes h dflt pol _) s s' hs
  refine ⟨h2, ?_⟩
  rw [h1]
  unfold nextSt
  have hi' : ¬ s.initialized = false := by rw [hi]; simp
  rw [if_neg hi']
  unfold algInfill
  rw [if_neg hi']
  dsimp only [acHooks]
  cases ((h s.st.adapted).infill s.st.st).1 <;> exact ⟨rfl, rfl⟩

/-- **C163** (which tolerance decides what). A later `next()` of a wrapped algorithm runs the algorithm's `_infill` and `_advance`
under the adapted configuration and everything else, the evaluation and the choice of the optimum, under the default one. The first
`next()` creates and evaluates the initial solutions under the configuration found, and only `_initialize_advance` under the adapted one. -/
theorem C163_phases (s s' : AlgState (AcState σ C M) P S K) (hs : acNext raw h dflt pol saveHistory hasArchive s = some s') :
    (s.initialized = true → s'.st.st =
      let off := (h s.st.adapted).infill s.st.st
      let st := match off.1 with
        | none => off.2
        | some p => ((h dflt).eval p off.2).1
      (h dflt).setOptimum ((h s.st.adapted).advance off.1 st).2) ∧
    (s.initialized = false → s'.st.st =
      let off := (h s.st.config).initInfill s.st.st
      let st := match off.1 with
        | none => off.2
        | some p => ((h s.st.config).eval p off.2).1
      (h dflt).setOptimum ((h s.st.adapted).initAdvance off.1 st)) := by
  obtain ⟨h1, h2⟩ := algNext_st _ _ saveHistory hasArchive (ac_completes h dflt pol _) s s' hs
  rw [h1]
  unfold nextSt
  constructor
  · intro hi
    have hi' : ¬ s.initialized = false := by rw [hi]; simp
    rw [if_neg hi']
    unfold algInfill
    rw [if_neg hi']
    dsimp only [acHooks]
    cases ((h s.st.adapted).infill s.st.st).1 <;> rfl
  · intro hi
    rw [if_pos hi]
    unfold algInfill
    rw [if_pos hi]
    dsimp only [acHooks]
    cases ((h s.st.config).initInfill s.st.st).1 <;> rfl

/-- The evaluations of one `next()` are counted by the evaluator underneath. -/
theorem acNext_evals (hinit : ∀ c st, ((h c).initInfill st).1.isSome) (hinf : ∀ c st, ((h c).infill st).1.isSome)
    (hev : ∀ c p st, 1 ≤ ((h c).eval p st).2) (s s' : AlgState (AcState σ C M) P S K)
    (hs : acNext raw h dflt pol saveHistory hasArchive s = some s') :
    s.st.wrappedNEval + 1 ≤ s'.st.wrappedNEval := by
  obtain ⟨h1, h2⟩ := algNext_st _ _ saveHistory hasArchive (ac_completes h dflt pol _) s s' hs
  rw [h1]
  unfold nextSt
  by_cases hi : s.initialized = false
  · rw [if_pos hi]
    unfold algInfill
    rw [if_pos hi]
    dsimp only [acHooks]
    obtain ⟨p, hp⟩ := Option.isSome_iff_exists.1 (hinit s.st.config s.st.st)
    rw [hp]
    exact Nat.add_le_add_left (hev _ _ _) _
  · rw [if_neg hi]
    unfold algInfill
    rw [if_neg hi]
    dsimp only [acHooks]
    obtain ⟨p, hp⟩ := Option.isSome_iff_exists.1 (hinf s.st.adapted s.st.st)
    rw [hp]
    exact Nat.add_le_add_left (hev _ _ _) _

/-- **C163** (evaluations spent). If every generation evaluates something, `k` calls of `next()` spend at least `k`
evaluations, whatever `n_eval` says: no budget bounds the run of `C163_n_eval_never_ends_refuted`. -/
theorem C163_evaluations_spent (hinit : ∀ c st, ((h c).initInfill st).1.isSome) (hinf : ∀ c st, ((h c).infill st).1.isSome)
    (hev : ∀ c p st, 1 ≤ ((h c).eval p st).2) (k : ℕ) : ∀ (s s' : AlgState (AcState σ C M) P S K),
    acNextN raw h dflt pol saveHistory hasArchive k s = some s' → s.st.wrappedNEval + k ≤ s'.st.wrappedNEval := by
  induction k with
  | zero => intro s s' hs; simp only [acNextN, Option.some.injEq] at hs; rw [hs]; exact Nat.le_refl _
  | succ k ih =>
    intro s s' hs
    rw [acNextN] at hs
    cases hn : acNext raw h dflt pol saveHistory hasArchive s with
    | none => rw [hn] at hs; simp at hs
    | some s1 =>
      rw [hn] at hs
      have := ih s1 s' hs
      have := acNext_evals raw h dflt pol saveHistory hasArchive hinit hinf hev s s1 hn
      omega

theorem acNextN_succ (k : ℕ) : ∀ s : AlgState (AcState σ C M) P S K,
    acNextN raw h dflt pol saveHistory hasArchive (k + 1) s =
      (acNextN raw h dflt pol saveHistory hasArchive k s).bind (acNext raw h dflt pol saveHistory hasArchive) := by
  induction k with
  | zero =>
    intro s
    simp only [acNextN, Option.bind_some]
    cases acNext raw h dflt pol saveHistory hasArchive s <;> rfl
  | succ k ih =>
    intro s
    rw [acNextN]
    conv_rhs => rw [acNextN]
    cases acNext raw h dflt pol saveHistory hasArchive s with
    | none => rfl
    | some s1 => exact ih s1

end Config

section Eps
variable {σ P K R : Type*} [Field K] [LinearOrder K] [IsStrictOrderedRing K]
variable (h : EpsConfig K R → AlgHooks σ P) (dflt : EpsConfig K R) (percUntil : K) (meanCv : Option P → σ → K)
  (saveHistory hasArchive : Bool)

/-- The mean violation of the first population: `meanCv` of what `_initialize_infill` returned, after its evaluation. -/
def firstMeanCv (st : σ) : K :=
  meanCv ((h dflt).initInfill st).1 (((h dflt).initInfill st).1.elim ((h dflt).initInfill st).2 fun p =>
    ((h dflt).eval p ((h dflt).initInfill st).2).1)

/-- **C163** (tolerance, `n_gen`). With termination `("n_gen", N)` the tolerance for generation `k + 1`, `2 ≤ k ≤ N`, is
`max(0, 1 - ((k-1)/N) / perc_eps_until)` times the mean violation of the first population; it was the default one up to the
second generation. -/
theorem C163_tolerance_n_gen (N : ℕ) (hN : 1 ≤ N) (setup : σ → Crit Unit K → σ × Crit Unit K) (mem : K) (st : σ) (k : ℕ)
    (hk1 : 1 ≤ k) (hk : k ≤ N) :
    ∃ s, acNextN (nGenRaw (K := K) N) h dflt (epsPolicy percUntil meanCv) saveHistory hasArchive k
        (acSetup setup dflt mem st (.prim false 0 ())) = some s ∧
      s.st.adapted.rest = dflt.rest ∧
      s.st.adapted.cvEps = if k = 1 then dflt.cvEps else
        max 0 (1 - ((k - 1 : ℕ) : K) / (N : K) / percUntil) * firstMeanCv h dflt meanCv st := by
  have main : ∃ s, acNextN (nGenRaw (K := K) N) h dflt (epsPolicy percUntil meanCv) saveHistory hasArchive k
        (acSetup setup dflt mem st (.prim false 0 ())) = some s ∧ NGenInv N k saveHistory s ∧
      s.term.perc = (k : K) / (N : K) ∧ s.st.mem = firstMeanCv h dflt meanCv st ∧
      s.st.adapted.rest = dflt.rest ∧
      s.st.adapted.cvEps = if k = 1 then dflt.cvEps else
        max 0 (1 - ((k - 1 : ℕ) : K) / (N : K) / percUntil) * firstMeanCv h dflt meanCv st := by
    have stepTerm : ∀ (s s' : AlgState (AcState σ (EpsConfig K R) K) P Unit K),
        (∃ p, s.term = .prim false p ()) →
        acNext (nGenRaw (K := K) N) h dflt (epsPolicy percUntil meanCv) saveHistory hasArchive s = some s' →
        s'.term.perc = (genOf s : K) / (N : K) := by
      rintro s s' ⟨p, hp⟩ hs
      obtain ⟨st', he⟩ := acNext_counted (nGenRaw (K := K) N) h dflt (epsPolicy percUntil meanCv) saveHistory hasArchive s
      rw [hs] at he
      have he' := he.symm
      rw [Option.map_eq_some_iff] at he'
      obtain ⟨c, hc, rfl⟩ := he'
      rw [(algFinish_fields hasArchive _ _).2.2.2.2.1]
      obtain ⟨n, rfl⟩ : ∃ n, N = n + 1 := ⟨N - 1, by omega⟩
      rw [hp] at hc
      simp only [Crit.update, acRaw, nGenRaw, limitProgress, Option.map_some, Bool.false_eq_true, if_false] at hc
      split_ifs at hc
      simp only [Option.some.injEq] at hc
      rw [← hc]
      rfl
    induction k with
    | zero => omega
    | succ k ih =>
      by_cases h1 : k = 0
      · subst h1
        have h0 := ac_fresh_inv (K := K) (P := P) dflt saveHistory N hN setup mem st
        obtain ⟨s1, a1, a2⟩ := ac_nGen_steps h dflt (epsPolicy percUntil meanCv) saveHistory hasArchive N hN 1 0 _
          (by omega) h0
        rw [Nat.zero_add] at a2
        have a1' : acNext (nGenRaw (K := K) N) h dflt (epsPolicy percUntil meanCv) saveHistory hasArchive
            (acSetup setup dflt mem st (.prim false 0 ())) = some s1 := by
          rw [acNextN_succ] at a1
          exact a1
        obtain ⟨_, b2, b3⟩ := acNext_first _ h dflt _ saveHistory hasArchive _ _ rfl a1'
        refine ⟨s1, a1, a2, ?_, b3, by rw [b2]; rfl, by rw [b2]; rfl⟩
        rw [stepTerm _ _ ⟨0, rfl⟩ a1']
        rfl
      · obtain ⟨s, c1, c2, c3, c4, c5, c6⟩ := ih (by omega) (by omega)
        obtain ⟨s1, a1, a2⟩ := ac_nGen_steps h dflt (epsPolicy percUntil meanCv) saveHistory hasArchive N hN 1 k s
          (by omega) c2
        have a1' : acNext (nGenRaw (K := K) N) h dflt (epsPolicy percUntil meanCv) saveHistory hasArchive s = some s1 := by
          rw [acNextN_succ] at a1
          exact a1
        have hini : s.initialized = true := by rw [c2.init]; simp; omega
        obtain ⟨_, b2, b3⟩ := acNext_later _ h dflt _ saveHistory hasArchive s s1 hini a1'
        refine ⟨s1, ?_, a2, ?_, b3.trans c4, by rw [b2]; exact c5, ?_⟩
        · rw [acNextN_succ, c1]; exact a1'
        · rw [stepTerm _ _ c2.term a1']
          have : genOf s = k + 1 := by unfold genOf; rw [hini, if_pos rfl]; exact c2.nIter (by omega)
          rw [this]
        · rw [b2, if_neg (by omega)]
          show epsAdapt percUntil s.term.perc s.st.mem = _
          unfold epsAdapt
          rw [c3, c4]
          have : 1 / percUntil * ((k : K) / (N : K)) = (k : K) / (N : K) / percUntil := by
            rw [div_mul_eq_mul_div, one_mul]
          rw [this]
          rfl
  obtain ⟨s, a, _, _, _, b, c⟩ := main
  exact ⟨s, a, b, c⟩

/-- **C163** (tolerance, `n_eval`, refuted). With termination `("n_eval", B)` the progress stays 0, so that from the third
generation on the tolerance is the mean violation of the first population, for ever: it never shrinks. -/
theorem C163_tolerance_n_eval_refuted (B : ℕ) (hB : 1 ≤ B) (setup : σ → Crit Unit K → σ × Crit Unit K) (mem : K) (st : σ)
    (k : ℕ) (hk : 2 ≤ k) :
    ∃ s, acNextN (nEvalRaw (K := K) B) h dflt (epsPolicy percUntil meanCv) saveHistory hasArchive k
        (acSetup setup dflt mem st (.prim false 0 ())) = some s ∧
      s.st.adapted.cvEps = firstMeanCv h dflt meanCv st := by
  have main : ∀ k, 1 ≤ k → ∃ s, acNextN (nEvalRaw (K := K) B) h dflt (epsPolicy percUntil meanCv) saveHistory hasArchive k
        (acSetup setup dflt mem st (.prim false 0 ())) = some s ∧ Stuck s ∧ s.initialized = true ∧
      s.st.mem = firstMeanCv h dflt meanCv st ∧ (2 ≤ k → s.st.adapted.cvEps = firstMeanCv h dflt meanCv st) := by
    intro k hk
    induction k with
    | zero => omega
    | succ k ih =>
      by_cases h1 : k = 0
      · subst h1
        have h0 : Stuck (acSetup setup dflt mem st (.prim false 0 ()) : AlgState (AcState σ (EpsConfig K R) K) P Unit K) :=
          ⟨rfl, rfl⟩
        obtain ⟨s1, a1, a2⟩ := h0.step h dflt (epsPolicy percUntil meanCv) saveHistory hasArchive B hB
        obtain ⟨b1, b2, b3⟩ := acNext_first _ h dflt _ saveHistory hasArchive _ _ rfl a1
        refine ⟨s1, by rw [acNextN_succ]; exact a1, a2, b1, b3, by omega⟩
      · obtain ⟨s, c1, c2, c3, c4, _⟩ := ih (by omega)
        obtain ⟨s1, a1, a2⟩ := c2.step h dflt (epsPolicy percUntil meanCv) saveHistory hasArchive B hB
        obtain ⟨b1, b2, b3⟩ := acNext_later _ h dflt _ saveHistory hasArchive _ _ c3 a1
        refine ⟨s1, by rw [acNextN_succ, c1]; exact a1, a2, b1, b3.trans c4, fun _ => ?_⟩
        rw [b2]
        show epsAdapt percUntil s.term.perc s.st.mem = _
        rw [c2.term, c4]
        simp [epsAdapt, Crit.perc]
  obtain ⟨s, a, _, _, _, b⟩ := main k (by omega)
  exact ⟨s, a, b hk⟩

end Eps

/-! ### The evaluator -/

section Ev
variable {X κ V C : Type*} [DecidableEq κ]

/-- **C163** (evaluator). `eval` of the wrapper evaluates what the wrapped evaluator would: the individuals get the same
values, the same problem calls are made and counted underneath; its own counter is unchanged. If it ends normally, exactly the
given individuals carry the shared configuration in addition. -/
theorem C163_evaluator (cfg : C) (problem : List X → List κ → Option (List (κ × List V))) (skip : Bool) (req : List κ)
    (count : Bool) (pop : EvTarget) (s : AcEvState X κ V C) :
    (acEvEval cfg problem skip req count pop s).1.inner = (evEval problem skip req count pop.ids s.inner).1 ∧
    (acEvEval cfg problem skip req count pop s).1.nEval = s.nEval ∧
    ((acEvEval cfg problem skip req count pop s).2 = .inner .ok →
      ∀ i, (acEvEval cfg problem skip req count pop s).1.attached i =
        if i ∈ pop.ids then some cfg else s.attached i) ∧
    ((acEvEval cfg problem skip req count pop s).2 ≠ .inner .ok →
      (acEvEval cfg problem skip req count pop s).1.attached = s.attached) := by
  unfold acEvEval
  dsimp only
  by_cases hr : (evEval problem skip req count pop.ids s.inner).2 = .ok
  · rw [if_pos hr]
    cases pop with
    | one i => exact ⟨rfl, rfl, fun h => by simp at h, fun _ => rfl⟩
    | many ids => exact ⟨rfl, rfl, fun _ i => rfl, fun h => absurd rfl h⟩
  · rw [if_neg hr]
    exact ⟨rfl, rfl, fun h => absurd (by injection h) hr, fun _ => rfl⟩

/-- **C163** (population). For a population it ends as the wrapped evaluator does. -/
theorem C163_evaluator_population (cfg : C) (problem : List X → List κ → Option (List (κ × List V))) (skip : Bool)
    (req : List κ) (count : Bool) (ids : List ℕ) (s : AcEvState X κ V C) :
    (acEvEval cfg problem skip req count (.many ids) s).2 = .inner (evEval problem skip req count ids s.inner).2 := by
  unfold acEvEval
  dsimp only [EvTarget.ids]
  by_cases hr : (evEval problem skip req count ids s.inner).2 = .ok
  · rw [if_pos hr, hr]
  · rw [if_neg hr]

/-- **C163** (individual, refuted). Given an individual that the wrapped evaluator evaluates without an exception, `eval` of
the wrapper raises; and it has been evaluated and counted underneath. -/
theorem C163_evaluator_individual_refuted (cfg : C) (problem : List X → List κ → Option (List (κ × List V))) (skip : Bool)
    (req : List κ) (count : Bool) (i : ℕ) (s : AcEvState X κ V C)
    (hok : (evEval problem skip req count [i] s.inner).2 = .ok) :
    (acEvEval cfg problem skip req count (.one i) s).2 = .noApply ∧
    (acEvEval cfg problem skip req count (.one i) s).1.inner = (evEval problem skip req count [i] s.inner).1 := by
  unfold acEvEval
  dsimp only [EvTarget.ids]
  rw [if_pos hok]
  exact ⟨rfl, rfl⟩

end Ev

/-! ### Examples -/

/-- A loop-wise algorithm that evaluates two populations per generation, one after the other; the attribute counts them. -/
def twoPerGen : AlgHooks (LoopState ℕ Unit Bool) Unit :=
  loopHooks (fun g _ st => match g with
      | none => (some ((), false), st)
      | some false => (some ((), true), st)
      | some true => (none, st))
    (fun st => (some (), st)) (fun _ st => (st + 1, 1)) (fun _ st => st) id

/-- A base class: nothing is adapted. -/
def noPolicy {σ P : Type*} : AcPolicy σ P ℚ Unit Unit where
  remember _ _ m := m
  adapt _ _ c := c

/-- A `_setup` that does nothing. -/
def noSetup {σ : Type*} : σ → Crit Unit ℚ → σ × Crit Unit ℚ := fun st t => (st, t)

/-- **C163** (loop-wise algorithms, refuted). `False` returned by `_advance` is lost: wrapping an algorithm that evaluates two
populations in every generation after the first makes it count each of them as a generation. With `("n_gen", 3)` the algorithm
evaluates 5 populations, the wrapped one 3. -/
theorem C163_loopwise_refuted :
    (algRun (nGenRaw (K := ℚ) 3) twoPerGen false false 10
      (plainSetup noSetup ⟨0, none, none⟩ (.prim false 0 ()))).map (fun s => s.st.st) = some 5 ∧
    (acRun (nGenRaw (K := ℚ) 3) (fun _ => twoPerGen) () noPolicy false false 10
      (acSetup noSetup () () ⟨0, none, none⟩ (.prim false 0 ()))).map (fun s => s.st.st.st) = some 3 := by
  decide +kernel

/-- **C163** (`_setup`, refuted). The `_setup` of the wrapped algorithm is never called: an algorithm that sets its parameter to
7 there (as particle swarm, evolution strategies, MOEA/D and others do) runs with it, the wrapped one with what the
constructor left. -/
theorem C163_setup_skipped_refuted :
    let g : AlgHooks (Option ℕ × ℕ) Unit :=
      { initInfill := fun st => (some (), st), infill := fun st => (some (), st), eval := fun _ st => (st, 1),
        initAdvance := fun _ st => st, advance := fun _ st => (none, (st.1, st.2 + st.1.getD 0)), setOptimum := id }
    let setup : Option ℕ × ℕ → Crit Unit ℚ → (Option ℕ × ℕ) × Crit Unit ℚ := fun st t => ((some 7, st.2), t)
    (algRun (nGenRaw (K := ℚ) 3) g false false 10 (plainSetup setup (none, 0) (.prim false 0 ()))).map
      (fun s => s.st) = some (some 7, 14) ∧
    (acRun (nGenRaw (K := ℚ) 3) (fun _ => g) () noPolicy false false 10
      (acSetup setup () () (none, 0) (.prim false 0 ()))).map (fun s => s.st.st) = some (none, 0) := by
  decide +kernel

/-- A population algorithm with four solutions per generation. -/
def fourPerGen : AlgHooks ℕ Unit where
  initInfill st := (some (), st)
  infill st := (some (), st)
  eval _ st := (st + 4, 4)
  initAdvance _ st := st
  advance _ st := (none, st)
  setOptimum st := st

example : IgnoresEvals (nGenRaw (σ := ℕ) (K := ℚ) 5) ∧ CompletesGenerations fourPerGen ∧
    noSetup 0 (.prim false 0 ()) = ((0 : ℕ), (.prim false 0 ())) :=
  ⟨fun _ _ _ _ _ _ => rfl, fun _ _ => by simp [fourPerGen], rfl⟩

example : (acRun (nGenRaw (K := ℚ) 5) (fun _ => fourPerGen) () noPolicy false false 9
      (acSetup noSetup () () 0 (.prim false 0 ()))).map (fun s => (s.st.st, s.st.wrappedNEval, s.nEval)) = some (20, 20, 0) := by
  decide +kernel

example : (∀ (_ : Unit) st, (fourPerGen.initInfill st).1.isSome) ∧ (∀ (_ : Unit) st, (fourPerGen.infill st).1.isSome) ∧
    (∀ (_ : Unit) p st, 1 ≤ (fourPerGen.eval p st).2) :=
  ⟨fun _ _ => rfl, fun _ _ => rfl, fun _ _ _ => by simp [fourPerGen]⟩

example : (acNextN (nGenRaw (K := ℚ) 10) (fun _ => fourPerGen) (⟨0, ()⟩ : EpsConfig ℚ Unit)
      (epsPolicy (1 / 2) fun _ _ => 6) false false 3 (acSetup noSetup ⟨0, ()⟩ 0 0 (.prim false 0 ()))).map
      (fun s => (s.st.config.cvEps, s.st.adapted.cvEps)) = some (0, 18 / 5) := by
  decide +kernel

example : (evEval (fun rows _ => some [((), rows)]) true [()] true [3]
      (⟨fun i => ⟨i, fun _ => none, []⟩, 0, []⟩ : EvState ℕ Unit ℕ)).2 = .ok := by
  decide +kernel

end Props
