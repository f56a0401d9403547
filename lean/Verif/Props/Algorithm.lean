import Verif.Model.Algorithm
import Verif.Props.Termination

/-! # C18: the optimisation loop -/

set_option linter.unusedSimpArgs false
set_option linter.unusedSectionVars false

namespace Props
open Model

section Loop
variable {σ P S K : Type*} [Field K] [LinearOrder K]
variable (raw : S → K → AlgView σ → Option (K × S)) (h : AlgHooks σ P) (saveHistory hasArchive : Bool)

/-- Every call of `_advance` completes a generation (it does not return `False`; the loop-wise algorithms, which
return `False` in the middle of a generation, are excluded here). -/
def CompletesGenerations (h : AlgHooks σ P) : Prop := ∀ i s, (h.advance i s).1 ≠ some false

theorem algFinish_fields (inf : Option P) (s : AlgState σ P S K) :
    (algFinish hasArchive inf s).st = s.st ∧ (algFinish hasArchive inf s).initialized = s.initialized ∧
    (algFinish hasArchive inf s).nIter = s.nIter ∧ (algFinish hasArchive inf s).nEval = s.nEval ∧
    (algFinish hasArchive inf s).term = s.term ∧ (algFinish hasArchive inf s).callbacks = s.callbacks ∧
    (algFinish hasArchive inf s).history = s.history ∧
    (algFinish hasArchive inf s).finalized = s.finalized + (if s.term.hasTerminated then 1 else 0) ∧
    (algFinish hasArchive inf s).archived = s.archived ++ (if hasArchive then inf.toList else []) := by
  unfold algFinish
  cases hasArchive <;> cases inf <;> by_cases ht : s.term.hasTerminated = true <;> simp [ht]

/-- The generation number `next()` works on. -/
def genOf (s : AlgState σ P S K) : ℕ := if s.initialized then s.nIter else 1

theorem algNext_counted (hadv : CompletesGenerations h) (s : AlgState σ P S K) :
    ∃ st' e, ((algInfill h s).1 = none ∧ e = 0 ∨ ∃ p st, (algInfill h s).1 = some p ∧ e = (h.eval p st).2) ∧
      algNext raw h saveHistory hasArchive s =
        (Crit.update raw ⟨genOf s, s.nEval + e, st'⟩ s.term).map fun t =>
          algFinish hasArchive (algInfill h s).1
            { s with st := st', initialized := true, nIter := genOf s + 1, nEval := s.nEval + e, term := t,
                     history := if saveHistory then s.history ++ [genOf s] else s.history,
                     callbacks := s.callbacks ++ [genOf s] } := by
  unfold algNext
  dsimp only
  cases hin : (algInfill h s).1 with
  | none =>
    dsimp only
    by_cases hi : s.initialized = false
    · have h2 : (algInfill h s).2 = { s with st := (h.initInfill s.st).2, nIter := 1 } := by
        unfold algInfill; rw [if_pos hi]
      refine ⟨h.setOptimum (h.initAdvance none (h.initInfill s.st).2), 0, Or.inl ⟨rfl, rfl⟩, ?_⟩
      rw [h2]
      unfold algAdvance algPostAdvance
      simp only [hi, if_true, genOf, Bool.false_eq_true, if_false, Nat.add_zero]
      cases Crit.update raw _ s.term <;> rfl
    · have hi' : s.initialized = true := by simpa using hi
      have h2 : (algInfill h s).2 = { s with st := (h.infill s.st).2 } := by
        unfold algInfill; rw [if_neg hi]
      refine ⟨h.setOptimum (h.advance none (h.infill s.st).2).2, 0, Or.inl ⟨rfl, rfl⟩, ?_⟩
      rw [h2]
      unfold algAdvance algPostAdvance
      simp only [hi', if_true, genOf, Bool.true_eq_false, if_false, Nat.add_zero, hadv _ _]
      cases Crit.update raw _ s.term <;> rfl
  | some p =>
    dsimp only
    by_cases hi : s.initialized = false
    · have h2 : (algInfill h s).2 = { s with st := (h.initInfill s.st).2, nIter := 1 } := by
        unfold algInfill; rw [if_pos hi]
      refine ⟨h.setOptimum (h.initAdvance (some p) (h.eval p (h.initInfill s.st).2).1),
        (h.eval p (h.initInfill s.st).2).2, Or.inr ⟨p, _, rfl, rfl⟩, ?_⟩
      rw [h2]
      unfold algAdvance algPostAdvance
      simp only [hi, if_true, genOf, Bool.false_eq_true, if_false]
      cases Crit.update raw _ s.term <;> rfl
    · have hi' : s.initialized = true := by simpa using hi
      have h2 : (algInfill h s).2 = { s with st := (h.infill s.st).2 } := by
        unfold algInfill; rw [if_neg hi]
      refine ⟨h.setOptimum (h.advance (some p) (h.eval p (h.infill s.st).2).1).2,
        (h.eval p (h.infill s.st).2).2, Or.inr ⟨p, _, rfl, rfl⟩, ?_⟩
      rw [h2]
      unfold algAdvance algPostAdvance
      simp only [hi', if_true, genOf, Bool.true_eq_false, if_false, hadv _ _]
      cases Crit.update raw _ s.term <;> rfl

/-- In any case (also for `_advance` returning `False`) `finalize` is called by `next()` exactly if the termination
has terminated afterwards. -/
theorem algNext_finalized (s s' : AlgState σ P S K) (hs : algNext raw h saveHistory hasArchive s = some s') :
    s'.finalized = s.finalized + (if s'.term.hasTerminated then 1 else 0) := by
  have hadvance : ∀ (inf : Option P) (a b : AlgState σ P S K),
      algAdvance raw h saveHistory hasArchive inf a = some b →
      b.finalized = a.finalized + (if b.term.hasTerminated then 1 else 0) := by
    intro inf a b hb
    have hpost : ∀ c d : AlgState σ P S K, algPostAdvance raw h saveHistory c = some d →
        d.finalized = c.finalized := by
      intro c d hd
      unfold algPostAdvance at hd
      dsimp only at hd
      split at hd
      · simp at hd
      · simp only [Option.some.injEq] at hd; rw [← hd]
    unfold algAdvance at hb
    dsimp only at hb
    split_ifs at hb with h1 h2
    · rw [Option.map_eq_some_iff] at hb
      obtain ⟨d, hd, rfl⟩ := hb
      have := algFinish_fields hasArchive inf d
      rw [this.2.2.2.2.2.2.2.1, this.2.2.2.2.1, hpost _ _ hd]
    · simp only [Option.some.injEq] at hb
      rw [← hb]
      have := algFinish_fields hasArchive inf { a with st := (h.advance inf a.st).2 }
      rw [this.2.2.2.2.2.2.2.1, this.2.2.2.2.1]
    · rw [Option.map_eq_some_iff] at hb
      obtain ⟨d, hd, rfl⟩ := hb
      have := algFinish_fields hasArchive inf d
      rw [this.2.2.2.2.2.2.2.1, this.2.2.2.2.1, hpost _ _ hd]
  have hinf : ∀ a : AlgState σ P S K, (algInfill h a).2.finalized = a.finalized := by
    intro a; unfold algInfill; split_ifs <;> rfl
  unfold algNext at hs
  dsimp only at hs
  split at hs
  · have := hadvance _ _ _ hs
    rw [this]; simp only [hinf]
  · have := hadvance _ _ _ hs
    rw [this]; simp only [hinf]

/-- C18. For every termination object and all hooks: whenever `run()` on an algorithm that has something left to do
returns, it ends with `has_next()` false and `finalize` was called exactly once, in the last iteration. -/
theorem C18_run_finalizes_once (fuel : ℕ) : ∀ s s' : AlgState σ P S K, algHasNext s = true →
    algRun raw h saveHistory hasArchive fuel s = some s' →
    algHasNext s' = false ∧ s'.finalized = s.finalized + 1 := by
  induction fuel with
  | zero => intro s s' h1 h2; simp [algRun, h1] at h2
  | succ fuel ih =>
    intro s s' h1 h2
    rw [algRun, if_pos h1] at h2
    cases hn : algNext raw h saveHistory hasArchive s with
    | none => rw [hn] at h2; simp at h2
    | some s1 =>
      rw [hn] at h2
      dsimp only at h2
      have hf := algNext_finalized raw h saveHistory hasArchive s s1 hn
      by_cases ht : algHasNext s1 = true
      · have hnt : s1.term.hasTerminated = false := by simpa [algHasNext] using ht
        obtain ⟨r1, r2⟩ := ih s1 s' ht h2
        refine ⟨r1, ?_⟩
        rw [r2, hf, hnt]; simp
      · have hnt : s1.term.hasTerminated = true := by simpa [algHasNext] using ht
        have : s' = s1 := by
          cases fuel <;> simp [algRun, ht] at h2 <;> exact h2.symm
        subst this
        exact ⟨by simpa using ht, by rw [hf, hnt]; simp⟩

/-- A later run on a terminated algorithm does nothing. -/
theorem C18_run_terminated (fuel : ℕ) (s : AlgState σ P S K) (hs : algHasNext s = false) :
    algRun raw h saveHistory hasArchive fuel s = some s := by
  cases fuel <;> simp [algRun, hs]

end Loop

section NGen
variable {σ P K : Type*} [Field K] [LinearOrder K] [IsStrictOrderedRing K]

/-- The termination `("n_gen", N)`: `MaximumGenerationTermination(N)` reading the generation counter. -/
def nGenRaw (N : ℕ) : Unit → K → AlgView σ → Option (K × Unit) :=
  fun _ _ v => (limitProgress v.nGen (.fin N)).map fun p => (p, ())

/-- The termination `("n_eval", B)`. -/
def nEvalRaw (B : ℕ) : Unit → K → AlgView σ → Option (K × Unit) :=
  fun _ _ v => (limitProgress v.nEval (.fin B)).map fun p => (p, ())

theorem update_nGen (N : ℕ) (hN : 1 ≤ N) (v : AlgView σ) (p : K) :
    ∃ q, Crit.update (nGenRaw (K := K) N) v (.prim false p ()) = some (.prim false q ()) ∧
      ((Crit.prim false q () : Crit Unit K).hasTerminated = true ↔ N ≤ v.nGen) := by
  obtain ⟨q, h1, h2, h3⟩ := limitProgress_fin (K := K) v.nGen N hN
  exact ⟨q, by simp [Crit.update, nGenRaw, h1, h2], by rw [hasTerminated_iff]; exact h3⟩

theorem update_nEval (N : ℕ) (hN : 1 ≤ N) (v : AlgView σ) (p : K) :
    ∃ q, Crit.update (nEvalRaw (K := K) N) v (.prim false p ()) = some (.prim false q ()) ∧
      ((Crit.prim false q () : Crit Unit K).hasTerminated = true ↔ N ≤ v.nEval) := by
  obtain ⟨q, h1, h2, h3⟩ := limitProgress_fin (K := K) v.nEval N hN
  exact ⟨q, by simp [Crit.update, nEvalRaw, h1, h2], by rw [hasTerminated_iff]; exact h3⟩

variable (h : AlgHooks σ P) (saveHistory hasArchive : Bool)

theorem fresh_hasNext {S : Type*} (st : σ) (s0 : S) :
    algHasNext (algFresh st (.prim false 0 s0) : AlgState σ P S K) = true := by
  unfold algHasNext
  rw [Bool.not_eq_true', ← Bool.not_eq_true, hasTerminated_iff]
  simp [algFresh, Crit.perc]

/-- Invariant of the loop with an `n_gen` termination: `k` generations done. -/
structure NGenInv (N k : ℕ) (saveHistory : Bool) (s : AlgState σ P Unit K) : Prop where
  term : ∃ p, s.term = .prim false p ()
  init : s.initialized = decide (0 < k)
  nIter : 0 < k → s.nIter = k + 1
  callbacks : s.callbacks = (List.range k).map (· + 1)
  history : s.history = if saveHistory then (List.range k).map (· + 1) else []
  hasNext : algHasNext s = decide (k < N)
  finalized : s.finalized = if k < N then 0 else 1

theorem NGenInv.step {N k : ℕ} (hN : 1 ≤ N) (hk : k < N) (hadv : CompletesGenerations h)
    (s : AlgState σ P Unit K) (hs : NGenInv N k saveHistory s) :
    ∃ s', algNext (nGenRaw N) h saveHistory hasArchive s = some s' ∧ NGenInv N (k + 1) saveHistory s' := by
  obtain ⟨st', e, _, he⟩ := algNext_counted (nGenRaw (K := K) N) h saveHistory hasArchive hadv s
  obtain ⟨p, hp⟩ := hs.term
  have hgen : genOf s = k + 1 := by
    unfold genOf
    rw [hs.init]
    by_cases h0 : 0 < k
    · simp [h0, hs.nIter h0]
    · simp [h0]; omega
  obtain ⟨q, hq, hq'⟩ := update_nGen (K := K) N hN (⟨genOf s, s.nEval + e, st'⟩ : AlgView σ) p
  rw [hp, hq] at he
  refine ⟨_, he, ?_⟩
  obtain ⟨f1, f2, f3, f4, f5, f6, f7, f8, f9⟩ := algFinish_fields hasArchive (algInfill h s).1
    { s with st := st', initialized := true, nIter := genOf s + 1, nEval := s.nEval + e, term := .prim false q (),
             history := if saveHistory then s.history ++ [genOf s] else s.history,
             callbacks := s.callbacks ++ [genOf s] }
  dsimp only at f1 f2 f3 f4 f5 f6 f7 f8 f9 hq'
  have hterm : (Crit.prim false q () : Crit Unit K).hasTerminated = decide (N ≤ k + 1) := by
    rw [Bool.eq_iff_iff, hq', hgen]; simp
  refine ⟨⟨q, f5⟩, by rw [f2]; simp, fun _ => by rw [f3, hgen], ?_, ?_, ?_, ?_⟩
  · rw [f6, hs.callbacks, hgen, List.range_succ]; simp
  · rw [f7, hs.history, hgen, List.range_succ]
    cases saveHistory <;> simp
  · unfold algHasNext
    rw [f5, hterm, Bool.eq_iff_iff]
    simp
  · rw [f8, hs.finalized, hterm]
    simp only [hk, if_true, decide_eq_true_eq, Nat.zero_add]
    split_ifs <;> omega

/-- C18. With termination `("n_gen", N)`, `N ≥ 1`, for every algorithm whose `_advance` completes generations: after
`k ≤ N` calls of `next()`, none of which raises, the callback has been called once per generation with
`n_gen = 1, ..., k`, the history (if saved) has exactly these entries, for `k ≥ 1` the counter is `k + 1`,
`has_next()` is true iff `k < N`, and `finalize` has been called once iff `k = N`. -/
theorem C18_n_gen_steps (N : ℕ) (hN : 1 ≤ N) (hadv : CompletesGenerations h) (st : σ) (k : ℕ) (hk : k ≤ N) :
    ∃ s, algNextN (nGenRaw (K := K) N) h saveHistory hasArchive k (algFresh st (.prim false 0 ())) = some s ∧
      s.callbacks = (List.range k).map (· + 1) ∧
      s.history = (if saveHistory then (List.range k).map (· + 1) else []) ∧
      (0 < k → s.nIter = k + 1) ∧ (algHasNext s = true ↔ k < N) ∧ s.finalized = if k < N then 0 else 1 := by
  have gen : ∀ (j k : ℕ) (s : AlgState σ P Unit K), j + k ≤ N → NGenInv N k saveHistory s →
      ∃ s', algNextN (nGenRaw (K := K) N) h saveHistory hasArchive j s = some s' ∧
        NGenInv N (k + j) saveHistory s' := by
    intro j
    induction j with
    | zero => intro k s _ hs; exact ⟨s, rfl, hs⟩
    | succ j ih =>
      intro k s hjk hs
      obtain ⟨s1, h1, h2⟩ := hs.step h saveHistory hasArchive hN (by omega) hadv
      obtain ⟨s2, h3, h4⟩ := ih (k + 1) s1 (by omega) h2
      refine ⟨s2, by rw [algNextN, h1]; exact h3, ?_⟩
      rwa [show k + (j + 1) = k + 1 + j by omega]
  have h0 : NGenInv N 0 saveHistory (algFresh st (.prim false 0 ()) : AlgState σ P Unit K) := by
    refine ⟨⟨0, rfl⟩, rfl, by simp, rfl, by simp [algFresh], ?_, ?_⟩
    · rw [fresh_hasNext]; simp; omega
    · simp [algFresh]; omega
  obtain ⟨s, h1, h2⟩ := gen k 0 _ (by omega) h0
  rw [Nat.zero_add] at h2
  exact ⟨s, h1, h2.callbacks, h2.history, h2.nIter, by rw [h2.hasNext]; simp, h2.finalized⟩

theorem algRun_of_nextN {S : Type*} (raw : S → K → AlgView σ → Option (K × S)) :
    ∀ (k fuel : ℕ) (s s' : AlgState σ P S K), k ≤ fuel →
    algNextN raw h saveHistory hasArchive k s = some s' →
    (∀ j s'', j < k → algNextN raw h saveHistory hasArchive j s = some s'' → algHasNext s'' = true) →
    algHasNext s' = false → algRun raw h saveHistory hasArchive fuel s = some s' := by
  intro k
  induction k with
  | zero =>
    intro fuel s s' _ h1 _ h3
    simp only [algNextN, Option.some.injEq] at h1
    subst h1
    cases fuel <;> simp [algRun, h3]
  | succ k ih =>
    intro fuel s s' hf h1 h2 h3
    obtain ⟨fuel, rfl⟩ : ∃ f, fuel = f + 1 := ⟨fuel - 1, by omega⟩
    rw [algNextN] at h1
    cases hn : algNext raw h saveHistory hasArchive s with
    | none => rw [hn] at h1; simp at h1
    | some s1 =>
      rw [hn] at h1
      dsimp only at h1
      rw [algRun, if_pos (h2 0 s (by omega) rfl), hn]
      dsimp only
      refine ih fuel s1 s' (by omega) h1 ?_ h3
      intro j s'' hj hjs
      exact h2 (j + 1) s'' (by omega) (by rw [algNextN, hn]; exact hjs)

/-- C18. `run()` with `("n_gen", N)`, `N ≥ 1`, terminates after exactly `N` calls of `next()`: exactly `N` generations,
`has_next()` false, `finalize` called once. -/
theorem C18_n_gen_run (N : ℕ) (hN : 1 ≤ N) (hadv : CompletesGenerations h) (st : σ) (fuel : ℕ) (hf : N ≤ fuel) :
    ∃ s, algRun (nGenRaw (K := K) N) h saveHistory hasArchive fuel (algFresh st (.prim false 0 ())) = some s ∧
      algNextN (nGenRaw (K := K) N) h saveHistory hasArchive N (algFresh st (.prim false 0 ())) = some s ∧
      s.callbacks = (List.range N).map (· + 1) ∧ algHasNext s = false ∧ s.finalized = 1 := by
  obtain ⟨s, h1, h2, _, _, h4, h5⟩ := C18_n_gen_steps (K := K) h saveHistory hasArchive N hN hadv st N (le_refl _)
  have h4' : algHasNext s = false := by
    cases hh : algHasNext s
    · rfl
    · exact absurd (h4.1 hh) (lt_irrefl _)
  refine ⟨s, ?_, h1, h2, h4', by simpa using h5⟩
  refine algRun_of_nextN h saveHistory hasArchive _ N fuel _ s hf h1 ?_ h4'
  intro j s'' hj hs''
  obtain ⟨s2, g1, _, _, _, g4, _⟩ :=
    C18_n_gen_steps (K := K) h saveHistory hasArchive N hN hadv st j (by omega)
  rw [g1] at hs''
  simp only [Option.some.injEq] at hs''
  subst hs''
  exact g4.2 hj

/-- C18. A limit of zero generations raises in the first iteration. -/
theorem C18_n_gen_zero_raises (hadv : CompletesGenerations h) (st : σ) :
    algNext (nGenRaw (K := K) 0) h saveHistory hasArchive (algFresh st (.prim false 0 ())) = none := by
  obtain ⟨st', e, _, he⟩ := algNext_counted (nGenRaw (K := K) 0) h saveHistory hasArchive hadv
    (algFresh st (.prim false 0 ()))
  rw [he]
  simp [algFresh, Crit.update, nGenRaw, limitProgress]

/-! ### Evaluation budget -/

/-- Every generation creates solutions and evaluates at least one and at most `M` of them. -/
structure EvaluatesSome (h : AlgHooks σ P) (M : ℕ) : Prop where
  init : ∀ st, ((h.initInfill st).1).isSome = true
  infill : ∀ st, ((h.infill st).1).isSome = true
  pos : ∀ p st, 1 ≤ (h.eval p st).2
  le : ∀ p st, (h.eval p st).2 ≤ M

theorem nEval_step (B M : ℕ) (hB : 1 ≤ B) (hadv : CompletesGenerations h) (hev : EvaluatesSome h M)
    (s : AlgState σ P Unit K) (p : K) (hp : s.term = .prim false p ()) :
    ∃ s' q, algNext (nEvalRaw (K := K) B) h saveHistory hasArchive s = some s' ∧ s'.term = .prim false q () ∧
      (algHasNext s' = true ↔ s'.nEval < B) ∧ s.nEval + 1 ≤ s'.nEval ∧ s'.nEval ≤ s.nEval + M ∧
      s'.callbacks.length = s.callbacks.length + 1 := by
  obtain ⟨st', e, hcase, he⟩ := algNext_counted (nEvalRaw (K := K) B) h saveHistory hasArchive hadv s
  obtain ⟨q, hq, hq'⟩ := update_nEval (K := K) B hB (⟨genOf s, s.nEval + e, st'⟩ : AlgView σ) p
  rw [hp, hq] at he
  have hbound : 1 ≤ e ∧ e ≤ M := by
    rcases hcase with ⟨hnone, _⟩ | ⟨pp, st, _, rfl⟩
    · exfalso
      unfold algInfill at hnone
      by_cases hi : s.initialized = false
      · rw [if_pos hi] at hnone
        have := hev.init s.st
        dsimp only at hnone
        rw [hnone] at this; simp at this
      · rw [if_neg hi] at hnone
        have := hev.infill s.st
        dsimp only at hnone
        rw [hnone] at this; simp at this
    · exact ⟨hev.pos _ _, hev.le _ _⟩
  obtain ⟨f1, f2, f3, f4, f5, f6, f7, f8, f9⟩ := algFinish_fields hasArchive (algInfill h s).1
    { s with st := st', initialized := true, nIter := genOf s + 1, nEval := s.nEval + e, term := .prim false q (),
             history := if saveHistory then s.history ++ [genOf s] else s.history,
             callbacks := s.callbacks ++ [genOf s] }
  dsimp only at f1 f2 f3 f4 f5 f6 f7 f8 f9 hq'
  refine ⟨_, q, he, f5, ?_, by rw [f4]; omega, by rw [f4]; omega, by rw [f6]; simp⟩
  unfold algHasNext
  rw [f5, f4]
  rw [Bool.not_eq_true', ← Bool.not_eq_true, hq']
  simp

/-- C18. With an evaluation budget `("n_eval", B)`, `B ≥ 1`, where each generation evaluates between 1 and `M`
individuals, `run()` terminates after at most `B` generations; at the end the counter has reached the budget, it
overshoots by less than `M`, and it was below the budget before the last generation. -/
theorem C18_n_eval_run (B M : ℕ) (hB : 1 ≤ B) (hadv : CompletesGenerations h) (hev : EvaluatesSome h M) (st : σ)
    (fuel : ℕ) (hf : B ≤ fuel) :
    ∃ k s, 1 ≤ k ∧ k ≤ B ∧
      algRun (nEvalRaw (K := K) B) h saveHistory hasArchive fuel (algFresh st (.prim false 0 ())) = some s ∧
      algNextN (nEvalRaw (K := K) B) h saveHistory hasArchive k (algFresh st (.prim false 0 ())) = some s ∧
      s.callbacks.length = k ∧ algHasNext s = false ∧ s.finalized = 1 ∧ B ≤ s.nEval ∧ s.nEval < B + M ∧
      (∀ j s'', j < k →
        algNextN (nEvalRaw (K := K) B) h saveHistory hasArchive j (algFresh st (.prim false 0 ())) = some s'' →
        s''.nEval < B) := by
  -- from any state below the budget
  have gen : ∀ (n : ℕ) (s : AlgState σ P Unit K) (p : K), s.term = .prim false p () → s.nEval < B → B - s.nEval ≤ n →
      algHasNext s = true →
      ∃ k s', 1 ≤ k ∧ k ≤ n ∧ algNextN (nEvalRaw (K := K) B) h saveHistory hasArchive k s = some s' ∧
        s'.callbacks.length = s.callbacks.length + k ∧ algHasNext s' = false ∧ B ≤ s'.nEval ∧ s'.nEval < B + M ∧
        (∀ j s'', j < k → algNextN (nEvalRaw (K := K) B) h saveHistory hasArchive j s = some s'' →
          s''.nEval < B ∧ algHasNext s'' = true) := by
    intro n
    induction n with
    | zero => intro s p _ h1 h2; omega
    | succ n ih =>
      intro s p hp hlt hn hnext
      obtain ⟨s1, q, h1, h2, h3, h4, h5, h6⟩ := nEval_step (K := K) h saveHistory hasArchive B M hB hadv hev s p hp
      by_cases hdone : s1.nEval < B
      · obtain ⟨k, s2, g1, g2, g3, g4, g5, g6, g7, g8⟩ := ih s1 q h2 hdone (by omega) (h3.2 hdone)
        refine ⟨k + 1, s2, by omega, by omega, by rw [algNextN, h1]; exact g3, by omega, g5, g6, g7, ?_⟩
        intro j s'' hj hjs
        cases j with
        | zero =>
          simp only [algNextN, Option.some.injEq] at hjs
          subst hjs; exact ⟨hlt, hnext⟩
        | succ j =>
          rw [algNextN, h1] at hjs
          exact g8 j s'' (by omega) hjs
      · refine ⟨1, s1, le_refl _, by omega, by rw [algNextN, h1]; rfl, h6, ?_, by omega, by omega, ?_⟩
        · cases hh : algHasNext s1
          · rfl
          · exact absurd (h3.1 hh) hdone
        · intro j s'' hj hjs
          obtain rfl : j = 0 := by omega
          simp only [algNextN, Option.some.injEq] at hjs
          subst hjs; exact ⟨hlt, hnext⟩
  have h0 : algHasNext (algFresh st (.prim false 0 ()) : AlgState σ P Unit K) = true := fresh_hasNext st ()
  obtain ⟨k, s, g1, g2, g3, g4, g5, g6, g7, g8⟩ := gen B (algFresh st (.prim false 0 ())) 0 rfl
    (by simp [algFresh]; omega) (by simp [algFresh]) h0
  have hrun := algRun_of_nextN h saveHistory hasArchive (nEvalRaw (K := K) B) k fuel _ s (by omega) g3
    (fun j s'' hj hjs => (g8 j s'' hj hjs).2) g5
  refine ⟨k, s, g1, g2, hrun, g3, by simpa [algFresh] using g4, g5, ?_, g6, g7, fun j s'' hj hjs => (g8 j s'' hj hjs).1⟩
  have := (C18_run_finalizes_once _ h saveHistory hasArchive fuel _ s h0 hrun).2
  simpa [algFresh] using this

/-- Non-vacuity: an algorithm that evaluates 3 individuals in every generation; a budget of 7 takes 3 generations and
ends with 9 evaluations. -/
def exHooks : AlgHooks ℕ ℕ :=
  { initInfill := fun s => (some s, s), infill := fun s => (some s, s + 1), eval := fun _ s => (s, 3),
    initAdvance := fun _ s => s, advance := fun _ s => (none, s), setOptimum := id }

example : CompletesGenerations exHooks := by intro i s; simp [exHooks]
example : EvaluatesSome exHooks 3 := by constructor <;> simp [exHooks]
example : ((algRun (nEvalRaw (K := ℚ) 7) exHooks true true 7 (algFresh 0 (.prim false 0 ()))).map
    fun s => (s.nEval, s.callbacks, s.finalized)) = some (9, [1, 2, 3], 1) := by decide +kernel
example : ((algRun (nGenRaw (K := ℚ) 4) exHooks true true 10 (algFresh 0 (.prim false 0 ()))).map
    fun s => (s.nEval, s.history, s.finalized)) = some (12, [1, 2, 3, 4], 1) := by decide +kernel

end NGen

end Props
