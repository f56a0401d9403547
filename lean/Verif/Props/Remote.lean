import Mathlib.Tactic.Common
import Verif.Model.Remote

/-!
# C152: the data cache survives crashes, failures and concurrent use
-/

set_option linter.unusedSimpArgs false
set_option linter.unusedVariables false

namespace Props
open Model Spec

variable {A : Type} [DecidableEq A]

/-- What is known about a call at each point. -/
private def PcOk (env : REnv A) (fs0 fs : RFS A) (a : A) : RPc → Prop
  | .start => True
  | .failed => True
  | .killed _ => True
  | .checkBundled => fs0 (.dest a) = none
  | .readBundled => fs0 (.dest a) = none
  | .mkTemp => fs0 (.dest a) = none ∧ env.bundled a = none
  | .request _ => fs0 (.dest a) = none ∧ env.bundled a = none
  | .cleanup _ => True
  | .openTemp _ d => fs0 (.dest a) = none ∧ env.bundled a = none ∧ d = env.server a
  | .write k d n => fs0 (.dest a) = none ∧ env.bundled a = none ∧ d = env.server a
  | .rename k d => fs0 (.dest a) = none ∧ env.bundled a = none ∧ d = env.server a ∧ ∀ f, fs (.temp k) = some f → f.data = d
  | .readDest => (fs (.dest a)).isSome
  | .done d => d = cacheExpected ((fs0 (.dest a)).map RFile.data) (env.bundled a) (env.server a)

/-- The invariant of all executions. -/
private structure CacheInv (env : REnv A) (fs0 : RFS A) (s : RState A) : Prop where
  old : ∀ a f, fs0 (.dest a) = some f → s.fs (.dest a) = some f
  new : ∀ a, fs0 (.dest a) = none → ∀ f, s.fs (.dest a) = some f → f.data = env.server a ∧ env.bundled a = none
  holds : ∀ i k, (s.procs i).pc.held = some k → (s.fs (.temp k)).isSome ∧ fs0 (.temp k) = none
  apart : ∀ i j k, (s.procs i).pc.held = some k → (s.procs j).pc.held = some k → i = j
  temps : ∀ k, (s.fs (.temp k)).isSome → (fs0 (.temp k)).isSome ∨ ∃ i, (s.procs i).pc.held = some k
  keep : ∀ k f, fs0 (.temp k) = some f → s.fs (.temp k) = some f
  pcs : ∀ i, PcOk env fs0 s.fs (s.procs i).args (s.procs i).pc

private theorem pcOk_mono (env : REnv A) (fs0 fs fs' : RFS A) (a : A) (pc : RPc) (hd : ∀ a, (fs (.dest a)).isSome → (fs' (.dest a)).isSome)
    (ht : ∀ k, pc.held = some k → fs' (.temp k) = fs (.temp k)) (h : PcOk env fs0 fs a pc) : PcOk env fs0 fs' a pc := by
  cases pc <;> simp only [PcOk] at h ⊢ <;> try assumption
  · rename_i k d
    rw [ht k rfl]; exact h
  · exact hd _ h

private theorem inv_step {env : REnv A} {fs0 : RFS A} {s : RState A} (h : CacheInv env fs0 s) (i : ℕ) (fs' : RFS A) (pc' : RPc)
    (hdest : ∀ a, fs' (.dest a) = s.fs (.dest a) ∨ (fs0 (.dest a) = none ∧ env.bundled a = none ∧ ∃ f, fs' (.dest a) = some f ∧ f.data = env.server a))
    (htemp : ∀ k, (s.procs i).pc.held ≠ some k → pc'.held ≠ some k → fs' (.temp k) = s.fs (.temp k))
    (hheld : ∀ k, pc'.held = some k → (fs' (.temp k)).isSome ∧ ((s.procs i).pc.held = some k ∨ s.fs (.temp k) = none))
    (hrel : ∀ k, (s.procs i).pc.held = some k → pc'.held ≠ some k → fs' (.temp k) = none)
    (hpc : PcOk env fs0 fs' (s.procs i).args pc') :
    CacheInv env fs0 ⟨fs', Function.update s.procs i { s.procs i with pc := pc' }⟩ := by
  have hup : ∀ j, (Function.update s.procs i { s.procs i with pc := pc' }) j = if j = i then { s.procs i with pc := pc' } else s.procs j := by
    intro j; simp only [Function.update_apply]
  have hmine : ∀ k, pc'.held = some k → fs0 (.temp k) = none := by
    intro k hk
    rcases (hheld k hk).2 with h1 | h1
    · exact (h.holds i k h1).2
    · cases h2 : fs0 (.temp k) with
      | none => rfl
      | some f => rw [h.keep k f h2] at h1; simp at h1
  have hother : ∀ j k, j ≠ i → (s.procs j).pc.held = some k → (s.procs i).pc.held ≠ some k ∧ pc'.held ≠ some k := by
    intro j k hj hk
    refine ⟨fun h1 => hj (h.apart j i k hk h1), ?_⟩
    intro h1
    rcases (hheld k h1).2 with h2 | h2
    · exact hj (h.apart j i k hk h2)
    · have := (h.holds j k hk).1
      rw [h2] at this; simp at this
  refine ⟨?_, ?_, ?_, ?_, ?_, ?_, ?_⟩
  · intro a f hf
    dsimp only
    rcases hdest a with h1 | ⟨h1, -⟩
    · rw [h1]; exact h.old a f hf
    · rw [h1] at hf; simp at hf
  · intro a ha f hf
    dsimp only at hf
    rcases hdest a with h1 | ⟨-, h2, g, h3, h4⟩
    · rw [h1] at hf; exact h.new a ha f hf
    · rw [h3] at hf
      obtain rfl := Option.some.inj hf
      exact ⟨h4, h2⟩
  · intro j k hk
    simp only [hup] at hk
    split at hk
    · exact ⟨(hheld k hk).1, hmine k hk⟩
    · rename_i hj
      obtain ⟨h1, h2⟩ := hother j k hj hk
      dsimp only
      rw [htemp k h1 h2]
      exact h.holds j k hk
  · intro j j' k hk hk'
    simp only [hup] at hk hk'
    split at hk <;> split at hk'
    · rename_i h1 h2; rw [h1, h2]
    · rename_i h1 h2; exact absurd hk (hother j' k h2 hk').2
    · rename_i h1 h2; exact absurd hk' (hother j k h1 hk).2
    · exact h.apart j j' k hk hk'
  · intro k hk
    by_cases h1 : pc'.held = some k
    · exact Or.inr ⟨i, by simp [h1]⟩
    · by_cases h2 : (s.procs i).pc.held = some k
      · simp [hrel k h2 h1] at hk
      · simp only [htemp k h2 h1] at hk
        rcases h.temps k hk with h3 | ⟨j, hj⟩
        · exact Or.inl h3
        · have hji : j ≠ i := by rintro rfl; exact h2 hj
          exact Or.inr ⟨j, by simp [Function.update_of_ne hji, hj]⟩
  · intro k f hf
    have h1 : pc'.held ≠ some k := fun h1 => by rw [hmine k h1] at hf; simp at hf
    have h2 : (s.procs i).pc.held ≠ some k := fun h2 => by rw [(h.holds i k h2).2] at hf; simp at hf
    simp only [htemp k h2 h1]
    exact h.keep k f hf
  · intro j
    simp only [hup]
    split
    · exact hpc
    · rename_i hj
      refine pcOk_mono env fs0 s.fs fs' _ _ ?_ ?_ (h.pcs j)
      · intro a ha
        rcases hdest a with h1 | ⟨-, -, f, h2, -⟩
        · rw [h1]; exact ha
        · rw [h2]; rfl
      · intro k hk
        exact htemp k (hother j k hj hk).1 (hother j k hj hk).2

private theorem inv_same {env : REnv A} {fs0 : RFS A} {s : RState A} (h : CacheInv env fs0 s) (i : ℕ) (pc' : RPc) (hh : pc'.held = (s.procs i).pc.held)
    (hpc : PcOk env fs0 s.fs (s.procs i).args pc') : CacheInv env fs0 ⟨s.fs, Function.update s.procs i { s.procs i with pc := pc' }⟩ := by
  refine inv_step h i s.fs pc' (fun _ => Or.inl rfl) (fun _ _ _ => rfl) ?_ ?_ hpc
  · intro k hk
    rw [hh] at hk
    exact ⟨(h.holds i k hk).1, Or.inl hk⟩
  · intro k hk hk'
    exact absurd (hh.trans hk) hk'

private theorem inv_write {env : REnv A} {fs0 : RFS A} {s : RState A} (h : CacheInv env fs0 s) (i k : ℕ) (pc' : RPc) (v : RFile → RFile) (hk : (s.procs i).pc.held = some k) (hk' : pc'.held = some k)
    (hpc : PcOk env fs0 (Function.update s.fs (.temp k) ((s.fs (.temp k)).map v)) (s.procs i).args pc') :
    CacheInv env fs0 ⟨Function.update s.fs (.temp k) ((s.fs (.temp k)).map v), Function.update s.procs i { s.procs i with pc := pc' }⟩ := by
  refine inv_step h i _ pc' ?_ ?_ ?_ ?_ hpc
  · intro a; left; simp [Function.update_apply]
  · intro k' h1 h2
    rw [hk] at h1
    have : k' ≠ k := fun e => h1 (by rw [e])
    simp [Function.update_apply, this]
  · intro k' h1
    rw [hk'] at h1
    obtain rfl := Option.some.inj h1
    refine ⟨?_, Or.inl hk⟩
    simpa [Function.update_apply] using (h.holds i k hk).1
  · intro k' h1 h2
    rw [hk] at h1
    exact absurd (hk'.trans h1) h2

private theorem rAct_inv {env : REnv A} {fs0 : RFS A} {s : RState A} (h : CacheInv env fs0 s) (ic : ℕ × RChoice) : CacheInv env fs0 (rStep env s ic) := by
  obtain ⟨i, c⟩ := ic
  have hp := h.pcs i
  have hh := h.holds i
  simp only [rStep]
  cases hpc : (s.procs i).pc with
  | start =>
    cases c with
    | kill => exact inv_same h i _ (by rw [hpc]; rfl) trivial
    | raise => exact inv_same h i _ (by rw [hpc]; rfl) trivial
    | go m =>
      simp only [rAct]
      by_cases hd : (s.fs (.dest (s.procs i).args)).isSome
      · simp only [hd, if_true]
        exact inv_same h i _ (by rw [hpc]; rfl) hd
      · simp only [hd, if_false]
        refine inv_same h i _ (by rw [hpc]; rfl) ?_
        cases h0 : fs0 (.dest (s.procs i).args) with
        | none => exact h0
        | some f => rw [h.old _ _ h0] at hd; simp at hd
  | checkBundled =>
    rw [hpc] at hp
    cases c with
    | kill => exact inv_same h i _ (by rw [hpc]; rfl) trivial
    | raise => exact inv_same h i _ (by rw [hpc]; rfl) trivial
    | go m =>
      simp only [rAct]
      by_cases hd : (env.bundled (s.procs i).args).isSome
      · simp only [hd, if_true]
        exact inv_same h i _ (by rw [hpc]; rfl) hp
      · simp only [hd, if_false]
        exact inv_same h i _ (by rw [hpc]; rfl) ⟨hp, by simpa using hd⟩
  | mkTemp =>
    rw [hpc] at hp
    cases c with
    | kill => exact inv_same h i _ (by rw [hpc]; rfl) trivial
    | raise => exact inv_same h i _ (by rw [hpc]; rfl) trivial
    | go m =>
      simp only [rAct]
      by_cases hd : (s.fs (.temp m)).isSome
      · simp only [hd, if_true]
        exact inv_same h i _ (by rw [hpc]) hp
      · simp only [hd, if_false]
        refine inv_step h i _ _ ?_ ?_ ?_ ?_ hp
        · intro a; left; simp [Function.update_apply]
        · intro k _ h2
          have : k ≠ m := fun e => h2 (by rw [e]; rfl)
          simp [Function.update_apply, this]
        · intro k hk
          obtain rfl := Option.some.inj hk
          exact ⟨by simp, Or.inr (by simpa using hd)⟩
        · intro k hk
          rw [hpc] at hk; simp [RPc.held] at hk
  | request k =>
    rw [hpc] at hp
    cases c with
    | kill => exact inv_same h i _ (by rw [hpc]; rfl) trivial
    | raise => exact inv_same h i _ (by rw [hpc]; rfl) trivial
    | go m => exact inv_same h i _ (by rw [hpc]; rfl) ⟨hp.1, hp.2, rfl⟩
  | openTemp k d =>
    rw [hpc] at hp
    cases c with
    | kill => exact inv_same h i _ (by rw [hpc]; rfl) trivial
    | raise => exact inv_same h i _ (by rw [hpc]; rfl) trivial
    | go m => exact inv_write h i k _ _ (by rw [hpc]; rfl) rfl hp
  | write k d n =>
    rw [hpc] at hp
    cases c with
    | kill => exact inv_same h i _ (by rw [hpc]; rfl) trivial
    | raise => exact inv_same h i _ (by rw [hpc]; rfl) trivial
    | go m =>
      simp only [rAct]
      by_cases hd : d.length ≤ n + m
      · simp only [hd, if_true]
        refine inv_write h i k _ _ (by rw [hpc]; rfl) rfl ⟨hp.1, hp.2.1, hp.2.2, ?_⟩
        intro f hf
        simp only [Function.update_self, Option.map_eq_some_iff] at hf
        obtain ⟨g, -, rfl⟩ := hf
        exact List.take_of_length_le hd
      · simp only [hd, if_false]
        exact inv_write h i k _ _ (by rw [hpc]; rfl) rfl hp
  | rename k d =>
    rw [hpc] at hp
    cases c with
    | kill => exact inv_same h i _ (by rw [hpc]; rfl) trivial
    | raise => exact inv_same h i _ (by rw [hpc]; rfl) trivial
    | go m =>
      obtain ⟨h0, hb, hd, hf⟩ := hp
      have hk : (s.procs i).pc.held = some k := by rw [hpc]; rfl
      obtain ⟨f, hfk⟩ := Option.isSome_iff_exists.1 (hh k hk).1
      simp only [rAct]
      refine inv_step h i _ _ ?_ ?_ ?_ ?_ ?_
      · intro a
        by_cases ha : a = (s.procs i).args
        · subst ha
          exact Or.inr ⟨h0, hb, f, by simp [Function.update_apply, hfk], by rw [hf f hfk, hd]⟩
        · left; simp [Function.update_apply, ha]
      · intro k' h1 _
        have : k' ≠ k := fun e => h1 (by rw [e]; exact hk)
        simp [Function.update_apply, this]
      · intro k' h1; simp [RPc.held] at h1
      · intro k' h1 _
        rw [hk] at h1
        obtain rfl := Option.some.inj h1
        simp
      · simp [PcOk, Function.update_apply, hfk]
  | cleanup k =>
    cases c with
    | kill => exact inv_same h i _ (by rw [hpc]; rfl) trivial
    | raise => exact inv_same h i _ (by rw [hpc]; rfl) trivial
    | go m =>
      have hk : (s.procs i).pc.held = some k := by rw [hpc]; rfl
      simp only [rAct]
      refine inv_step h i _ _ ?_ ?_ ?_ ?_ trivial
      · intro a; left; simp [Function.update_apply]
      · intro k' h1 _
        have : k' ≠ k := fun e => h1 (by rw [e]; exact hk)
        simp [Function.update_apply, this]
      · intro k' h1; simp [RPc.held] at h1
      · intro k' h1 _
        rw [hk] at h1
        obtain rfl := Option.some.inj h1
        simp
  | readDest =>
    rw [hpc] at hp
    cases c with
    | kill => exact inv_same h i _ (by rw [hpc]; rfl) trivial
    | raise => exact inv_same h i _ (by rw [hpc]; rfl) trivial
    | go m =>
      simp only [rAct]
      cases hf : s.fs (.dest (s.procs i).args) with
      | none => simp only; exact inv_same h i _ (by rw [hpc]; rfl) trivial
      | some f =>
        simp only
        split
        · exact inv_same h i _ (by rw [hpc]; rfl) trivial
        · refine inv_same h i _ (by rw [hpc]; rfl) ?_
          simp only [PcOk]
          cases h0 : fs0 (.dest (s.procs i).args) with
          | some g =>
            rw [h.old _ _ h0] at hf
            obtain rfl := Option.some.inj hf
            rfl
          | none =>
            obtain ⟨h1, h2⟩ := h.new _ h0 f hf
            simp [cacheExpected, h2, h1]
  | readBundled =>
    rw [hpc] at hp
    cases c with
    | kill => exact inv_same h i _ (by rw [hpc]; rfl) trivial
    | raise => exact inv_same h i _ (by rw [hpc]; rfl) trivial
    | go m =>
      simp only [rAct]
      cases hf : env.bundled (s.procs i).args with
      | none => simp only; exact inv_same h i _ (by rw [hpc]; rfl) trivial
      | some d =>
        simp only
        refine inv_same h i _ (by rw [hpc]; rfl) ?_
        simp only [PcOk] at hp ⊢
        simp [hp, cacheExpected, hf]
  | done d =>
    rw [hpc] at hp
    cases c <;> exact inv_same h i _ (by rw [hpc]; rfl) hp
  | failed => cases c <;> exact inv_same h i _ (by rw [hpc]; rfl) trivial
  | killed hd => cases c <;> exact inv_same h i _ (by rw [hpc]; rfl) trivial

private theorem inv_run {env : REnv A} {fs0 : RFS A} (l : List (ℕ × RChoice)) : ∀ {s : RState A}, CacheInv env fs0 s → CacheInv env fs0 (rRun env s l) := by
  induction l with
  | nil => exact fun h => h
  | cons ic l ih => exact fun h => ih (rAct_inv h ic)

private theorem inv_init (env : REnv A) (fs0 : RFS A) (procs : ℕ → RProc A) (h0 : ∀ i, (procs i).pc = .start) : CacheInv env fs0 ⟨fs0, procs⟩ := by
  refine ⟨fun _ _ h => h, fun a h f h' => by simp [h] at h', ?_, ?_, fun k h => Or.inl h, fun _ _ h => h, ?_⟩
  · intro i k h; simp [h0, RPc.held] at h
  · intro i j k h; simp [h0, RPc.held] at h
  · intro i; simp only [h0]; trivial

/-- **C152 (integrity).** However many processes load however many files at the same time, in whatever order they make their steps, whichever operations fail and wherever processes are stopped: at every moment a
cached file has its old content, or, if there was none, there is no file or one with the complete data of the server. A file that was cached is never modified. -/
theorem C152_integrity (env : REnv A) (fs0 : RFS A) (procs : ℕ → RProc A) (h0 : ∀ i, (procs i).pc = .start) (l : List (ℕ × RChoice)) (a : A) :
    CacheIntact ((fs0 (.dest a)).map RFile.data) (((rRun env ⟨fs0, procs⟩ l).fs (.dest a)).map RFile.data) (env.server a) ∧
    ∀ f, fs0 (.dest a) = some f → (rRun env ⟨fs0, procs⟩ l).fs (.dest a) = some f := by
  have h := inv_run (env := env) l (inv_init env fs0 procs h0)
  refine ⟨?_, h.old a⟩
  cases hf : fs0 (.dest a) with
  | some f => simp [CacheIntact, h.old a f hf]
  | none =>
    simp only [CacheIntact, Option.map_none]
    cases hg : (rRun env ⟨fs0, procs⟩ l).fs (.dest a) with
    | none => left; rfl
    | some g => right; simp [(h.new a hf g hg).1]

/-- **C152 (result).** A call that returns, returns the content that was cached before, else the bundled copy, else the complete data of the server, never anything else. -/
theorem C152_result (env : REnv A) (fs0 : RFS A) (procs : ℕ → RProc A) (h0 : ∀ i, (procs i).pc = .start) (l : List (ℕ × RChoice)) (i : ℕ) (d : List ℕ)
    (hd : ((rRun env ⟨fs0, procs⟩ l).procs i).pc = .done d) : d = cacheExpected ((fs0 (.dest (procs i).args)).map RFile.data) (env.bundled (procs i).args) (env.server (procs i).args) := by
  have h := (inv_run (env := env) l (inv_init env fs0 procs h0)).pcs i
  rw [hd] at h
  have ha : ∀ (l : List (ℕ × RChoice)) (s : RState A), ((rRun env s l).procs i).args = (s.procs i).args := by
    intro l
    induction l with
    | nil => intro s; rfl
    | cons ic l ih =>
      intro s
      rw [show rRun env s (ic :: l) = rRun env (rStep env s ic) l from rfl, ih]
      simp only [rStep, Function.update_apply]
      split <;> simp_all
  rw [ha] at h
  exact h

/-- **C152 (clean up).** The temporary files in the folder are those that were there before and those of calls that are still running or were stopped; a call that has returned or raised leaves none. Temporary files
of others are not touched. -/
theorem C152_cleanup (env : REnv A) (fs0 : RFS A) (procs : ℕ → RProc A) (h0 : ∀ i, (procs i).pc = .start) (l : List (ℕ × RChoice)) (k : ℕ) :
    (∀ f, fs0 (.temp k) = some f → (rRun env ⟨fs0, procs⟩ l).fs (.temp k) = some f) ∧
    (fs0 (.temp k) = none → ((rRun env ⟨fs0, procs⟩ l).fs (.temp k)).isSome → ∃ i, ((rRun env ⟨fs0, procs⟩ l).procs i).pc.held = some k ∧
      ((rRun env ⟨fs0, procs⟩ l).procs i).pc ≠ .failed ∧ ∀ d, ((rRun env ⟨fs0, procs⟩ l).procs i).pc ≠ .done d) := by
  have h := inv_run (env := env) l (inv_init env fs0 procs h0)
  refine ⟨h.keep k, ?_⟩
  intro h1 h2
  rcases h.temps k h2 with h3 | ⟨i, hi⟩
  · rw [h1] at h3; simp at h3
  · refine ⟨i, hi, ?_, ?_⟩
    · intro e; rw [e] at hi; simp [RPc.held] at hi
    · intro d e; rw [e] at hi; simp [RPc.held] at hi

private theorem recovery_aux (env : REnv A) (fs0 : RFS A) (procs : ℕ → RProc A) (h0 : ∀ i, (procs i).pc = .start) (l : List (ℕ × RChoice)) (i k : ℕ)
    (hi : ((rRun env ⟨fs0, procs⟩ l).procs i).pc = .start) (hk : (rRun env ⟨fs0, procs⟩ l).fs (.temp k) = none)
    (hu : ∀ f, (rRun env ⟨fs0, procs⟩ l).fs (.dest (procs i).args) = some f → f.priv = false ∨ f.owner = (procs i).user) :
    let s := rRun env ⟨fs0, procs⟩ l
    ∃ d, ((rRun env s ([.go 0, .go 0, .go k, .go 0, .go 0, .go (env.server (procs i).args).length, .go 0, .go 0].map fun c => (i, c))).procs i).pc = .done d := by
  intro s
  have hpi : (s.procs i) = ⟨(procs i).user, (procs i).args, .start⟩ := by
    have ha : ∀ (l : List (ℕ × RChoice)) (s : RState A), ((rRun env s l).procs i).args = (s.procs i).args ∧ ((rRun env s l).procs i).user = (s.procs i).user := by
      intro l
      induction l with
      | nil => intro s; exact ⟨rfl, rfl⟩
      | cons ic l ih =>
        intro s
        rw [show rRun env s (ic :: l) = rRun env (rStep env s ic) l from rfl, (ih _).1, (ih _).2]
        simp only [rStep, Function.update_apply]
        split <;> simp_all
    obtain ⟨h1, h2⟩ := ha l ⟨fs0, procs⟩
    simp only at h1 h2
    rw [← h1, ← h2, ← hi]
  generalize (procs i).user = u at *
  generalize (procs i).args = a at *
  change s.fs (.temp k) = none at hk
  change ∀ f, s.fs (.dest a) = some f → _ at hu
  clear_value s
  have hone : ∀ (s : RState A) (c : RChoice) (rest : List RChoice) (pc : RPc), s.procs i = ⟨u, a, pc⟩ →
      rRun env s (((c :: rest)).map fun c => (i, c)) = rRun env ⟨(rAct env c u a s.fs pc).1, Function.update s.procs i ⟨u, a, (rAct env c u a s.fs pc).2⟩⟩ (rest.map fun c => (i, c)) := by
    intro s c rest pc h
    simp only [List.map_cons, rRun, List.foldl_cons, rStep, h]
  have hdone : ∀ (rest : List RChoice) (s : RState A) (d : List ℕ), s.procs i = ⟨u, a, .done d⟩ → (∀ c ∈ rest, ∃ m, c = .go m) →
      ((rRun env s (rest.map fun c => (i, c))).procs i).pc = .done d := by
    intro rest
    induction rest with
    | nil => intro s d h _; simp [rRun, h]
    | cons c rest ih =>
      intro s d h hc
      obtain ⟨m, rfl⟩ := hc c (by simp)
      rw [hone s _ rest _ h]
      refine ih _ d ?_ fun c hc' => hc c (by simp [hc'])
      simp [rAct]
  rw [hone s _ _ _ hpi]
  simp only [rAct]
  by_cases hd : (s.fs (.dest a)).isSome
  · simp only [hd, if_true]
    rw [hone _ _ _ .readDest (by simp)]
    obtain ⟨f, hf⟩ := Option.isSome_iff_exists.1 hd
    have hp : (f.priv && f.owner != u) = false := by
      rcases hu f hf with h | h <;> simp [h]
    simp only [rAct, hf, hp, Bool.false_eq_true, if_false]
    exact ⟨f.data, hdone _ _ _ (by simp) (by simp)⟩
  · simp only [hd, Bool.false_eq_true, if_false]
    rw [hone _ _ _ .checkBundled (by simp)]
    simp only [rAct]
    cases hb : env.bundled a with
    | some d =>
      simp only [Option.isSome_some, if_true]
      rw [hone _ _ _ .readBundled (by simp)]
      simp only [rAct, hb]
      exact ⟨d, hdone _ _ _ (by simp) (by simp)⟩
    | none =>
      simp only [Option.isSome_none, Bool.false_eq_true, if_false]
      rw [hone _ _ _ .mkTemp (by simp)]
      simp only [rAct, hk, Option.isSome_none, Bool.false_eq_true, if_false]
      rw [hone _ _ _ (.request k) (by simp)]
      simp only [rAct]
      rw [hone _ _ _ (.openTemp k (env.server a)) (by simp)]
      simp only [rAct]
      rw [hone _ _ _ (.write k (env.server a) 0) (by simp)]
      simp only [rAct, Nat.zero_add, Nat.le_refl, if_true]
      rw [hone _ _ _ (.rename k (env.server a)) (by simp)]
      simp only [rAct]
      rw [hone _ _ _ .readDest (by simp)]
      simp [rAct, rRun, Function.update_apply]

/-- **C152 (recovery).** After any history, with any number of stopped processes and failed downloads: if a process of the owner of the file (or of any user, if the file is readable) calls `load` and nothing fails,
it gets the data. `k` is a name that mkstemp finds to be free. -/
theorem C152_recovery (env : REnv A) (fs0 : RFS A) (procs : ℕ → RProc A) (h0 : ∀ i, (procs i).pc = .start) (l : List (ℕ × RChoice)) (i k : ℕ)
    (hi : ((rRun env ⟨fs0, procs⟩ l).procs i).pc = .start) (hk : (rRun env ⟨fs0, procs⟩ l).fs (.temp k) = none)
    (hu : ∀ f, (rRun env ⟨fs0, procs⟩ l).fs (.dest (procs i).args) = some f → f.priv = false ∨ f.owner = (procs i).user) :
    ((rRun env (rRun env ⟨fs0, procs⟩ l) ([.go 0, .go 0, .go k, .go 0, .go 0, .go (env.server (procs i).args).length, .go 0, .go 0].map fun c => (i, c))).procs i).pc =
      .done (cacheExpected ((fs0 (.dest (procs i).args)).map RFile.data) (env.bundled (procs i).args) (env.server (procs i).args)) := by
  obtain ⟨d, hd⟩ := recovery_aux env fs0 procs h0 l i k hi hk hu
  rw [hd]
  simp only [rRun, ← List.foldl_append] at hd
  rw [← C152_result env fs0 procs h0 _ i d hd]

/-- **C152 (shared cache, refuted).** The downloaded file keeps the access rights of the temporary file, readable by its owner only: after a successful download by one user, another user of the same folder gets an
exception, for every file that is not bundled. -/
theorem C152_shared_refuted (env : REnv A) (a : A) (hb : env.bundled a = none) (u v : ℕ) (huv : u ≠ v) :
    let s := rRun env ⟨fun _ => none, fun i => ⟨if i = 0 then u else v, a, .start⟩⟩
      ([.go 0, .go 0, .go 0, .go 0, .go 0, .go (env.server a).length, .go 0, .go 0].map fun c => (0, c))
    (s.procs 0).pc = .done (env.server a) ∧ (s.procs 1).pc = .start ∧ ((rRun env s [(1, .go 0), (1, .go 0)]).procs 1).pc = .failed := by
  simp [rRun, rStep, rAct, Function.update_apply, hb, huv]

/-- **C152 (stopped processes, refuted).** A process that is stopped (or interrupted from the keyboard) during the download leaves its temporary file behind, and later successful calls do not remove it. -/
theorem C152_leftover_refuted (env : REnv A) (a : A) (hb : env.bundled a = none) :
    let s := rRun env ⟨fun _ => none, fun _ => ⟨0, a, .start⟩⟩ [(0, .go 0), (0, .go 0), (0, .go 5), (0, .kill)]
    (s.fs (.temp 5)).isSome ∧ ∀ l : List (ℕ × RChoice), ((rRun env s l).fs (.temp 5)).isSome := by
  intro s
  have hs : s.fs (.temp 5) = some ⟨[], 0, true⟩ ∧ (s.procs 0).pc = .killed (some 5) ∧ ∀ i, i ≠ 0 → (s.procs i).pc = .start := by
    simp [s, rRun, rStep, rAct, Function.update_apply, hb, RPc.held]
    intro i hi; simp [hi]
  have hinv : CacheInv env (fun _ => none) s := inv_run _ (inv_init env _ _ (fun _ => rfl))
  refine ⟨by rw [hs.1]; rfl, ?_⟩
  intro l
  have h := inv_run (env := env) l hinv
  have hk : ∀ (l : List (ℕ × RChoice)) (s : RState A), (s.procs 0).pc = .killed (some 5) → ((rRun env s l).procs 0).pc = .killed (some 5) := by
    intro l
    induction l with
    | nil => intro s h; exact h
    | cons ic l ih =>
      intro s h
      refine ih (rStep env s ic) ?_
      obtain ⟨i, c⟩ := ic
      simp only [rStep, Function.update_apply]
      split
      · rename_i hi
        subst hi
        rw [h]
        cases c <;> rfl
      · exact h
  exact (h.holds 0 5 (by rw [hk l s hs.2.1]; rfl)).1

/-- **C152 (folder).** The cache folder is `PYMOO_DATA_DIR` if it is set and not empty, else the folder `pymoo` in `XDG_CACHE_HOME` if that is set and not empty, else `pymoo` in `.cache` of the home directory. -/
theorem C152_folder (dataDir xdg : Option String) (home : String) :
    (∀ d, d ≠ "" → dataDir = some d → userCacheDir dataDir xdg home = [d]) ∧
    (dataDir = none ∨ dataDir = some "" → (∀ x, x ≠ "" → xdg = some x → userCacheDir dataDir xdg home = [x, "pymoo"]) ∧
      (xdg = none ∨ xdg = some "" → userCacheDir dataDir xdg home = [home ++ "/.cache", "pymoo"])) := by
  refine ⟨?_, ?_⟩
  · rintro d hd rfl
    simp [userCacheDir, Option.filter, hd]
  · rintro (rfl | rfl)
    · refine ⟨?_, ?_⟩
      · rintro x hx rfl; simp [userCacheDir, Option.filter, hx]
      · rintro (rfl | rfl) <;> simp [userCacheDir, Option.filter]
    · refine ⟨?_, ?_⟩
      · rintro x hx rfl; simp [userCacheDir, Option.filter, hx]
      · rintro (rfl | rfl) <;> simp [userCacheDir, Option.filter]

/-- A history with two processes: the first is stopped half way through the write, the second completes; the file is complete. -/
example : let env : REnv ℕ := ⟨fun a => [a, 1, 2, 3], fun _ => none⟩
    let s := rRun env ⟨fun _ => none, fun _ => ⟨0, 7, .start⟩⟩ [(0, .go 0), (1, .go 0), (0, .go 0), (0, .go 3), (0, .go 0), (0, .go 0), (0, .go 2), (0, .kill), (1, .go 0), (1, .go 3), (1, .go 4), (1, .go 0),
      (1, .go 0), (1, .go 2), (1, .go 2), (1, .go 0), (1, .go 0)]
    s.fs (.temp 3) = some ⟨[7, 1], 0, true⟩ ∧ s.fs (.temp 4) = none ∧ s.fs (.dest 7) = some ⟨[7, 1, 2, 3], 0, true⟩ ∧ (s.procs 1).pc = .done [7, 1, 2, 3] ∧ (s.procs 0).pc = .killed (some 3) := by
  simp [rRun, rStep, rAct, Function.update_apply, RPc.held]

end Props
