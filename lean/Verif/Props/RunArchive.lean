import Verif.Model.RunArchive
import Verif.Props.Optimum
import Mathlib.Data.List.Induction

/-! # C161: the archive of a run -/

set_option linter.unusedSimpArgs false
set_option linter.unusedVariables false
set_option linter.unusedSectionVars false

namespace Props
open Model Spec Lemmas

variable {ι α β : Type*} {m : ℕ} [LinearOrder α] [AddCommGroup α] [IsOrderedAddMonoid α] [LinearOrder β]

/-- All solutions that the rounds have handed in. -/
def toldSolutions (rounds : List (TellRound ι)) : List ι := (rounds.map fun r => r.infills.getD []).flatten

/-- What the archive is told: the infills of the rounds that have some. -/
def toldCalls (rounds : List (TellRound ι)) : List (List ι × (List ι → ℕ → List ι)) := rounds.filterMap fun r => r.infills.map fun p => (p, r.trunc)

theorem toldCalls_added (rounds : List (TellRound ι)) : ((toldCalls rounds).map Prod.fst).flatten = toldSolutions rounds := by
  induction rounds with
  | nil => rfl
  | cons r rs ih =>
    unfold toldCalls toldSolutions at *
    cases hr : r.infills <;> simp [hr, ih]

theorem archiveRun_concat (cfg : ArchiveCfg ι) (findOpt : List ι → Option (List ι)) (l1 l2 : List (List ι × (List ι → ℕ → List ι))) : ∀ self,
    archiveRun cfg findOpt self (l1 ++ l2) = (archiveRun cfg findOpt self l1).bind fun a => archiveRun cfg findOpt a l2 := by
  induction l1 with
  | nil => intro self; rfl
  | cons c cs ih =>
    intro self
    obtain ⟨sols, tr⟩ := c
    simp only [List.cons_append, archiveRun]
    cases archiveAdd cfg findOpt tr self sols with
    | none => rfl
    | some a => exact ih a

/-- What is visible when: the archive of the algorithm has taken in the infills of all rounds; the one seen by the `k`-th callback and stored in the `k`-th copy of the history has those of the rounds before, and so has the one in the result that the terminating `tell` returns. -/
structure Visible (cfg : ArchiveCfg ι) (findOpt : List ι → Option (List ι)) (save : Bool) (a0 : List ι) (rounds : List (TellRound ι)) (s : RunArchive ι) : Prop where
  arch : archiveRun cfg findOpt a0 (toldCalls rounds) = some s.arch
  count : s.callbacks.length = rounds.countP TellRound.posts
  callbacks : ∀ pre r post, rounds = pre ++ r :: post → r.posts = true → ∃ a, archiveRun cfg findOpt a0 (toldCalls pre) = some a ∧ s.callbacks[pre.countP TellRound.posts]? = some a
  history : s.history = if save then s.callbacks else []
  returned : ∀ pre r, rounds = pre ++ [r] → (r.ends = true → ∃ a, archiveRun cfg findOpt a0 (toldCalls pre) = some a ∧ s.returned = some a) ∧ (r.ends = false → s.returned = none)

theorem archTells_visible (cfg : ArchiveCfg ι) (findOpt : List ι → Option (List ι)) (save : Bool) (a0 : List ι) (rounds : List (TellRound ι)) :
    ∀ s, archTells cfg findOpt save a0 rounds = some s → Visible cfg findOpt save a0 rounds s := by
  induction rounds using List.reverseRecOn with
  | nil =>
    intro s hs
    simp only [archTells, List.foldlM_nil, Option.pure_def, Option.some.injEq] at hs
    subst hs
    exact ⟨rfl, rfl, by simp, by simp, by simp⟩
  | append_singleton rs r ih =>
    intro s hs
    unfold archTells at hs
    rw [List.foldlM_append] at hs
    obtain ⟨t, ht, hs⟩ := Option.bind_eq_some_iff.1 hs
    have iv := ih t ht
    simp only [List.foldlM_cons, List.foldlM_nil, Option.bind_eq_bind, Option.pure_def, Option.bind_some] at hs
    rw [Option.bind_fun_some] at hs
    have key : s.callbacks = (if r.posts then t.callbacks ++ [t.arch] else t.callbacks) ∧ s.history = (if r.posts ∧ save then t.history ++ [t.arch] else t.history) ∧
        s.returned = (if r.ends then some t.arch else none) ∧ archiveRun cfg findOpt t.arch (toldCalls [r]) = some s.arch := by
      unfold archTell at hs
      unfold toldCalls
      cases hp : r.posts <;> cases hi : r.infills <;> cases save <;> simp [hp, hi] at hs ⊢
      all_goals first
        | (subst hs; simp [archiveRun])
        | (obtain ⟨a, ha, hs⟩ := hs; subst hs; simp [archiveRun, ha])
    obtain ⟨k1, k2, k3, k4⟩ := key
    refine ⟨?_, ?_, ?_, ?_, ?_⟩
    · have : toldCalls (rs ++ [r]) = toldCalls rs ++ toldCalls [r] := by simp [toldCalls]
      rw [this, archiveRun_concat, iv.arch]
      exact k4
    · rw [k1, List.countP_append, ← iv.count]
      cases hp : r.posts <;> simp [hp]
    · intro pre q post he hq
      rcases List.eq_nil_or_concat post with rfl | ⟨post', last, rfl⟩
      · obtain ⟨e1, e2⟩ := List.append_inj' he rfl
        have e2 : r = q := by simpa using e2
        subst e1; subst e2
        refine ⟨t.arch, iv.arch, ?_⟩
        rw [k1, hq, if_pos rfl, ← iv.count]
        simp
      · have he' : rs ++ [r] = (pre ++ q :: post') ++ [last] := by rw [he]; simp
        obtain ⟨e1, -⟩ := List.append_inj' he' rfl
        obtain ⟨a, ha1, ha2⟩ := iv.callbacks pre q post' e1 hq
        refine ⟨a, ha1, ?_⟩
        rw [k1]
        have hlt := (List.getElem?_eq_some_iff.1 ha2).1
        cases r.posts
        · simpa using ha2
        · simp only [if_true]
          rw [List.getElem?_append_left hlt]; exact ha2
    · rw [k1, k2, iv.history]
      cases r.posts <;> cases save <;> simp
    · intro pre q he
      obtain ⟨e1, e2⟩ := List.append_inj' he rfl
      have e2 : r = q := by simpa using e2
      subst e1; subst e2
      rw [k3]
      refine ⟨fun h => ⟨t.arch, iv.arch, by rw [h]; rfl⟩, fun h => by rw [h]; rfl⟩

/-- **C161.** In every sequence of `ask`/`tell` or `next` calls: each solution handed to `tell` is added to the archive exactly once and in order, whether or not the generation counts; the archive that a callback sees and that is stored in the history, and the one in the result returned by the `tell` that terminates the run, have the solutions of the calls before, not those of the call itself. -/
theorem C161_visible (cfg : ArchiveCfg ι) (findOpt : List ι → Option (List ι)) (save : Bool) (a0 : List ι) (rounds : List (TellRound ι)) (s : RunArchive ι)
    (hs : archTells cfg findOpt save a0 rounds = some s) : Visible cfg findOpt save a0 rounds s := archTells_visible cfg findOpt save a0 rounds s hs

/-- The theorem for all ways to find the best solutions. -/
theorem runArchive_spec (maxSize truncateSize : Option ℕ) (hk : maxSize ≠ some 0) (htr : truncateSize ≠ some 0) (near : Option (ι → ι → Bool)) (cfg : ArchiveCfg ι)
    (hc : mkArchive maxSize truncateSize near = some cfg) (at' : Attrs ι α β m) (findOpt : List ι → Option (List ι)) (hf : FindsBest at' findOpt) (save : Bool)
    (rounds : List (TellRound ι)) (ht : ∀ r ∈ rounds, TruncOK r.trunc) (hne : ∀ r ∈ rounds, r.infills ≠ some []) :
    ∃ arch, runResultArchive cfg findOpt save [] rounds = some arch ∧ (∀ x ∈ arch, x ∈ toldSolutions rounds) ∧ (∀ k, maxSize = some k → arch.length ≤ k) ∧ (toldSolutions rounds ≠ [] → arch ≠ []) ∧
      (∀ x ∈ arch, ∀ y ∈ arch, ¬ Beats (at'.F y) (at'.feas y) (at'.cv y) (at'.F x) (at'.feas x) (at'.cv x)) ∧ ((∃ x ∈ toldSolutions rounds, at'.feas x = true) → ∀ x ∈ arch, at'.feas x = true) := by
  obtain ⟨hl, -, hlim, -⟩ := mkArchive_limits maxSize truncateSize near cfg hc hk htr
  have hex : ∃ s, archTells cfg findOpt save [] rounds = some s := by
    induction rounds using List.reverseRecOn with
    | nil => exact ⟨_, rfl⟩
    | append_singleton rs r ih =>
      obtain ⟨t, ht'⟩ := ih (fun q hq => ht q (List.mem_append_left _ hq)) (fun q hq => hne q (List.mem_append_left _ hq))
      unfold archTells at ht' ⊢
      rw [List.foldlM_append, ht']
      simp only [List.foldlM_cons, List.foldlM_nil, Option.bind_eq_bind, Option.pure_def, Option.bind_some]
      rw [Option.bind_fun_some]
      unfold archTell
      cases hi : r.infills with
      | none => exact ⟨_, rfl⟩
      | some p =>
        have hp : p ≠ [] := fun h => hne r (by simp) (by rw [hi, h])
        have hsame : ∀ u : RunArchive ι, ∃ v, (archiveAdd cfg findOpt r.trunc u.arch p).map (fun a => { u with arch := a }) = some v := by
          intro u
          obtain ⟨-, res, h1, -⟩ := (archiveAdd_some cfg at' findOpt hf r.trunc (ht r (by simp)) hl u.arch p).2 (by simp [hp])
          exact ⟨_, by rw [h1]; rfl⟩
        exact hsame _
  obtain ⟨s, hs⟩ := hex
  have iv := archTells_visible cfg findOpt save [] rounds s hs
  have htc : ∀ c ∈ toldCalls rounds, TruncOK c.2 := by
    intro c hcm
    obtain ⟨r, hr, hrc⟩ := List.mem_filterMap.1 hcm
    obtain ⟨p, -, rfl⟩ := Option.map_eq_some_iff.1 hrc
    exact ht r hr
  obtain ⟨b1, b2, b3, b4, b5⟩ := archive_basic cfg hl at' findOpt hf _ htc s.arch iv.arch
  have hadd : added (toldCalls rounds) = toldSolutions rounds := toldCalls_added rounds
  rw [hadd] at b1 b3 b5
  refine ⟨s.arch, by unfold runResultArchive; rw [hs]; rfl, b1, ?_, b3, b4, b5⟩
  intro k hk'
  obtain ⟨t, ht'⟩ := hlim k hk'
  exact b2 k t ht'

/-- What is claimed of the archive of a result, for an archive with the limit `maxSize`. -/
def GoodArchive (at' : Attrs ι α β m) (maxSize : Option ℕ) (told arch : List ι) : Prop :=
  (∀ x ∈ arch, x ∈ told) ∧ (∀ k, maxSize = some k → arch.length ≤ k) ∧ (told ≠ [] → arch ≠ []) ∧
    (∀ x ∈ arch, ∀ y ∈ arch, ¬ Beats (at'.F y) (at'.feas y) (at'.cv y) (at'.F x) (at'.feas x) (at'.cv x)) ∧ ((∃ x ∈ told, at'.feas x = true) → ∀ x ∈ arch, at'.feas x = true)

/-- **C161.** An archive given empty, single- or multi-objective, with any size limits, duplicate test and truncation: if the calls of `tell` with infills have at least one each, none raises, and the archive of the result of `run` holds solutions that were handed in, at most as many as its limit allows; it is not empty if something was handed in, no member beats another one, and if a feasible solution was handed in, all members are feasible. -/
theorem C161_run (maxSize truncateSize : Option ℕ) (hk : maxSize ≠ some 0) (htr : truncateSize ≠ some 0) (near : Option (ι → ι → Bool)) (cfg : ArchiveCfg ι)
    (hc : mkArchive maxSize truncateSize near = some cfg) (save : Bool) (rounds : List (TellRound ι)) (ht : ∀ r ∈ rounds, TruncOK r.trunc) (hne : ∀ r ∈ rounds, r.infills ≠ some []) :
    (∀ at' : Attrs ι α β 1, ∃ arch, runResultArchive cfg (findOptSingle at') save [] rounds = some arch ∧ GoodArchive at' maxSize (toldSolutions rounds) arch) ∧
    ∀ (paretoRank : ∀ n, (Fin n → Fin m → α) → Fin n → ℕ), (∀ n F, IsParetoRank (fun i j => Dominates (F i) (F j)) (paretoRank n F)) → ∀ at' : Attrs ι α β m,
      ∃ arch, runResultArchive cfg (findOptMulti paretoRank at') save [] rounds = some arch ∧ GoodArchive at' maxSize (toldSolutions rounds) arch :=
  ⟨fun at' => runArchive_spec maxSize truncateSize hk htr near cfg hc at' _ (findOptSingle_best at') save rounds ht hne,
    fun pr hpr at' => runArchive_spec maxSize truncateSize hk htr near cfg hc at' _ (findOptMulti_best pr hpr at') save rounds ht hne⟩

/-- **C161, one objective.** The archive of the result of `run` holds best solutions of everything handed in. -/
theorem C161_single_best (maxSize truncateSize : Option ℕ) (hk : maxSize ≠ some 0) (htr : truncateSize ≠ some 0) (near : Option (ι → ι → Bool)) (cfg : ArchiveCfg ι)
    (hc : mkArchive maxSize truncateSize near = some cfg) (at' : Attrs ι α β 1) (save : Bool) (rounds : List (TellRound ι)) (ht : ∀ r ∈ rounds, TruncOK r.trunc) (arch : List ι)
    (hr : runResultArchive cfg (findOptSingle at') save [] rounds = some arch) :
    ∀ x ∈ arch, x ∈ toldSolutions rounds ∧
      ((∃ y ∈ toldSolutions rounds, at'.feas y = true) → at'.feas x = true ∧ ∀ y ∈ toldSolutions rounds, at'.feas y = true → at'.F x 0 ≤ at'.F y 0) ∧
      ((∀ y ∈ toldSolutions rounds, at'.feas y = false) → ∀ y ∈ toldSolutions rounds, at'.cv x ≤ at'.cv y) := by
  obtain ⟨s, hs, rfl⟩ := Option.map_eq_some_iff.1 hr
  have iv := archTells_visible cfg _ save [] rounds s hs
  have htc : ∀ c ∈ toldCalls rounds, TruncOK c.2 := by
    intro c hcm
    obtain ⟨r, hr, hrc⟩ := List.mem_filterMap.1 hcm
    obtain ⟨p, -, rfl⟩ := Option.map_eq_some_iff.1 hrc
    exact ht r hr
  have := (C22_single_objective_best maxSize truncateSize hk htr near cfg hc at' (toldCalls rounds) htc s.arch iv.arch).2
  rw [toldCalls_added] at this
  exact this

/-- Three rounds, the second without infills and not counted, the best solution in the first one. -/
example : let at' : Attrs ℕ ℕ ℕ 1 := ⟨fun x _ => x, fun x => decide (x < 100), fun x => x⟩
    let trunc := fun (l : List ℕ) t => l.take t
    let rounds : List (TellRound ℕ) := [⟨some [130, 4, 7], true, false, trunc⟩, ⟨none, false, false, trunc⟩, ⟨some [9], true, true, trunc⟩]
    ((archTells ⟨some (10, 10), none⟩ (findOptSingle at') true [] rounds).map fun s => (s.arch, s.callbacks, s.history, s.returned)) = some ([4], [[], [4]], [[], [4]], some [4]) ∧
    mkArchive (some 10) none none = some (⟨some (10, 10), none⟩ : ArchiveCfg ℕ) ∧ ∀ r ∈ rounds, r.infills ≠ some [] := by
  refine ⟨by decide +kernel, rfl, ?_⟩
  decide

/-- **C161, refuted for what `tell`, callbacks and history see**: the best solution `1` is handed in by the last call. The archive of the result that this call returns does not have it — although the population of the same result may —, nor does the one the callback sees; the archive seen by the first callback and stored in the first copy of the history is always empty. -/
theorem C161_returned_refuted : let at' : Attrs ℕ ℕ ℕ 1 := ⟨fun x _ => x, fun _ => true, fun _ => 0⟩
    let rounds : List (TellRound ℕ) := [⟨some [4, 7], true, false, fun l t => l.take t⟩, ⟨some [1], true, true, fun l t => l.take t⟩]
    ((archTells ⟨some (10, 10), none⟩ (findOptSingle at') true [] rounds).map fun s => (s.arch, s.callbacks, s.history, s.returned)) = some ([1], [[], [4]], [[], [4]], some [4]) := by
  decide +kernel

end Props
