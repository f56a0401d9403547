import Verif.Model.Loopwise
import Verif.Props.Algorithm
import Mathlib.Tactic.Linarith
import Mathlib.Tactic.Positivity
import Mathlib.Algebra.Order.Archimedean.Basic

/-!
# C141: algorithms written as generators; exponential search; line search problem
-/

set_option linter.unusedVariables false
set_option linter.unusedSectionVars false
set_option linter.unusedSimpArgs false

namespace Props
open Model

section
variable {σ P G S K : Type*} [Field K] [LinearOrder K]

/-- The generator, resumed with `i` in state `st`, yields the populations `ps`, each of which is evaluated (`n` evaluations in all) and sent back, and returns in state `st'`. -/
inductive LoopTrace (body : LoopBody σ P G) (eval : P → σ → σ × ℕ) : Option G → Option P → σ → List P → ℕ → σ → Prop
  | ret {g i st st'} : body g i st = (none, st') → LoopTrace body eval g i st [] 0 st'
  | yld {g i st p g' st1 ps n st'} : body g i st = (some (p, g'), st1) → LoopTrace body eval (some g') (some p) (eval p st1).1 ps n st' →
      LoopTrace body eval g i st (p :: ps) ((eval p st1).2 + n) st'

variable (body : LoopBody σ P G) (initInfill : σ → Option P × σ) (eval : P → σ → σ × ℕ) (initAdvance : Option P → σ → σ) (setOptimum : σ → σ)
  (raw : S → K → AlgView (LoopState σ P G) → Option (K × S)) (sh : Bool)

/-- Once an iteration has begun (the population `p` waits to be evaluated): it goes on for one call of `next` for each population, and only the last one ends the generation. -/
theorem loop_rest (t : Crit S K) (i : Option P) : ∀ (ps : List P) (p : P) (g : G) (st1 st' : σ) (n : ℕ), LoopTrace body eval (some g) (some p) (eval p st1).1 ps n st' →
    ∀ s : AlgState (LoopState σ P G) P S K, s.initialized = true → s.st = ⟨st1, some g, some p⟩ → algHasNext s = true →
    (∀ j, j ≤ ps.length → ∃ s1, algNextN raw (loopHooks body initInfill eval initAdvance setOptimum) sh false j s = some s1 ∧ s1.nIter = s.nIter ∧ s1.term = s.term ∧
      s1.callbacks = s.callbacks ∧ s1.finalized = s.finalized ∧ s1.history = s.history) ∧
    (Crit.update raw ⟨s.nIter, s.nEval + ((eval p st1).2 + n), ⟨setOptimum st', none, none⟩⟩ s.term = some t →
      ∃ s1, algNextN raw (loopHooks body initInfill eval initAdvance setOptimum) sh false (ps.length + 1) s = some s1 ∧ s1.st = ⟨setOptimum st', none, none⟩ ∧ s1.nIter = s.nIter + 1 ∧
        s1.nEval = s.nEval + ((eval p st1).2 + n) ∧ s1.term = t ∧ s1.callbacks = s.callbacks ++ [s.nIter] ∧ s1.initialized = true ∧
        s1.finalized = s.finalized + (if t.hasTerminated then 1 else 0) ∧ s1.history = (if sh then s.history ++ [s.nIter] else s.history)) := by
  intro ps
  induction ps with
  | nil =>
    intro p g st1 st' n htr s hs hst hnext
    cases htr with
    | ret hb =>
      refine ⟨fun j hj => ?_, fun ht => ?_⟩
      · have : j = 0 := by simpa using hj
        subst this
        exact ⟨s, rfl, rfl, rfl, rfl, rfl, rfl⟩
      · have hnx : algNext raw (loopHooks body initInfill eval initAdvance setOptimum) sh false s =
            some (algFinish false (some p) { s with
              st := ⟨setOptimum st', none, none⟩, nEval := s.nEval + (eval p st1).2, term := t,
              history := if sh then s.history ++ [s.nIter] else s.history, callbacks := s.callbacks ++ [s.nIter], nIter := s.nIter + 1 }) := by
          unfold algNext algInfill
          rw [if_neg (by simp [hs])]
          simp only [loopHooks, loopInfill, hst]
          unfold algAdvance
          rw [if_neg (by simp [hs])]
          simp only [loopAdvance, hb]
          rw [if_neg (by simp)]
          unfold algPostAdvance
          simp only [Nat.add_zero] at ht
          simp only [ht, Option.map_some]
        refine ⟨_, by unfold algNextN; simp only [hnx]; rfl, ?_⟩
        unfold algFinish
        by_cases hterm : t.hasTerminated = true <;> simp [hterm, hs]
  | cons q qs ih =>
    intro p g st1 st' n htr s hs hst hnext
    cases htr with
    | @yld _ _ _ _ g' st2 _ n' _ hb hrest =>
      have hnx : algNext raw (loopHooks body initInfill eval initAdvance setOptimum) sh false s =
          some { s with st := ⟨st2, some g', some q⟩, nEval := s.nEval + (eval p st1).2 } := by
        unfold algNext algInfill
        rw [if_neg (by simp [hs])]
        simp only [loopHooks, loopInfill, hst]
        unfold algAdvance
        rw [if_neg (by simp [hs])]
        simp only [loopAdvance, hb, if_true]
        unfold algFinish
        have : s.term.hasTerminated = false := by simpa [algHasNext] using hnext
        simp [this]
      obtain ⟨g1, g2⟩ := ih q g' st2 st' n' hrest { s with st := ⟨st2, some g', some q⟩, nEval := s.nEval + (eval p st1).2 } hs rfl hnext
      refine ⟨fun j hj => ?_, fun ht => ?_⟩
      · cases j with
        | zero => exact ⟨s, rfl, rfl, rfl, rfl, rfl, rfl⟩
        | succ j =>
          obtain ⟨s1, e1, e2⟩ := g1 j (by simpa using hj)
          refine ⟨s1, ?_, e2⟩
          unfold algNextN
          simp only [hnx]
          exact e1
      · obtain ⟨s1, e1, e2, e3, e4, e5, e6, e7⟩ := g2 (by simpa only [Nat.add_assoc] using ht)
        refine ⟨s1, ?_, e2, e3, by rw [e4]; simp only [Nat.add_assoc], e5, e6, e7⟩
        rw [show (q :: qs).length + 1 = (qs.length + 1) + 1 from rfl]
        unfold algNextN
        simp only [hnx]
        exact e1

/-- **C141** An iteration of an algorithm written as a generator that yields the populations `p :: ps`: it takes one call of `next` per population; before the last one neither the generation
counter nor the termination changes and no callback is called; the last one ends the generation (counter, optimum, termination, callback, history: once). -/
theorem C141_iteration (st st' : σ) (p : P) (ps : List P) (n : ℕ) (htr : LoopTrace body eval none none st (p :: ps) n st') (s : AlgState (LoopState σ P G) P S K)
    (hs : s.initialized = true) (hst : s.st = ⟨st, none, none⟩) (hnext : algHasNext s = true) (t : Crit S K) :
    (∀ j, j ≤ ps.length → ∃ s1, algNextN raw (loopHooks body initInfill eval initAdvance setOptimum) sh false j s = some s1 ∧ s1.nIter = s.nIter ∧ s1.term = s.term ∧
      s1.callbacks = s.callbacks ∧ s1.finalized = s.finalized ∧ s1.history = s.history) ∧
    (Crit.update raw ⟨s.nIter, s.nEval + n, ⟨setOptimum st', none, none⟩⟩ s.term = some t →
      ∃ s1, algNextN raw (loopHooks body initInfill eval initAdvance setOptimum) sh false (ps.length + 1) s = some s1 ∧ s1.st = ⟨setOptimum st', none, none⟩ ∧ s1.nIter = s.nIter + 1 ∧
        s1.nEval = s.nEval + n ∧ s1.term = t ∧ s1.callbacks = s.callbacks ++ [s.nIter] ∧ s1.initialized = true ∧
        s1.finalized = s.finalized + (if t.hasTerminated then 1 else 0) ∧ s1.history = (if sh then s.history ++ [s.nIter] else s.history)) := by
  cases htr with
  | @yld _ _ _ _ g' st1 _ n' _ hb hrest =>
    -- the first call starts the generator and then behaves as if it had been waiting
    have hsame : algNext raw (loopHooks body initInfill eval initAdvance setOptimum) sh false s =
        algNext raw (loopHooks body initInfill eval initAdvance setOptimum) sh false { s with st := ⟨st1, some g', some p⟩ } := by
      unfold algNext algInfill
      rw [if_neg (by simp [hs]), if_neg (by simp [hs])]
      simp only [loopHooks, loopInfill, hst, loopAdvance, hb]
    have hN : ∀ j, algNextN raw (loopHooks body initInfill eval initAdvance setOptimum) sh false (j + 1) s =
        algNextN raw (loopHooks body initInfill eval initAdvance setOptimum) sh false (j + 1) { s with st := ⟨st1, some g', some p⟩ } := by
      intro j
      simp only [algNextN, hsame]
    obtain ⟨g1, g2⟩ := loop_rest body initInfill eval initAdvance setOptimum raw sh t none ps p g' st1 st' n' hrest { s with st := ⟨st1, some g', some p⟩ } hs rfl hnext
    refine ⟨fun j hj => ?_, fun ht => ?_⟩
    · cases j with
      | zero => exact ⟨s, rfl, rfl, rfl, rfl, rfl, rfl⟩
      | succ j => rw [hN]; exact g1 (j + 1) hj
    · rw [hN]; exact g2 ht

/-- **C141** (refuted) If the generator returns without yielding anything, one iteration runs it twice. -/
theorem C141_empty_refuted (st st1 st2 : σ) (h1 : body none none st = (none, st1)) (h2 : body none none st1 = (none, st2)) (s : AlgState (LoopState σ P G) P S K)
    (hs : s.initialized = true) (hst : s.st = ⟨st, none, none⟩) (t : Crit S K) (ht : Crit.update raw ⟨s.nIter, s.nEval, ⟨setOptimum st2, none, none⟩⟩ s.term = some t) :
    ∃ s1, algNext raw (loopHooks body initInfill eval initAdvance setOptimum) sh false s = some s1 ∧ s1.st = ⟨setOptimum st2, none, none⟩ ∧ s1.nIter = s.nIter + 1 := by
  unfold algNext algInfill
  rw [if_neg (by simp [hs])]
  simp only [loopHooks, loopInfill, hst, loopAdvance, h1]
  unfold algAdvance
  rw [if_neg (by simp [hs])]
  simp only [loopAdvance, h2]
  rw [if_neg (by simp)]
  unfold algPostAdvance
  simp only [ht, Option.map_some]
  refine ⟨_, rfl, ?_⟩
  unfold algFinish
  by_cases hterm : t.hasTerminated = true <;> simp [hterm]

end

/-- A generator that yields 10, then 20 plus what it was sent, and adds up what comes back. -/
def loopToy : LoopBody ℕ ℕ Bool
  | none, _, st => (some (10, false), st)
  | some false, i, st => (some (20 + i.getD 0, true), st + i.getD 0)
  | some true, i, st => (none, st + i.getD 0)

example : LoopTrace loopToy (fun _ st => (st, 1)) none none 5 [10, 30] 2 45 := .yld rfl (.yld rfl (.ret rfl))

/-! ### Exponential search -/

section
variable {S K : Type*} [Field K] [LinearOrder K] [IsStrictOrderedRing K]

/-- **C141** (refuted) `ExponentialSearch` does not search: whatever the problem, the termination and the number of iterations, the only solution it evaluates is its start, by default the
lower bound. -/
theorem C141_exponential_refuted (raw : S → K → AlgView (ExpState K) → Option (K × S)) (sh ar : Bool) (xl delta : K) (x0 : Option K) (t : Crit S K) (k : ℕ)
    (s : AlgState (ExpState K) K S K) (h : algNextN raw (expHooks xl) sh ar (k + 1) (algFresh ⟨[], x0, delta⟩ t) = some s) :
    s.st = ⟨[x0.getD xl], x0, delta⟩ ∧ s.nEval = 1 := by
  have hfin : ∀ (i : Option K) (s : AlgState (ExpState K) K S K), (algFinish ar i s).st = s.st ∧ (algFinish ar i s).nEval = s.nEval ∧ (algFinish ar i s).initialized = s.initialized := by
    intro i s
    unfold algFinish
    by_cases hterm : s.term.hasTerminated = true <;> cases ar <;> cases i <;> simp [hterm]
  have hstep : ∀ s s1 : AlgState (ExpState K) K S K, s.initialized = true → algNext raw (expHooks xl) sh ar s = some s1 → s1.st = s.st ∧ s1.nEval = s.nEval ∧ s1.initialized = true := by
    intro s s1 hs h
    unfold algNext algInfill at h
    rw [if_neg (by simp [hs])] at h
    simp only [expHooks] at h
    unfold algAdvance at h
    rw [if_neg (by simp [hs])] at h
    simp only [reduceCtorEq, if_false] at h
    obtain ⟨s2, h2, rfl⟩ := Option.map_eq_some_iff.1 h
    unfold algPostAdvance at h2
    simp only [] at h2
    split at h2
    · cases h2
    · obtain rfl := Option.some.inj h2
      obtain ⟨a, b, c⟩ := hfin none _
      rw [a, b, c]
      exact ⟨rfl, rfl, hs⟩
  have hN : ∀ (k : ℕ) (s s1 : AlgState (ExpState K) K S K), s.initialized = true → algNextN raw (expHooks xl) sh ar k s = some s1 → s1.st = s.st ∧ s1.nEval = s.nEval := by
    intro k
    induction k with
    | zero => intro s s1 _ h; obtain rfl := Option.some.inj h; exact ⟨rfl, rfl⟩
    | succ k ih =>
      intro s s1 hs h
      unfold algNextN at h
      cases hn : algNext raw (expHooks xl) sh ar s with
      | none => simp only [hn] at h; cases h
      | some s2 =>
        simp only [hn] at h
        obtain ⟨a, b, c⟩ := hstep s s2 hs hn
        obtain ⟨d, e⟩ := ih s2 s1 c h
        exact ⟨d.trans a, e.trans b⟩
  unfold algNextN at h
  cases hn : algNext raw (expHooks xl) sh ar (algFresh ⟨[], x0, delta⟩ t) with
  | none => simp only [hn] at h; cases h
  | some s2 =>
    simp only [hn] at h
    have h2 : s2.st = ⟨[x0.getD xl], x0, delta⟩ ∧ s2.nEval = 1 ∧ s2.initialized = true := by
      unfold algNext algInfill algFresh at hn
      rw [if_pos rfl] at hn
      simp only [expHooks, expInitInfill] at hn
      unfold algAdvance at hn
      rw [if_pos rfl] at hn
      obtain ⟨s3, h3, rfl⟩ := Option.map_eq_some_iff.1 hn
      unfold algPostAdvance at h3
      simp only [] at h3
      split at h3
      · cases h3
      · obtain rfl := Option.some.inj h3
        obtain ⟨a, b, c⟩ := hfin (some (x0.getD xl)) _
        rw [a, b, c]
        exact ⟨rfl, rfl, rfl⟩
    obtain ⟨d, e⟩ := hN k s2 s h2.2.2 h
    exact ⟨d.trans h2.1, e.trans h2.2.1⟩

/-- **C141** (`step`) What `step` would do, called until it forces the termination: it evaluates `δ, 2δ, 4δ, …`, capped by the upper bound, while the objective does not increase; it ends. -/
theorem C141_steps [Archimedean K] (f : K → K) (xu delta p : K) (hd : 0 < delta) (ev : List K) :
    ∃ fuel k s', expSteps f xu fuel ⟨ev, some p, delta⟩ = some s' ∧ s'.evaluated = ev ++ (List.range k).map (fun i => delta * 2 ^ i) ++ [min (delta * 2 ^ k) xu] ∧
      s'.point = some (if k = 0 then p else delta * 2 ^ (k - 1)) ∧
      (∀ i < k, delta * 2 ^ i < xu ∧ f (delta * 2 ^ i) ≤ f (if i = 0 then p else delta * 2 ^ (i - 1))) ∧
      (f (if k = 0 then p else delta * 2 ^ (k - 1)) < f (min (delta * 2 ^ k) xu) ∨ xu ≤ delta * 2 ^ k) := by
  have key : ∀ (m : ℕ) (delta p : K) (ev : List K), 0 < delta → xu < delta * (m + 1) → ∃ fuel k s', expSteps f xu fuel ⟨ev, some p, delta⟩ = some s' ∧
      s'.evaluated = ev ++ (List.range k).map (fun i => delta * 2 ^ i) ++ [min (delta * 2 ^ k) xu] ∧
      s'.point = some (if k = 0 then p else delta * 2 ^ (k - 1)) ∧
      (∀ i < k, delta * 2 ^ i < xu ∧ f (delta * 2 ^ i) ≤ f (if i = 0 then p else delta * 2 ^ (i - 1))) ∧
      (f (if k = 0 then p else delta * 2 ^ (k - 1)) < f (min (delta * 2 ^ k) xu) ∨ xu ≤ delta * 2 ^ k) := by
    intro m
    induction m with
    | zero =>
      intro delta p ev hd hm
      have hlt : delta > xu := by simpa using hm
      refine ⟨1, 0, ⟨ev ++ [xu], some p, delta⟩, ?_, by simp [min_eq_right hlt.le], by simp, by simp, Or.inr (by simpa using hlt.le)⟩
      unfold expSteps expStep
      simp [hlt]
    | succ m ih =>
      intro delta p ev hd hm
      have ha : (if delta > xu then xu else delta) = min delta xu := by
        split
        · rename_i h; rw [min_eq_right h.le]
        · rename_i h; rw [min_eq_left (not_lt.1 h)]
      by_cases hc : f p < f (min delta xu) ∨ min delta xu = xu
      · refine ⟨1, 0, ⟨ev ++ [min delta xu], some p, delta⟩, ?_, by simp, by simp, by simp, ?_⟩
        · unfold expSteps expStep
          simp only [ha, if_pos hc]
        · rcases hc with h | h
          · left; simpa using h
          · right; simpa using min_eq_right_iff.1 h
      · push Not at hc
        have hlt : delta < xu := by
          rcases min_choice delta xu with h | h
          · by_contra hx
            exact hc.2 (min_eq_right (not_lt.1 hx))
          · exact absurd h hc.2
        rw [min_eq_left hlt.le] at hc ha
        have hm' : xu < delta * 2 * (m + 1) := by
          refine lt_of_lt_of_le hm ?_
          push_cast
          have : (0 : K) ≤ m := Nat.cast_nonneg _
          nlinarith
        obtain ⟨fuel, k, s', g1, g2, g3, g4, g5⟩ := ih (delta * 2) delta (ev ++ [delta]) (by positivity) hm'
        have hpow : ∀ i : ℕ, delta * 2 * 2 ^ i = delta * 2 ^ (i + 1) := by intro i; ring
        have hprev : ∀ i : ℕ, (if i = 0 then delta else delta * 2 * 2 ^ (i - 1)) = delta * 2 ^ i := by
          intro i
          cases i with
          | zero => simp
          | succ j => simp [hpow]
        refine ⟨fuel + 1, k + 1, s', ?_, ?_, ?_, ?_, ?_⟩
        · unfold expSteps expStep
          simp only [ha, if_neg (show ¬ (f p < f delta ∨ delta = xu) from by push Not; exact hc)]
          exact g1
        · rw [g2, List.range_succ_eq_map]
          simp [hpow, Function.comp_def]
        · rw [g3, hprev]; simp
        · intro i hi
          cases i with
          | zero => simp; exact ⟨hlt, hc.1⟩
          | succ j =>
            have := g4 j (by omega)
            rw [hprev, hpow] at this
            simpa using this
        · rw [hprev, hpow] at g5
          simpa using g5
  obtain ⟨m, hm⟩ := Archimedean.arch xu hd
  refine key m delta p ev hd ?_
  rw [nsmul_eq_mul] at hm
  nlinarith

example : ∃ s', expSteps (fun x : ℚ => (x - 3) ^ 2) 10 5 ⟨[], some 0, 1⟩ = some s' ∧ s'.evaluated = [1, 2, 4, 8] ∧ s'.point = some 4 := by
  refine ⟨⟨[1, 2, 4, 8], some 4, 8⟩, by norm_num [expSteps, expStep], rfl, rfl⟩

/-! ### Line search problem -/

/-- **C141** The line search problem evaluates `point + α · direction` wherever that is not negative (and does not exceed an upper bound given for α). -/
theorem C141_line_partial {n : ℕ} (point direction : Fin n → K) (strict : Bool) (xl : K) (xu : Option K) (alpha : K)
    (h : ∀ i, xl ≤ point i + alpha * direction i ∧ ∀ u, xu = some u → point i + alpha * direction i ≤ u) :
    lineX point direction strict xl xu alpha = fun i => point i + alpha * direction i := by
  unfold lineX
  cases strict with
  | false => rfl
  | true =>
    funext i
    have h1 := not_lt.2 (h i).1
    cases xu with
    | none => simp [setToBounds, setWhere, below, above, h1]
    | some u =>
      have h2 := not_lt.2 ((h i).2 u rfl)
      simp [setToBounds, setWhere, below, above, h1, h2]

/-- **C141** (refuted) The strict bounds are those of the step length, not those of the problem: at α = 0 a point with a negative coordinate is evaluated elsewhere, and a point can leave the bounds
of the problem (here [-5, 5]). -/
theorem C141_line_refuted : lineX (n := 1) (fun _ => (-1 : ℚ)) (fun _ => 1) true 0 none 0 ≠ (fun _ => -1) ∧ ¬ lineX (n := 1) (fun _ => (4 : ℚ)) (fun _ => 1) true 0 none 3 0 ≤ 5 := by
  constructor
  · intro h
    have := congrFun h 0
    revert this
    decide +kernel
  · decide +kernel

end

end Props
