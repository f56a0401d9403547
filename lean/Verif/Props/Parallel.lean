import Verif.Model.Parallel
import Mathlib.Data.List.Perm.Subperm
import Mathlib.Tactic.Common
import Mathlib.Tactic.Ring

/-!
# C109: parallel evaluation gives the same values as sequential evaluation, for every schedule
-/

set_option linter.unusedSimpArgs false
set_option linter.unusedVariables false

namespace Props

open Model

section Schedules

variable {X B Er : Type*} (f : X → Except Er B)

/-- What holds in every reachable state. -/
structure PoolInv (xs : List X) (s : PoolState X B Er) : Prop where
  jobs : s.jobs.map Prod.fst = xs
  values : ∀ (k : ℕ) (x : X) (r : Except Er B), s.jobs[k]? = some (x, some r) → r = f x
  done : ∀ k < s.out.length, ∃ x r, s.jobs[k]? = some (x, some r)
  out : ∀ (i : ℕ) (b : B), s.out[i]? = some b → ∃ x, xs[i]? = some x ∧ f x = .ok b
  failed : ∀ e, s.failed = some e → ∃ x, xs[s.out.length]? = some x ∧ f x = .error e

theorem pInv_submit (xs : List X) : PoolInv f xs (pSubmit xs : PoolState X B Er) := by
  refine ⟨by simp [pSubmit, Function.comp_def], ?_, by simp [pSubmit], by simp [pSubmit], by simp [pSubmit]⟩
  intro k x r h
  simp [pSubmit] at h

theorem PoolInv.get {xs : List X} {s : PoolState X B Er} (h : PoolInv f xs s) {k : ℕ} {x : X} {r} (hk : s.jobs[k]? = some (x, r)) : xs[k]? = some x := by
  rw [← h.jobs, List.getElem?_map, hk]; rfl

theorem set_fst {xs : List X} (l : List (X × Option (Except Er B))) (hl : l.map Prod.fst = xs) (k : ℕ) (x : X) (r r')
    (hk : l[k]? = some (x, r)) : (l.set k (x, r')).map Prod.fst = xs := by
  rw [← hl]
  apply List.ext_getElem?
  intro i
  simp only [List.getElem?_map, List.getElem?_set]
  split_ifs with h1 h2
  · subst h1; rw [hk]; rfl
  · rw [List.getElem?_eq_none (by omega)]
  · rfl

theorem pInv_step {xs : List X} {s s' : PoolState X B Er} (h : PoolInv f xs s) (e : PoolEvent) (hs : pStep f s e = some s') : PoolInv f xs s' := by
  cases e with
  | finish k =>
    simp only [pStep] at hs
    split at hs
    case h_2 => cases hs
    case h_1 x hk =>
      obtain rfl := Option.some.inj hs
      refine ⟨set_fst _ h.jobs _ _ _ _ hk, ?_, ?_, h.out, h.failed⟩
      · intro j y r hj
        simp only [List.getElem?_set] at hj
        split_ifs at hj with h1 h2
        · simp only [Option.some.injEq, Prod.mk.injEq] at hj
          rw [← hj.1, ← hj.2]
        · exact h.values _ _ _ hj
      · intro j hj
        obtain ⟨y, r, hy⟩ := h.done j hj
        simp only [List.getElem?_set]
        split_ifs with h1 h2
        · exact ⟨x, f x, rfl⟩
        · exfalso
          subst h1
          rw [List.getElem?_eq_none (by omega)] at hk; cases hk
        · exact ⟨y, r, hy⟩
  | lost k =>
    simp only [pStep] at hs
    split at hs
    case h_2 => cases hs
    case h_1 x r hk =>
      split_ifs at hs with hle
      obtain rfl := Option.some.inj hs
      refine ⟨set_fst _ h.jobs _ _ _ _ hk, ?_, ?_, h.out, h.failed⟩
      · intro j y r hj
        simp only [List.getElem?_set] at hj
        split_ifs at hj with h1 h2
        · simp at hj
        · exact h.values _ _ _ hj
      · intro j hj
        simp only at hj
        obtain ⟨y, r, hy⟩ := h.done j hj
        simp only [List.getElem?_set]
        rw [if_neg (by omega)]
        exact ⟨y, r, hy⟩
  | collect =>
    simp only [pStep] at hs
    split_ifs at hs with hf
    split at hs
    case h_1 x b hk =>
      obtain rfl := Option.some.inj hs
      have hv := h.values _ _ _ hk
      refine ⟨h.jobs, h.values, ?_, ?_, ?_⟩
      · intro j hj
        simp only [List.length_append, List.length_singleton] at hj
        rcases Nat.lt_succ_iff_lt_or_eq.1 hj with h1 | h1
        · exact h.done j h1
        · subst h1; exact ⟨_, _, hk⟩
      · intro i c hc
        rw [List.getElem?_append] at hc
        split_ifs at hc with h1
        · exact h.out i c hc
        · have hi : i = s.out.length := by
            by_contra hne
            rw [List.getElem?_eq_none (by simp; omega)] at hc
            cases hc
          subst hi
          simp at hc
          subst hc
          exact ⟨x, h.get f hk, hv.symm⟩
      · intro e he
        simp only at he
        rw [he] at hf
        simp at hf
    case h_2 x e hk =>
      obtain rfl := Option.some.inj hs
      have hv := h.values _ _ _ hk
      refine ⟨h.jobs, h.values, h.done, h.out, ?_⟩
      intro e' he'
      simp only [Option.some.injEq] at he'
      subst he'
      exact ⟨x, h.get f hk, hv.symm⟩
    case h_3 => cases hs

theorem pInv_run {xs : List X} (es : List PoolEvent) {s s' : PoolState X B Er} (h : PoolInv f xs s) (hs : pRun f s es = some s') : PoolInv f xs s' := by
  induction es generalizing s with
  | nil => simp only [pRun, Option.some.injEq] at hs; exact hs ▸ h
  | cons e es ih =>
    obtain ⟨s1, h1, h2⟩ := Option.bind_eq_some_iff.1 hs
    exact ih (pInv_step f h e h1) h2

theorem mapM_ok_of (xs : List X) (out : List B) (hl : out.length = xs.length)
    (h : ∀ (i : ℕ) (b : B), out[i]? = some b → ∃ x, xs[i]? = some x ∧ f x = .ok b) : xs.mapM f = .ok out := by
  induction xs generalizing out with
  | nil => rw [List.length_eq_zero_iff.1 hl]; rfl
  | cons x xs ih =>
    cases out with
    | nil => simp at hl
    | cons b out =>
      obtain ⟨y, hy, hb⟩ := h 0 b rfl
      simp only [List.getElem?_cons_zero, Option.some.injEq] at hy
      subst hy
      have := ih out (by simpa using hl) (fun i c hc => by simpa using h (i + 1) c (by simpa using hc))
      rw [List.mapM_cons, hb, this]
      rfl

theorem mapM_error_of (xs : List X) (out : List B) (e : Er)
    (h : ∀ (i : ℕ) (b : B), out[i]? = some b → ∃ x, xs[i]? = some x ∧ f x = .ok b) (he : ∃ x, xs[out.length]? = some x ∧ f x = .error e) :
    xs.mapM f = .error e := by
  induction xs generalizing out with
  | nil => obtain ⟨x, hx, -⟩ := he; simp at hx
  | cons x xs ih =>
    cases out with
    | nil =>
      obtain ⟨y, hy, hb⟩ := he
      simp only [List.length_nil, List.getElem?_cons_zero, Option.some.injEq] at hy
      subst hy
      rw [List.mapM_cons, hb]; rfl
    | cons b out =>
      obtain ⟨y, hy, hb⟩ := h 0 b rfl
      simp only [List.getElem?_cons_zero, Option.some.injEq] at hy
      subst hy
      have := ih out (fun i c hc => by simpa using h (i + 1) c (by simpa using hc)) (by simpa using he)
      rw [List.mapM_cons, hb, this]
      rfl

/-- **C109 (same values).** Whatever the scheduler does - in whatever order the workers finish, however often workers are lost -, a
parallel runner returns exactly the list that the sequential loop returns, and raises exactly the exception the loop raises. -/
theorem C109_same_values (xs : List X) (es : List PoolEvent) (s : PoolState X B Er) (hrun : pRun f (pSubmit xs) es = some s) :
    (pReturned s = true → loopedEval f xs = .ok s.out) ∧ (∀ e, s.failed = some e → loopedEval f xs = .error e) := by
  have hI := pInv_run f es (pInv_submit f xs) hrun
  refine ⟨fun hr => ?_, fun e he => mapM_error_of f xs s.out e hI.out (hI.failed e he)⟩
  unfold pReturned at hr
  simp only [Bool.and_eq_true, beq_iff_eq] at hr
  refine mapM_ok_of f xs s.out ?_ hI.out
  rw [hr.2, ← hI.jobs, List.length_map]

/-- **C109 (partial results).** At every moment the results received so far are those of the first points, in their order. -/
theorem C109_attribution (xs : List X) (es : List PoolEvent) (s : PoolState X B Er) (hrun : pRun f (pSubmit xs) es = some s) (i : ℕ) (b : B)
    (hb : s.out[i]? = some b) : ∃ x, xs[i]? = some x ∧ f x = .ok b := (pInv_run f es (pInv_submit f xs) hrun).out i b hb

theorem pRun_append (es es' : List PoolEvent) (s s1 s2 : PoolState X B Er) (h1 : pRun f s es = some s1) (h2 : pRun f s1 es' = some s2) :
    pRun f s (es ++ es') = some s2 := by
  induction es generalizing s with
  | nil => simp only [pRun, Option.some.injEq] at h1; subst h1; exact h2
  | cons e es ih =>
    obtain ⟨s', h3, h4⟩ := Option.bind_eq_some_iff.1 h1
    simp only [List.cons_append, pRun, h3, Option.bind_some]
    exact ih s' h4

/-- **C109 (no deadlock).** In every reachable situation the evaluation can be completed: the remaining jobs need only be finished. -/
theorem C109_progress (xs : List X) (es : List PoolEvent) (s : PoolState X B Er) (hrun : pRun f (pSubmit xs) es = some s) :
    ∃ es' s', pRun f s es' = some s' ∧ (pReturned s' = true ∨ s'.failed.isSome) := by
  have hI := pInv_run f es (pInv_submit f xs) hrun
  clear hrun es
  generalize hn : s.jobs.length - s.out.length = n
  induction n generalizing s with
  | zero =>
    cases hf : s.failed with
    | some e => exact ⟨[], s, rfl, .inr (by rw [hf]; rfl)⟩
    | none =>
      refine ⟨[], s, rfl, .inl ?_⟩
      have hle : s.out.length ≤ s.jobs.length := by
        by_contra hlt
        obtain ⟨x, r, h⟩ := hI.done s.jobs.length (by omega)
        rw [List.getElem?_eq_none le_rfl] at h; cases h
      simp only [pReturned, hf, Option.isNone_none, Bool.true_and, beq_iff_eq]
      omega
  | succ n ih =>
    cases hf : s.failed with
    | some e => exact ⟨[], s, rfl, .inr (by rw [hf]; rfl)⟩
    | none =>
      have collect : ∀ (t : PoolState X B Er), PoolInv f xs t → t.out = s.out → t.jobs.length = s.jobs.length → t.failed = none →
          (∃ x r, t.jobs[t.out.length]? = some (x, some r)) →
          ∃ es' s', pRun f t es' = some s' ∧ (pReturned s' = true ∨ s'.failed.isSome) := by
        intro t hT ho hj hft ⟨x, r, hk⟩
        cases hr : r with
        | error e =>
          subst hr
          refine ⟨[.collect], { t with failed := some e }, ?_, .inr rfl⟩
          simp [pRun, pStep, hft, hk]
        | ok b =>
          subst hr
          have hstep : pStep f t .collect = some { t with out := t.out ++ [b] } := by simp [pStep, hft, hk]
          obtain ⟨es', s', h1, h2⟩ := ih { t with out := t.out ++ [b] } (pInv_step f hT .collect hstep) (by
            simp only [List.length_append, List.length_singleton, hj, ho]; omega)
          exact ⟨.collect :: es', s', by simp only [pRun, hstep, Option.bind_some]; exact h1, h2⟩
      have hlt : s.out.length < s.jobs.length := by omega
      rcases hjob : s.jobs[s.out.length]? with - | ⟨x, r⟩
      · rw [List.getElem?_eq_none_iff] at hjob; omega
      · cases hr : r with
        | some r' =>
          subst hr
          exact collect s hI rfl rfl hf ⟨x, r', hjob⟩
        | none =>
          subst hr
          have hstep : pStep f s (.finish s.out.length) =
              some { s with jobs := s.jobs.set s.out.length (x, some (f x)), log := s.log ++ [x] } := by
            simp only [pStep, hjob]
          obtain ⟨es', s', h1, h2⟩ := collect _ (pInv_step f hI _ hstep) rfl (by simp) hf ⟨x, f x, by
            simp [List.getElem?_set, hlt]⟩
          exact ⟨.finish s.out.length :: es', s', by simp only [pRun, hstep, Option.bind_some]; exact h1, h2⟩

theorem log_inv (es : List PoolEvent) (hes : ∀ k, PoolEvent.lost k ∉ es) (s s' : PoolState X B Er) (hs : pRun f s es = some s')
    (h : s.log.Perm ((s.jobs.filter (·.2.isSome)).map Prod.fst)) : s'.log.Perm ((s'.jobs.filter (·.2.isSome)).map Prod.fst) := by
  induction es generalizing s with
  | nil => simp only [pRun, Option.some.injEq] at hs; exact hs ▸ h
  | cons e es ih =>
    obtain ⟨s1, h1, h2⟩ := Option.bind_eq_some_iff.1 hs
    refine ih (fun k hk => hes k (List.mem_cons_of_mem _ hk)) s1 h2 ?_
    cases e with
    | lost k => exact absurd (List.mem_cons_self ..) (hes k)
    | collect =>
      simp only [pStep] at h1
      split_ifs at h1 with hf
      split at h1
      · obtain rfl := Option.some.inj h1; exact h
      · obtain rfl := Option.some.inj h1; exact h
      · cases h1
    | finish k =>
      simp only [pStep] at h1
      split at h1
      case h_2 => cases h1
      case h_1 x hk =>
        obtain rfl := Option.some.inj h1
        have hlt : k < s.jobs.length := by
          by_contra hcon
          rw [List.getElem?_eq_none (by omega)] at hk; cases hk
        have hget : s.jobs[k] = (x, none) := by
          rw [List.getElem?_eq_getElem hlt] at hk; exact Option.some.inj hk
        have hsplit : s.jobs = s.jobs.take k ++ (x, none) :: s.jobs.drop (k + 1) := by
          conv_lhs => rw [← List.take_append_drop k s.jobs, List.drop_eq_getElem_cons hlt, hget]
        have hset : s.jobs.set k (x, some (f x)) = s.jobs.take k ++ (x, some (f x)) :: s.jobs.drop (k + 1) := by
          rw [List.set_eq_take_append_cons_drop, if_pos hlt]
        simp only
        rw [hset]
        rw [hsplit] at h
        simp only [List.filter_append, List.filter_cons, List.map_append, Option.isSome_none, Bool.false_eq_true, if_false, Option.isSome_some,
          if_true, List.map_cons] at h ⊢
        refine (h.append_right [x]).trans ?_
        exact (List.perm_append_singleton _ _).trans List.perm_middle.symm

/-- **C109 (once).** If no worker is lost, no point is evaluated twice, and when the runner returns every point has been evaluated exactly
once. -/
theorem C109_once (xs : List X) (es : List PoolEvent) (hes : ∀ k, PoolEvent.lost k ∉ es) (s : PoolState X B Er)
    (hrun : pRun f (pSubmit xs) es = some s) : s.log.Subperm xs ∧ (pReturned s = true → s.log.Perm xs) := by
  have hI := pInv_run f es (pInv_submit f xs) hrun
  have hlog := log_inv f es hes _ _ hrun (by simp [pSubmit, List.filter_map, Function.comp_def])
  constructor
  · rw [← hI.jobs]
    exact hlog.subperm.trans (((List.filter_sublist (l := s.jobs)).map Prod.fst).subperm)
  · intro hr
    unfold pReturned at hr
    simp only [Bool.and_eq_true, beq_iff_eq] at hr
    have hall : s.jobs.filter (·.2.isSome) = s.jobs := by
      rw [List.filter_eq_self]
      intro a ha
      obtain ⟨k, hk, rfl⟩ := List.mem_iff_getElem.1 ha
      obtain ⟨x, r, h⟩ := hI.done k (by omega)
      rw [List.getElem?_eq_getElem hk] at h
      rw [Option.some.inj h]; rfl
    rw [hall, hI.jobs] at hlog
    exact hlog

theorem flatten_chunks (xs : List X) (c n : ℕ) : ((List.range n).map fun i => (xs.drop (i * c)).take c).flatten = xs.take (n * c) := by
  induction n with
  | zero => simp
  | succ n ih =>
    rw [List.range_succ, List.map_append, List.flatten_append, ih, Nat.succ_mul, List.take_add]
    simp

theorem chunksOf_flatten (c : ℕ) (hc : 0 < c) (xs : List X) : (chunksOf c xs).flatten = xs := by
  unfold chunksOf
  rw [if_neg hc.ne', flatten_chunks]
  apply List.take_of_length_le
  have := Nat.div_add_mod (xs.length + c - 1) c
  have h2 := Nat.mod_lt (xs.length + c - 1) hc
  rw [Nat.mul_comm]
  omega

theorem mapM_flatten (cs : List (List X)) : cs.flatten.mapM f = (cs.mapM (chunkEval f)).map List.flatten := by
  induction cs with
  | nil => rfl
  | cons c cs ih =>
    rw [List.flatten_cons, List.mapM_append, ih, List.mapM_cons]
    unfold chunkEval
    cases c.mapM f with
    | error e => rfl
    | ok v =>
      cases hh : cs.mapM (fun c => c.mapM f) with
      | error e =>
        simp only [bind, Except.bind, pure, Except.pure, Except.map, hh]
      | ok w =>
        have : List.mapM (chunkEval f) cs = .ok w := hh
        simp [bind, Except.bind, pure, Except.pure, Except.map, hh, this]

/-- **C109 (chunks).** The same holds if points are handed to the workers in chunks of any size. -/
theorem C109_chunks (c : ℕ) (hc : 0 < c) (xs : List X) (es : List PoolEvent) (s : PoolState (List X) (List B) Er)
    (hrun : pRun (chunkEval f) (pSubmit (chunksOf c xs)) es = some s) :
    (pReturned s = true → loopedEval f xs = .ok s.out.flatten) ∧ (∀ e, s.failed = some e → loopedEval f xs = .error e) := by
  obtain ⟨h1, h2⟩ := C109_same_values (chunkEval f) (chunksOf c xs) es s hrun
  have key : loopedEval f xs = (loopedEval (chunkEval f) (chunksOf c xs)).map List.flatten := by
    unfold loopedEval
    rw [← mapM_flatten, chunksOf_flatten c hc]
  refine ⟨fun hr => by rw [key, h1 hr]; rfl, fun e he => by rw [key, h2 e he]; rfl⟩

/-- **C109 (evaluate).** If no evaluation raises, `Problem.evaluate` with a parallel runner sees the list the sequential runner produces,
so it stores the same values for every point (C55). -/
theorem C109_evaluate (g : X → B) (xs : List X) (es : List PoolEvent) (s : PoolState X B Er)
    (hrun : pRun (fun x => .ok (g x)) (pSubmit xs) es = some s) : s.failed = none ∧ (pReturned s = true → s.out = runner g xs) := by
  obtain ⟨h1, h2⟩ := C109_same_values (fun x => (.ok (g x) : Except Er B)) xs es s hrun
  have hm : ∀ xs : List X, loopedEval (fun x => (.ok (g x) : Except Er B)) xs = .ok (xs.map g) := by
    intro xs
    induction xs with
    | nil => rfl
    | cons x xs ih =>
      have ih' : List.mapM (fun x => (.ok (g x) : Except Er B)) xs = .ok (xs.map g) := ih
      simp only [loopedEval, List.mapM_cons, ih']; rfl
  constructor
  · cases hf : s.failed with
    | none => rfl
    | some e => rw [hm] at h2; exact absurd (h2 e hf) (by simp)
  · intro hr
    have := h1 hr
    rw [hm] at this
    exact (Except.ok.inj this).symm

/-- **C109 (unordered, refuted).** With `return_as="generator_unordered"` among the keyword arguments of `JoblibParallelization` there is,
for every two points with different values, a schedule after which each point has got the value of the other one. -/
theorem C109_unordered_refuted (x y : X) (a b : B) (hx : f x = .ok a) (hy : f y = .ok b) (hab : a ≠ b) :
    ∃ (es : List PoolEvent) (s : PoolState X B Er), pRun f (pSubmit [x, y]) es = some s ∧ pReturned s = true ∧
      loopedEval f [x, y] = .ok [a, b] ∧ unorderedEval f s = .ok [b, a] ∧ ([a, b] : List B) ≠ [b, a] := by
  refine ⟨[.finish 1, .finish 0, .collect, .collect], ⟨[(x, some (f x)), (y, some (f y))], [a, b], none, [y, x]⟩, ?_, ?_, ?_, ?_, ?_⟩
  · simp [pRun, pStep, pSubmit, hx, hy]
  · simp [pReturned]
  · simp [loopedEval, hx, hy]; rfl
  · simp [unorderedEval, hx, hy]; rfl
  · intro h
    simp at h
    exact hab h.1

end Schedules

section Copies

variable {X B : Type*} (f : X → B)

/-- **C109 (copies).** A copy of a problem evaluated sequentially evaluates like the original. -/
theorem C109_copy_looped (xs : List X) :
    ∃ c, copyProblemRunner false (some (mkRunner .looped)) = some c ∧ callProblemRunner c f xs = callProblemRunner (some (mkRunner .looped)) f xs ∧
      callProblemRunner c f xs = some (xs.map f) := ⟨_, rfl, rfl, rfl⟩

/-- **C109 (copies, refuted).** A copy (deep copy or pickle) of a problem evaluated by `starmap` or dask cannot evaluate any point: a
checkpoint with such a problem cannot be continued. -/
theorem C109_copy_refuted (k : RunnerKind) (hk : k = .starmap ∨ k = .dask) (x : X) (xs : List X) :
    callProblemRunner (some (mkRunner k)) f (x :: xs) = some ((x :: xs).map f) ∧
    ∃ c, copyProblemRunner false (some (mkRunner k)) = some c ∧ callProblemRunner c f (x :: xs) = none := by
  rcases hk with rfl | rfl <;> exact ⟨rfl, _, rfl, rfl⟩

/-- **C109 (history, refuted).** With the joblib or the ray runner `save_history=True` raises in the first generation. -/
theorem C109_history_refuted (k : RunnerKind) (hk : k = .joblib ∨ k = .ray) (n : ℕ) :
    historyRunners false (some (mkRunner k)) (n + 1) = none := by
  induction n with
  | zero => rcases hk with rfl | rfl <;> rfl
  | succ n ih => rw [historyRunners, ih]; rfl

/-- **C109 (exclusion).** Excluding the runner from serialisation makes copying possible, but then no copy can evaluate anything. -/
theorem C109_excluded (r : Option RunnerObj) (n : ℕ) :
    ∃ h, historyRunners true r n = some h ∧ h.length = n ∧ ∀ c ∈ h, ∀ xs, callProblemRunner c f xs = none := by
  induction n with
  | zero => exact ⟨[], rfl, rfl, by simp⟩
  | succ n ih =>
    obtain ⟨h, h1, h2, h3⟩ := ih
    refine ⟨h ++ [none], by rw [historyRunners, h1]; rfl, by simp [h2], ?_⟩
    intro c hc xs
    rcases List.mem_append.1 hc with hc | hc
    · exact h3 c hc xs
    · rw [List.mem_singleton.1 hc]; rfl

end Copies

/-- Three points; the second one fails only after the third is finished; the schedule with a lost worker is executable. -/
example : ∃ s, pRun (fun n : ℕ => if n = 1 then (.error "bad" : Except String ℕ) else .ok (n * n)) (pSubmit [3, 1, 2])
    [.finish 2, .finish 0, .lost 2, .collect, .finish 1, .collect] = some s ∧ s.failed = some "bad" ∧ s.out = [9] := by
  refine ⟨_, rfl, rfl, rfl⟩

example : ∃ s, pRun (fun n : ℕ => (.ok (n * n) : Except String ℕ)) (pSubmit [3, 1, 2])
    [.finish 2, .finish 0, .collect, .finish 1, .collect, .collect] = some s ∧ pReturned s = true ∧ s.out = [9, 1, 4] ∧ s.log = [2, 3, 1] := by
  refine ⟨_, rfl, rfl, rfl, rfl⟩

example : chunksOf 2 [1, 2, 3, 4, 5] = [[1, 2], [3, 4], [5]] := by decide

end Props
