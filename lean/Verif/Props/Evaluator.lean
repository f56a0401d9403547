import Verif.Lemmas.Evaluator
import Mathlib.Algebra.BigOperators.Group.List.Basic
import Mathlib.Data.List.Flatten
import Mathlib.Data.List.Dedup

/-! # C16: evaluator bookkeeping -/

set_option linter.unusedSimpArgs false
set_option linter.unusedSectionVars false

namespace Props
open Model Lemmas
variable {X κ V : Type*} [DecidableEq κ]

/-- What `Problem.evaluate` guarantees when it returns: a dictionary (distinct keys) with every requested key, each
column having one entry per row. -/
def GoodProblem (problem : List X → List κ → Option (List (κ × List V))) : Prop :=
  ∀ rows req out, problem rows req = some out →
    (out.map Prod.fst).Nodup ∧ (∀ e ∈ req, e ∈ out.map Prod.fst) ∧ ∀ c ∈ out, c.2.length = rows.length

/-- Number of rows evaluated by counted calls, read off a log of evaluation calls. -/
def countedRows (log : List (Bool × List ℕ)) : ℕ := (log.map fun c => if c.1 then c.2.length else 0).sum

theorem evEval_log (problem : List X → List κ → Option (List (κ × List V))) (skip : Bool) (req : List κ)
    (count : Bool) (pop : List ℕ) (s : EvState X κ V) (hg : GoodProblem problem) :
    let r := evEval problem skip req count pop s
    r.2 ≠ .setRaised ∧
    ((r.1 = s ∧ (r.2 = .problemRaised ∨ evSelect s.heap skip req pop = [])) ∨
      (r.2 = .ok ∧ r.1.log = s.log ++ [(count, evSelect s.heap skip req pop)] ∧
        evSelect s.heap skip req pop ≠ [] ∧
        ∃ out, problem ((evSelect s.heap skip req pop).map fun i => (s.heap i).x) req = some out ∧
        r.1.nEval = (if count then s.nEval + (evSelect s.heap skip req pop).length else s.nEval) ∧
        r.1.heap = markEvaluated (out.map Prod.fst) (evSelect s.heap skip req pop)
          (setColumns (evSelect s.heap skip req pop) s.heap out).1)) := by
  intro r
  have hr : r = evEval problem skip req count pop s := rfl
  unfold evEval at hr
  dsimp only at hr
  by_cases hI : (evSelect s.heap skip req pop).length > 0
  · rw [if_pos hI] at hr
    cases hp : problem ((evSelect s.heap skip req pop).map fun i => (s.heap i).x) req with
    | none =>
      rw [hp] at hr
      exact ⟨by rw [hr]; simp, Or.inl ⟨by rw [hr], Or.inl (by rw [hr])⟩⟩
    | some out =>
      rw [hp] at hr
      dsimp only at hr
      have hok : (setColumns (evSelect s.heap skip req pop) s.heap out).2 = true := by
        rw [setColumns_ok]
        intro c hc
        have := (hg _ _ _ hp).2.2 c hc
        simpa using this
      rw [if_pos hok] at hr
      refine ⟨by rw [hr]; simp, Or.inr ⟨by rw [hr], by rw [hr], ?_, out, rfl, by rw [hr], by rw [hr]⟩⟩
      intro h0; rw [h0] at hI; simp at hI
  · rw [if_neg hI] at hr
    refine ⟨by rw [hr]; simp, Or.inl ⟨by rw [hr], Or.inr ?_⟩⟩
    exact List.length_eq_zero_iff.1 (by omega)

/-- C16 (counting). After any sequence of `eval` calls — with any populations, flags and problems, where
`problem.evaluate` may also raise — the counter has grown by exactly the number of rows that `problem.evaluate`
evaluated in calls with counting enabled. -/
theorem C16_counts (calls : List (EvCall X κ V)) (hg : ∀ c ∈ calls, GoodProblem c.problem) :
    ∀ s : EvState X κ V, ∃ log, (evRun calls s).log = s.log ++ log ∧
      (evRun calls s).nEval = s.nEval + countedRows log := by
  induction calls with
  | nil => intro s; exact ⟨[], by simp [evRun], by simp [evRun, countedRows]⟩
  | cons c cs ih =>
    intro s
    rw [evRun]
    obtain ⟨log, h1, h2⟩ := ih (fun c hc => hg c (List.mem_cons_of_mem _ hc))
      (evEval c.problem c.skip c.req c.count c.pop s).1
    obtain ⟨_, h | h⟩ := evEval_log c.problem c.skip c.req c.count c.pop s (hg c (List.mem_cons_self ..))
    · rw [h.1] at h1 h2 ⊢
      exact ⟨log, h1, h2⟩
    · obtain ⟨_, hl, _, out, _, hn, _⟩ := h
      refine ⟨(c.count, evSelect s.heap c.skip c.req c.pop) :: log, ?_, ?_⟩
      · rw [h1, hl]; simp
      · rw [h2, hn]
        simp only [countedRows, List.map_cons, List.sum_cons]
        cases c.count <;> simp; omega

/-- C16 (skipping). With skipping enabled an individual whose requested values are all evaluated is not passed to
`problem.evaluate` and keeps all its values, whatever the problem does. -/
theorem C16_skips_evaluated (problem : List X → List κ → Option (List (κ × List V))) (req : List κ) (count : Bool)
    (pop : List ℕ) (s : EvState X κ V) (i : ℕ) (hi : ∀ e ∈ req, e ∈ (s.heap i).evaluated) :
    let r := evEval problem true req count pop s
    r.1.heap i = s.heap i ∧ ∃ log, r.1.log = s.log ++ log ∧ ∀ c ∈ log, i ∉ c.2 := by
  have hni : i ∉ evSelect s.heap true req pop := by
    rw [evSelect_mem]
    rintro ⟨_, h⟩
    obtain ⟨e, he, h⟩ := h rfl
    exact h (hi e he)
  intro r
  have hr : r = evEval problem true req count pop s := rfl
  unfold evEval at hr
  dsimp only at hr
  by_cases h1 : (evSelect s.heap true req pop).length > 0
  · rw [if_pos h1] at hr
    cases hp : problem ((evSelect s.heap true req pop).map fun i => (s.heap i).x) req with
    | none => rw [hp] at hr; rw [hr]; exact ⟨rfl, [], by simp, by simp⟩
    | some out =>
      rw [hp] at hr
      dsimp only at hr
      by_cases h2 : (setColumns (evSelect s.heap true req pop) s.heap out).2 = true
      · rw [if_pos h2] at hr
        rw [hr]
        refine ⟨?_, [(count, evSelect s.heap true req pop)], rfl, by simpa using hni⟩
        dsimp only
        rw [(markEvaluated_frame _ _ _ _).2.2.1 hni, (setColumns_frame _ _ _ _).2.2.2 hni]
      · rw [if_neg h2] at hr
        rw [hr]
        refine ⟨?_, [(count, evSelect s.heap true req pop)], rfl, by simpa using hni⟩
        dsimp only
        rw [(setColumns_frame _ _ _ _).2.2.2 hni]
  · rw [if_neg h1] at hr
    rw [hr]; exact ⟨rfl, [], by simp, by simp⟩

/-- C16 (completeness and frame). After a successful call every individual of the population has all requested
values marked as evaluated, nothing that was evaluated before is forgotten, design variables are untouched, and
individuals outside the population do not change. -/
theorem C16_complete (problem : List X → List κ → Option (List (κ × List V))) (hg : GoodProblem problem)
    (skip : Bool) (req : List κ) (count : Bool) (pop : List ℕ) (s s' : EvState X κ V)
    (h : evEval problem skip req count pop s = (s', .ok)) :
    (∀ i ∈ pop, ∀ e ∈ req, e ∈ (s'.heap i).evaluated) ∧
    (∀ i, ∀ e ∈ (s.heap i).evaluated, e ∈ (s'.heap i).evaluated) ∧
    (∀ i, (s'.heap i).x = (s.heap i).x) ∧ (∀ i, i ∉ pop → s'.heap i = s.heap i) := by
  obtain ⟨_, h1 | h1⟩ := evEval_log problem skip req count pop s hg
  · rw [h] at h1
    dsimp only at h1
    obtain ⟨rfl, h2⟩ := h1
    have h2 : evSelect s'.heap skip req pop = [] := by simpa using h2
    refine ⟨?_, fun _ _ h => h, fun _ => rfl, fun _ _ => rfl⟩
    intro i hi e he
    by_contra hne
    have : i ∈ evSelect s'.heap skip req pop := (evSelect_mem _ _ _ _ _).2 ⟨hi, fun _ => ⟨e, he, hne⟩⟩
    rw [h2] at this
    simp at this
  · rw [h] at h1
    obtain ⟨_, _, _, out, hout, _, hh⟩ := h1
    dsimp only at hh
    rw [hh]
    refine ⟨?_, ?_, ?_, ?_⟩
    · intro i hi e he
      rw [(markEvaluated_frame _ _ _ _).2.2.2]
      by_cases hs : i ∈ evSelect s.heap skip req pop
      · exact Or.inr ⟨hs, (hg _ _ _ hout).2.1 e he⟩
      · left
        rw [(setColumns_frame _ _ _ _).2.1]
        by_contra hne
        exact hs ((evSelect_mem _ _ _ _ _).2 ⟨hi, fun _ => ⟨e, he, hne⟩⟩)
    · intro i e he
      rw [(markEvaluated_frame _ _ _ _).2.2.2, (setColumns_frame _ _ _ _).2.1]
      exact Or.inl he
    · intro i
      rw [(markEvaluated_frame _ _ _ _).1, (setColumns_frame _ _ _ _).1]
    · intro i hi
      have hs : i ∉ evSelect s.heap skip req pop := fun hs => hi ((evSelect_mem _ _ _ _ _).1 hs).1
      rw [(markEvaluated_frame _ _ _ _).2.2.1 hs, (setColumns_frame _ _ _ _).2.2.2 hs]

/-- C16 (values). For a problem that computes each row independently (`f x key`) and returns the requested keys, after
a successful call on a population of distinct individuals, every individual that was not already evaluated (or
everyone, without skipping) holds exactly `f` of its own design variables for each requested key. -/
theorem C16_values (f : X → κ → V) (skip : Bool) (req : List κ) (hreq : req.Nodup) (count : Bool)
    (pop : List ℕ) (hnd : pop.Nodup) (s s' : EvState X κ V)
    (h : evEval (fun rows req => some (req.map fun k => (k, rows.map fun x => f x k))) skip req count pop s
      = (s', .ok)) :
    ∀ i ∈ pop, (skip = true → ∃ e ∈ req, e ∉ (s.heap i).evaluated) → ∀ e ∈ req,
      (s'.heap i).vals e = some (f (s.heap i).x e) := by
  intro i hi hsk e he
  by_cases hI : (evSelect s.heap skip req pop).length > 0
  · unfold evEval at h
    dsimp only at h
    rw [if_pos hI] at h
    have hndI : (evSelect s.heap skip req pop).Nodup := by
      unfold evSelect
      split_ifs
      · exact hnd.sublist List.filter_sublist
      · exact hnd
    generalize hII : evSelect s.heap skip req pop = I at h hndI hI
    have hlen : ∀ c ∈ (req.map fun k => (k, (I.map fun i => (s.heap i).x).map fun x => f x k)),
        c.2.length = I.length := by
      intro c hc
      obtain ⟨k, _, rfl⟩ := List.mem_map.1 hc
      simp
    rw [if_pos ((setColumns_ok _ _ _).2 hlen)] at h
    simp only [Prod.mk.injEq, and_true] at h
    rw [← h]
    dsimp only
    rw [(markEvaluated_frame _ _ _ _).2.1]
    have him : i ∈ I := by rw [← hII, evSelect_mem]; exact ⟨hi, hsk⟩
    obtain ⟨p, hp, rfl⟩ := List.mem_iff_getElem.1 him
    have := setColumns_val I hndI (req.map fun k => (k, (I.map fun i => (s.heap i).x).map fun x => f x k)) s.heap
      (by simpa [List.map_map, Function.comp_def] using hreq) hlen
      (e, (I.map fun i => (s.heap i).x).map fun x => f x e)
      (List.mem_map.2 ⟨e, he, rfl⟩) p hp
    rw [this]
    simp [hp]
  · exfalso
    have : i ∈ evSelect s.heap skip req pop := (evSelect_mem _ _ _ _ _).2 ⟨hi, hsk⟩
    exact hI (List.length_pos_of_mem this)

/-- C16 (history). Over any sequence of skipping calls for the same requested values on populations of distinct
individuals, each individual is passed to `problem.evaluate` (successfully) at most once, and never if it was
evaluated at the start. -/
theorem C16_evaluated_at_most_once (req : List κ) (calls : List (EvCall X κ V))
    (hg : ∀ c ∈ calls, GoodProblem c.problem ∧ c.skip = true ∧ c.req = req ∧ c.pop.Nodup) :
    ∀ s : EvState X κ V, ∃ log, (evRun calls s).log = s.log ++ log ∧ (log.map Prod.snd).flatten.Nodup ∧
      ∀ i ∈ (log.map Prod.snd).flatten, ∃ e ∈ req, e ∉ (s.heap i).evaluated := by
  induction calls with
  | nil => intro s; exact ⟨[], by simp [evRun], by simp, by simp⟩
  | cons c cs ih =>
    intro s
    rw [evRun]
    obtain ⟨hgp, hskip, hreq, hpop⟩ := hg c (List.mem_cons_self ..)
    obtain ⟨log, h1, h2, h3⟩ := ih (fun c hc => hg c (List.mem_cons_of_mem _ hc))
      (evEval c.problem c.skip c.req c.count c.pop s).1
    obtain ⟨_, h | h⟩ := evEval_log c.problem c.skip c.req c.count c.pop s hgp
    · rw [h.1] at h1 h3 ⊢
      exact ⟨log, h1, h2, h3⟩
    · obtain ⟨hok, hl, hne, out, hout, _, hh⟩ := h
      have hmono : ∀ i, ∀ e ∈ (s.heap i).evaluated,
          e ∈ ((evEval c.problem c.skip c.req c.count c.pop s).1.heap i).evaluated := by
        intro i e he
        rw [hh, (markEvaluated_frame _ _ _ _).2.2.2, (setColumns_frame _ _ _ _).2.1]
        exact Or.inl he
      refine ⟨(c.count, evSelect s.heap c.skip c.req c.pop) :: log, ?_, ?_, ?_⟩
      · rw [h1, hl]; simp
      · rw [List.map_cons, List.flatten_cons, List.nodup_append]
        refine ⟨?_, h2, ?_⟩
        · dsimp only
          unfold evSelect
          rw [if_pos hskip]
          exact hpop.sublist List.filter_sublist
        · intro a ha b hb hab
          subst hab
          obtain ⟨e, he, hn⟩ := h3 a hb
          apply hn
          rw [hh, (markEvaluated_frame _ _ _ _).2.2.2]
          exact Or.inr ⟨ha, (hgp _ _ _ hout).2.1 e (by rw [hreq]; exact he)⟩
      · intro i hi
        rw [List.map_cons, List.flatten_cons, List.mem_append] at hi
        rcases hi with hi | hi
        · obtain ⟨_, h⟩ := (evSelect_mem _ _ _ _ _).1 hi
          rw [hreq] at h
          exact h hskip
        · obtain ⟨e, he, hn⟩ := h3 i hi
          exact ⟨e, he, fun h => hn (hmono i e h)⟩

/-- C16 (crash safety). If the call fails — `problem.evaluate` raises, or returns a column of the wrong length — the
counter is unchanged and no individual is newly marked as evaluated, so a retry evaluates the same individuals; if
the problem itself raised, nothing at all has changed. -/
theorem C16_failed_call (problem : List X → List κ → Option (List (κ × List V))) (skip : Bool) (req : List κ)
    (count : Bool) (pop : List ℕ) (s s' : EvState X κ V) (o : EvOutcome)
    (h : evEval problem skip req count pop s = (s', o)) (ho : o ≠ .ok) :
    s'.nEval = s.nEval ∧ (∀ i, (s'.heap i).evaluated = (s.heap i).evaluated) ∧
    (∀ i, (s'.heap i).x = (s.heap i).x) ∧
    (∀ sk rq p, evSelect s'.heap sk rq p = evSelect s.heap sk rq p) ∧ (o = .problemRaised → s' = s) := by
  unfold evEval at h
  dsimp only at h
  have triv : s = s' → _ := fun e => show s'.nEval = s.nEval ∧ (∀ i, (s'.heap i).evaluated = (s.heap i).evaluated) ∧
    (∀ i, (s'.heap i).x = (s.heap i).x) ∧
    (∀ sk rq p, evSelect s'.heap sk rq p = evSelect s.heap sk rq p) ∧ (o = .problemRaised → s' = s) by
      subst e; simp
  by_cases h1 : (evSelect s.heap skip req pop).length > 0
  · rw [if_pos h1] at h
    cases hp : problem ((evSelect s.heap skip req pop).map fun i => (s.heap i).x) req with
    | none =>
      rw [hp] at h
      simp only [Prod.mk.injEq] at h
      exact triv h.1
    | some out =>
      rw [hp] at h
      dsimp only at h
      by_cases h2 : (setColumns (evSelect s.heap skip req pop) s.heap out).2 = true
      · rw [if_pos h2] at h
        simp only [Prod.mk.injEq] at h
        exact absurd h.2.symm ho
      · rw [if_neg h2] at h
        simp only [Prod.mk.injEq] at h
        have he : ∀ i, (s'.heap i).evaluated = (s.heap i).evaluated := by
          intro i; rw [← h.1]; exact (setColumns_frame _ _ _ _).2.1
        refine ⟨by rw [← h.1], he, ?_, ?_, ?_⟩
        · intro i; rw [← h.1]; exact (setColumns_frame _ _ _ _).1
        · intro sk rq p
          unfold evSelect
          simp only [he]
        · intro h3; rw [h3] at h; simp at h
  · rw [if_neg h1] at h
    simp only [Prod.mk.injEq] at h
    exact triv h.1

/-! Non-vacuity: three individuals, number 1 already evaluated; two calls; the second re-evaluates nobody, and a call
without skipping evaluates both again. -/

def exState : EvState ℕ ℕ ℕ :=
  { heap := fun i => ⟨10 * i, fun _ => none, if i = 1 then [0] else []⟩, nEval := 5, log := [] }

def exProblem : List ℕ → List ℕ → Option (List (ℕ × List ℕ)) :=
  fun rows req => some (req.dedup.map fun k => (k, rows.map fun x => x + k))

example : GoodProblem exProblem := by
  intro rows req out h
  simp only [exProblem, Option.some.injEq] at h
  subst h
  refine ⟨by simpa [Function.comp_def] using List.nodup_dedup req, by simp, ?_⟩
  intro c hc
  obtain ⟨k, _, rfl⟩ := List.mem_map.1 hc
  simp

example : (evRun [⟨exProblem, true, [0], true, [0, 1, 2]⟩, ⟨exProblem, true, [0], true, [0, 1, 2]⟩,
    ⟨exProblem, false, [0], false, [1, 2]⟩] exState).log = [(true, [0, 2]), (false, [1, 2])] ∧
    (evRun [⟨exProblem, true, [0], true, [0, 1, 2]⟩, ⟨exProblem, true, [0], true, [0, 1, 2]⟩,
    ⟨exProblem, false, [0], false, [1, 2]⟩] exState).nEval = 7 := by decide
example : (evEval (fun _ _ => none) true [0] true [0, 1, 2] exState).2 = .problemRaised := by decide
example : (evEval (fun _ _ => some [(0, [1])]) true [0] true [0, 1, 2] exState).2 = .setRaised := by decide

end Props
