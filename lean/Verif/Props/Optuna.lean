import Verif.Spec.Optuna
import Verif.Props.SingleObjective
import Verif.Props.Spacing
import Mathlib.Data.Rat.Defs
import Mathlib.Algebra.Order.Ring.Rat

/-! # C156: the Optuna wrapper -/

set_option linter.unusedSimpArgs false
set_option linter.unusedVariables false
set_option linter.unusedSectionVars false

namespace Props
open Model Spec

variable {ι K β : Type*} [LinearOrder K] [AddCommGroup K] [IsOrderedAddMonoid K] [LinearOrder β]
variable (oracle : ℕ → String → OSugg → OVal) (eval : List (String × OVal) → ι) (pr : ∀ n, (Fin n → Fin 1 → K) → Fin n → ℕ) (at' : Attrs ι K β 1)

/-- C156. A new point has exactly the variables of the problem, in their order, each with a value of its own domain — if there are explicit variables, all of the four known classes; otherwise asking raises. -/
theorem C156_variables (ho : ∀ t name s, Suggests s (oracle t name s)) (vars : Option (List (String × OVar))) (t : ℕ) :
    (∀ x, optunaVars oracle vars t = some x → ∃ vs, vars = some vs ∧ List.Forall₂ (fun v e => e.1 = v.1 ∧ InDomain v.2 e.2) vs x) ∧
    (optunaVars oracle vars t = none ↔ vars = none ∨ ∃ vs, vars = some vs ∧ ∃ v ∈ vs, v.2 = OVar.other) := by
  rcases vars with _ | vs
  · simp [optunaVars]
  · have hdom : ∀ (v : OVar) (s : OSugg) (e : OVal), optunaSugg v = some s → Suggests s e → InDomain v e := by
      intro v s e hs he
      cases v <;> simp only [optunaSugg, Option.some.injEq] at hs <;> try (subst hs)
      · cases e <;> simpa [Suggests, InDomain] using he
      · cases e <;> simpa [Suggests, InDomain] using he
      · simp only [Suggests, List.mem_map] at he
        obtain ⟨o, ho', rfl⟩ := he
        exact ho'
      · simp only [Suggests, List.mem_cons, List.not_mem_nil, or_false] at he
        rcases he with rfl | rfl <;> trivial
      · simp at hs
    constructor
    · intro x hx
      refine ⟨vs, rfl, ?_⟩
      simp only [optunaVars] at hx
      induction vs generalizing x with
      | nil => simp at hx; subst hx; exact .nil
      | cons v vs ih =>
        rw [List.mapM_cons] at hx
        cases hs : optunaSugg v.2 with
        | none => simp [hs] at hx
        | some s =>
          cases hr : (vs.mapM fun v => (optunaSugg v.2).map fun s => (v.1, oracle t v.1 s)) with
          | none => simp [hs, hr] at hx
          | some r =>
            simp [hs, hr] at hx
            subst hx
            exact .cons ⟨rfl, hdom v.2 s _ hs (ho _ _ _)⟩ (ih r hr)
    · simp only [optunaVars]
      have : ((vs.mapM fun v => (optunaSugg v.2).map fun s => (v.1, oracle t v.1 s)) = none) ↔ ∃ v ∈ vs, v.2 = OVar.other := by
        induction vs with
        | nil => simp
        | cons v vs ih =>
          rw [List.mapM_cons]
          cases hs : optunaSugg v.2 with
          | none =>
            have : v.2 = OVar.other := by revert hs; cases v.2 <;> simp [optunaSugg]
            simp [this, hs]
          | some s =>
            have hv : v.2 ≠ OVar.other := by intro h; rw [h] at hs; simp [optunaSugg] at hs
            cases hr : (vs.mapM fun v => (optunaSugg v.2).map fun s => (v.1, oracle t v.1 s)) with
            | none => simp [hr, hs, hv, ← ih]
            | some r =>
              have hno := (not_congr ih).1 (by simp [hr])
              simp [hr, hs, hv, ← ih]
      rw [this]
      constructor
      · intro h; exact Or.inr ⟨vs, rfl, h⟩
      · rintro (h | ⟨vs', h, h'⟩)
        · cases h
        · cases h; exact h'

/-- C156. A run of `n` iterations with supported variables: it does not raise, the study was told, for trial `0 .. n - 1` in this order, the objective value of the point of that trial, exactly once each; the reported
optimum is a best one of all evaluated points (feasible first); the population is the last point. -/
theorem C156_run (vs : List (String × OVar)) (hv : ∀ v ∈ vs, v.2 ≠ OVar.other) (n : ℕ) :
    ∃ (inds : List ι) (s : OptunaSt ι K), optunaRun oracle (some vs) eval pr at' n = some (inds, s) ∧ inds.length = n ∧ s.nTrials = n ∧
      (∀ k (hk : k < inds.length), ∃ x, optunaVars oracle (some vs) k = some x ∧ inds[k] = eval x) ∧
      s.told = inds.zipIdx.map (fun p => (p.2, at'.F p.1 0)) ∧ (0 < n → ∃ x, s.opt = some [x] ∧ BestOf at' x inds) ∧ (∀ l ∈ inds.getLast?, s.pop = [l]) := by
  have hsome : ∀ t, ∃ x, optunaVars oracle (some vs) t = some x := by
    intro t
    simp only [optunaVars]
    induction vs with
    | nil => exact ⟨[], rfl⟩
    | cons v vs ih =>
      obtain ⟨r, hr⟩ := ih fun v hv' => hv v (by simp [hv'])
      have : ∃ s, optunaSugg v.2 = some s := by
        have := hv v (by simp)
        revert this
        cases v.2 <;> simp [optunaSugg]
      obtain ⟨s, hs⟩ := this
      exact ⟨(v.1, oracle t v.1 s) :: r, by rw [List.mapM_cons, hr, hs]; rfl⟩
  induction n with
  | zero => exact ⟨[], optunaFresh ι K, rfl, rfl, rfl, fun k hk => by simp at hk, rfl, fun h => by omega, by simp⟩
  | succ n ih =>
    obtain ⟨inds, s, h1, h2, h3, h4, h5, h6, h7⟩ := ih
    obtain ⟨x, hx⟩ := hsome n
    have hask : optunaAsk oracle (some vs) s = some (x, { s with trial := some n, nTrials := n + 1 }) := by
      unfold optunaAsk
      rw [h3, hx]; rfl
    have hnot : (s.told.any fun p => decide (p.1 = n)) = false := by
      rw [List.any_eq_false]
      intro p hp
      rw [h5] at hp
      obtain ⟨q, hq, rfl⟩ := List.mem_map.1 hp
      have := List.snd_lt_of_mem_zipIdx hq
      simp; omega
    have hopt : ∃ y, filterOptimum pr at' true (some (optunaMerge s.opt (eval x))) = some (some [y]) ∧ BestOf at' y (inds ++ [eval x]) := by
      rcases Nat.eq_zero_or_pos n with h0 | h0
      · subst h0
        have hi : inds = [] := List.length_eq_zero_iff.1 h2
        have hs0 : s.opt = none := by
          have : optunaRun oracle (some vs) eval pr at' 0 = some ([], optunaFresh ι K) := rfl
          rw [this] at h1
          injection h1 with h1
          injection h1 with _ h1
          rw [← h1]; rfl
        rw [hs0, hi]
        exact filterOptimum_best pr at' [eval x] (by simp)
      · obtain ⟨o, ho, hb⟩ := h6 h0
        rw [ho]
        obtain ⟨y, hy, hy'⟩ := filterOptimum_best pr at' ([o] ++ [eval x]) (by simp)
        exact ⟨y, hy, BestOf.merge at' o y inds [eval x] _ hb hy' (by intro z; simp)⟩
    obtain ⟨y, hy, hy'⟩ := hopt
    refine ⟨inds ++ [eval x], { s with trial := some n, nTrials := n + 1, told := s.told ++ [(n, at'.F (eval x) 0)], pop := [eval x], opt := some [y] }, ?_, by simp [h2], rfl, ?_, ?_, fun _ => ⟨y, rfl, hy'⟩, ?_⟩
    · unfold optunaRun
      rw [h1]
      simp only [Option.bind_some, hask]
      unfold optunaTell
      simp only [hnot, Bool.false_eq_true, if_false]
      rw [hy]; rfl
    · intro k hk
      rcases Nat.lt_or_ge k inds.length with h | h
      · obtain ⟨z, hz, hz'⟩ := h4 k h
        exact ⟨z, hz, by rw [List.getElem_append_left h]; exact hz'⟩
      · have hkn : k = n := by simp at hk; omega
        subst hkn
        exact ⟨x, hx, by rw [List.getElem_append_right (by omega)]; simp [h2]⟩
    · simp only [h5, List.zipIdx_append, List.map_append, h2]
      simp
    · intro l hl
      simp at hl
      rw [← hl]

/-- C156. Whatever the order of asking and telling, the study is told every value for the trial asked for last: if the points are told in turn, every trial gets the value of its own point, and never twice. -/
theorem C156_in_turn (vars : Option (List (String × OVar))) (ops : List OOp) (hops : InTurn 0 ops) (inds : List ι) (s : OptunaSt ι K)
    (h : optunaSession oracle vars eval pr at' ops = some (inds, s)) :
    (∀ p ∈ s.told, ∃ hk : p.1 < inds.length, p.2 = at'.F inds[p.1] 0) ∧ (s.told.map Prod.fst).Nodup := by
  suffices key : ∀ (ops : List OOp) (r : List ι × OptunaSt ι K), InTurn r.1.length ops → r.2.nTrials = r.1.length → (∀ t, r.2.trial = some t → t + 1 = r.1.length) →
      (∀ p ∈ r.2.told, ∃ hk : p.1 < r.1.length, p.2 = at'.F r.1[p.1] 0) → (r.2.told.map Prod.fst).Nodup →
      ops.foldlM (optunaOp oracle vars eval pr at') r = some (inds, s) → (∀ p ∈ s.told, ∃ hk : p.1 < inds.length, p.2 = at'.F inds[p.1] 0) ∧ (s.told.map Prod.fst).Nodup by
    exact key ops ([], optunaFresh ι K) hops rfl (by simp [optunaFresh]) (by simp [optunaFresh]) (by simp [optunaFresh]) h
  intro ops
  induction ops with
  | nil =>
    intro r _ _ _ h4 h5 h
    simp at h
    subst h
    exact ⟨h4, h5⟩
  | cons op ops ih =>
    intro r h1 h2 h3 h4 h5 h
    rw [List.foldlM_cons] at h
    cases hop : optunaOp oracle vars eval pr at' r op with
    | none => rw [hop] at h; simp at h
    | some r' =>
      rw [hop] at h
      cases op with
      | ask =>
        simp only [optunaOp, optunaAsk, Option.map_map] at hop
        cases hx : optunaVars oracle vars r.2.nTrials with
        | none => rw [hx] at hop; simp at hop
        | some x =>
          rw [hx] at hop
          simp at hop
          subst hop
          refine ih _ ?_ ?_ ?_ ?_ ?_ h
          · simpa [InTurn] using h1
          · simp [h2]
          · intro t ht; simp at ht; simp [← ht, h2]
          · intro p hp
            obtain ⟨hk, e⟩ := h4 p hp
            exact ⟨by simp; omega, by rw [e, List.getElem_append_left hk]⟩
          · exact h5
      | tell j =>
        simp only [InTurn] at h1
        obtain ⟨hj, h1⟩ := h1
        have hjl : j < r.1.length := by omega
        simp only [optunaOp, List.getElem?_eq_getElem hjl, Option.bind_some, optunaTell] at hop
        cases ht : r.2.trial with
        | none => rw [ht] at hop; simp at hop
        | some t =>
          rw [ht] at hop
          simp only at hop
          have htj : t = j := by have := h3 t ht; omega
          subst htj
          split_ifs at hop with hany
          · simp at hop
          · simp only [Option.map_map] at hop
            cases hf : (filterOptimum pr at' true (some (optunaMerge r.2.opt r.1[t]))) with
            | none => rw [hf] at hop; simp at hop
            | some o =>
              rw [hf] at hop
              simp at hop
              subst hop
              refine ih (r.1, { nTrials := r.2.nTrials, trial := some t, told := r.2.told ++ [(t, at'.F r.1[t] 0)], pop := [r.1[t]], opt := o }) h1 h2 (by intro t' ht'; simp at ht'; subst ht'; exact hj) ?_ ?_ h
              · intro p hp
                rcases List.mem_append.1 hp with hp | hp
                · exact h4 p hp
                · simp at hp; subst hp; exact ⟨hjl, rfl⟩
              · simp only [List.map_append, List.map_cons, List.map_nil]
                rw [List.nodup_append]
                refine ⟨h5, by simp, fun a ha b hb => ?_⟩
                simp at hb; subst hb
                obtain ⟨p, hp, rfl⟩ := List.mem_map.1 ha
                intro he
                exact hany (List.any_eq_true.2 ⟨p, hp, by simpa using he⟩)

/-- The attributes of the examples: an individual is (objective, feasible). -/
def optunaAttrs : Attrs (ℚ × Bool) ℚ ℚ 1 := ⟨fun i _ => i.1, fun i => i.2, fun i => if i.2 then 0 else 1⟩

/-- One real variable; the objective of the point `x` is `x`; trial `t` suggests `t / 10`; points below 1/2 are infeasible. -/
def optunaOracle : ℕ → String → OSugg → OVal := fun t _ _ => .real (t / 10)

def optunaEval : List (String × OVal) → ℚ × Bool
  | [(_, .real v)] => (v, decide (1 / 2 ≤ v))
  | _ => (0, false)

/-- A run of eight iterations: the optimum is the best feasible point. -/
example : (optunaRun optunaOracle (some [("x", .real 0 1)]) optunaEval (fun _ _ _ => 0) optunaAttrs 8).map (fun r => (r.2.opt, r.2.told.length)) = some (some [(5 / 10, true)], 8) := by decide +kernel

/-- C156, refuted: two points asked for before the first is told. The value of the first point is recorded for the second trial, and the second point can no longer be told. -/
theorem C156_ask_twice_refuted :
    (optunaSession optunaOracle (some [("x", .real 0 1)]) optunaEval (fun _ _ _ => 0) optunaAttrs [.ask, .ask, .tell 0]).map (fun r => (r.1, r.2.told)) = some ([(0, false), (1 / 10, false)], [(1, 0)]) ∧
    optunaSession optunaOracle (some [("x", .real 0 1)]) optunaEval (fun _ _ _ => 0) optunaAttrs [.ask, .ask, .tell 0, .tell 1] = none := by decide +kernel

/-- C156, refuted: constraints are not told to Optuna. In a run in which a feasible point was found, the best value the study knows belongs to an infeasible point; the optimum pymoo reports is another one. -/
theorem C156_constraints_refuted : ∃ (inds : List (ℚ × Bool)) (s : OptunaSt (ℚ × Bool) ℚ),
    optunaRun optunaOracle (some [("x", .real 0 1)]) optunaEval (fun _ _ _ => 0) optunaAttrs 8 = some (inds, s) ∧ (∃ i ∈ inds, i.2 = true) ∧
    (0, 0) ∈ s.told ∧ (∀ p ∈ s.told, 0 ≤ p.2) ∧ inds[0]? = some (0, false) ∧ s.opt = some [(5 / 10, true)] := by
  refine ⟨[(0, false), (1 / 10, false), (2 / 10, false), (3 / 10, false), (4 / 10, false), (5 / 10, true), (6 / 10, true), (7 / 10, true)],
    ⟨8, some 7, [(0, 0), (1, 1 / 10), (2, 2 / 10), (3, 3 / 10), (4, 4 / 10), (5, 5 / 10), (6, 6 / 10), (7, 7 / 10)], [(7 / 10, true)], some [(5 / 10, true)]⟩, ?_, ?_⟩
  · decide +kernel
  · decide +kernel

end Props
