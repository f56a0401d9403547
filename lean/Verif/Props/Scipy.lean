import Verif.Model.Scipy
import Verif.Props.SingleObjective
import Mathlib.Data.Fin.VecNotation
import Mathlib.Algebra.Order.Field.Rat
import Mathlib.Tactic.Linarith
import Mathlib.Tactic.Positivity
import Mathlib.Tactic.NormNum

/-!
# Properties of the SciPy wrappers
-/

set_option linter.unusedSimpArgs false
set_option linter.unusedVariables false

namespace Props

open Model

/-! ### What is handed to SciPy -/

theorem meanViolation_zero (g : List ℝ) : meanViolation g ≤ 0 ↔ ∀ v ∈ g, v ≤ 0 := by
  unfold meanViolation
  split_ifs with h
  · have : g = [] := List.length_eq_zero_iff.1 h
    simp [this]
  · have hp : (0 : ℝ) < g.length := by exact_mod_cast Nat.pos_of_ne_zero h
    have hnn : ∀ l : List ℝ, 0 ≤ (l.map (max 0)).sum := by
      intro l
      induction l with
      | nil => simp
      | cons a l ih => simp only [List.map_cons, List.sum_cons]; have := le_max_left (0 : ℝ) a; linarith
    rw [div_le_iff₀ hp, zero_mul]
    clear h hp
    revert hnn
    induction g with
    | nil => simp
    | cons a g ih =>
      intro hnn
      simp only [List.map_cons, List.sum_cons, List.mem_cons, forall_eq_or_imp]
      have h1 := le_max_left (0 : ℝ) a
      have h2 := le_max_right (0 : ℝ) a
      have h3 := hnn g
      constructor
      · intro h; exact ⟨by linarith, (ih hnn).1 (by linarith)⟩
      · rintro ⟨h4, h5⟩; rw [max_eq_left h4]; have := (ih hnn).2 h5; linarith

/-- **C149 (restrictions).** `SLSQP` and `TrustConstr` hand a problem without equality constraints over faithfully: they do not raise, and the points SciPy regards as admissible are those within the bounds that
satisfy all inequality constraints. `LBFGSB` and `TNC` do so for problems without constraints and raise for problems with constraints. -/
theorem C149_admissible {n : ℕ} (name : String) (wb wc : Bool) (hc : (name, wb, wc) ∈ scipyClasses) (hb : wb = true) (p : ScipyProblem n) (hG : ∀ x, (p.G x).length = p.nIeq) (h0 : p.nEq = 0) :
    (scipyTask ⟨wb, wc, true, true⟩ p = none ↔ wc = false ∧ 0 < p.nIeq) ∧
    ∀ t, scipyTask ⟨wb, wc, true, true⟩ p = some t → ∀ x,
      (scipyAdmissible t p x ↔ (∀ l, p.xl = some l → ∀ i, l i ≤ x i) ∧ (∀ u, p.xu = some u → ∀ i, x i ≤ u i) ∧ ∀ v ∈ p.G x, v ≤ 0) := by
  subst hb
  constructor
  · simp only [scipyTask, h0]
    cases wc <;> by_cases h : 0 < p.nIeq <;> simp [h]
  · intro t ht x
    by_cases h : 0 < p.nIeq
    · cases wc
      · simp [scipyTask, h0, h] at ht
      · simp [scipyTask, h0, h] at ht
        subst ht
        simp only [scipyAdmissible, true_or, forall_true_left, meanViolation_zero, and_assoc]
    · have hn : p.nIeq = 0 := by omega
      have hG0 : p.G x = [] := List.length_eq_zero_iff.1 (by rw [hG, hn])
      simp [scipyTask, h0, hn] at ht
      subst ht
      simp [scipyAdmissible, hG0]

/-- The hypotheses are met by `SLSQP`. -/
example : ("SLSQP", true, true) ∈ scipyClasses ∧ ∀ x, ((⟨none, none, fun x => [x 0 - 1], fun _ => [], 1, 0⟩ : ScipyProblem 1).G x).length = 1 := by
  refine ⟨by simp [scipyClasses], fun x => rfl⟩

/-- **C149 (which wrappers accept what).** Bounds are accepted by `L-BFGS-B`, `TNC`, `SLSQP` and `trust-constr` only, constraints by `COBYLA`, `SLSQP` and `trust-constr` only. -/
theorem C149_support (name : String) (wb wc : Bool) (hc : (name, wb, wc) ∈ scipyClasses) :
    (wb = true ↔ name = "LBFGSB" ∨ name = "TNC" ∨ name = "SLSQP" ∨ name = "TrustConstr") ∧
    (wc = true ↔ name = "COBYLA" ∨ name = "SLSQP" ∨ name = "TrustConstr") := by
  simp only [scipyClasses, List.mem_cons, Prod.mk.injEq, List.mem_nil_iff, or_false] at hc
  rcases hc with ⟨rfl, rfl, rfl⟩ | ⟨rfl, rfl, rfl⟩ | ⟨rfl, rfl, rfl⟩ | ⟨rfl, rfl, rfl⟩ | ⟨rfl, rfl, rfl⟩ | ⟨rfl, rfl, rfl⟩ | ⟨rfl, rfl, rfl⟩ | ⟨rfl, rfl, rfl⟩ | ⟨rfl, rfl, rfl⟩ | ⟨rfl, rfl, rfl⟩ |
    ⟨rfl, rfl, rfl⟩ | ⟨rfl, rfl, rfl⟩ | ⟨rfl, rfl, rfl⟩ | ⟨rfl, rfl, rfl⟩ <;> decide

/-- **C149 (refuted).** Equality constraints are not handed over: `SLSQP` regards points as admissible that violate them. -/
theorem C149_equality_refuted :
    ¬ ∀ (n : ℕ) (p : ScipyProblem n) t, (∀ x, (p.G x).length = p.nIeq ∧ (p.H x).length = p.nEq) → scipyTask ⟨true, true, true, true⟩ p = some t →
      ∀ x, scipyAdmissible t p x → ∀ h ∈ p.H x, h = 0 := by
  intro H
  have := H 1 ⟨none, none, fun _ => [], fun x => [x 0], 0, 1⟩ ⟨true, true, true⟩ (by simp) (by simp [scipyTask]) (fun _ => 1)
    (by simp [scipyAdmissible, meanViolation]) 1 (by simp)
  norm_num at this

/-- **C149 (bounds).** For a problem with bounds, a class that does not handle bounds (among them `COBYLA`, the one of these that handles constraints) runs only with `use_bounds=False` and `use_constr=False`, so
that neither the bounds nor the constraints are handed over; with `use_bounds=False` alone every class raises. -/
theorem C149_bounds {n : ℕ} (p : ScipyProblem n) (wc ub uc : Bool) :
    (p.xl.isSome ∨ p.xu.isSome → ((scipyTask ⟨false, wc, ub, uc⟩ p).isSome ↔ ub = false ∧ uc = false)) ∧
    (∀ wb, scipyTask ⟨wb, wc, false, true⟩ p = none) ∧
    ∀ t wb, scipyTask ⟨wb, wc, false, false⟩ p = some t → ∀ x, scipyAdmissible t p x := by
  refine ⟨?_, ?_, ?_⟩
  · intro hb
    have : (p.xl.isSome || p.xu.isSome) = true := by simpa using hb
    cases ub <;> cases uc <;> simp [scipyTask, this]
  · intro wb; simp [scipyTask]
  · intro t wb ht x
    simp [scipyTask] at ht
    subst ht
    simp [scipyAdmissible]

example : ("COBYLA", false, true) ∈ scipyClasses := by simp [scipyClasses]

/-- **C149 (refuted).** `COBYLA` solves no problem with bounds and constraints with its restrictions. -/
theorem C149_cobyla_refuted : ¬ ∃ (o : ScipyOpts) (p : ScipyProblem 1) (t : ScipyTask 1), o.withBounds = false ∧ o.withConstr = true ∧ p.xl.isSome ∧ scipyTask o p = some t ∧ t.nonlinear = true := by
  rintro ⟨⟨wb, wc, ub, uc⟩, p, t, h1, h2, hb, ht, hn⟩
  simp only at h1 h2
  subst h1 h2
  have := ((C149_bounds p true ub uc).1 (Or.inl hb)).1 (by rw [ht]; rfl)
  obtain ⟨rfl, rfl⟩ := this
  simp [scipyTask] at ht
  rw [← ht] at hn
  simp at hn

/-! ### The run -/

variable {X : Type} (pr : ∀ n, (Fin n → Fin 1 → ℝ) → Fin n → ℕ) (at' : Attrs X ℝ ℝ 1)

theorem scipy_run_all (sample : List X) (hs : sample ≠ []) (solve : X → List X × X) (fuel : ℕ) (hf : 2 ≤ fuel) :
    ∃ x0 s, BestOf at' x0 sample ∧ algRun scipyProgress (scipyHooks pr at' sample solve) false false fuel scipyFresh = some s ∧
      s.st.opt = some [(solve x0).2] ∧ s.st.pop = [(solve x0).2] ∧ s.nEval = sample.length ∧ s.st.runs = 2 ∧
      s.st.calls = (solve x0).1 ++ [(solve x0).2] ++ (solve x0).1 ++ [(solve x0).2] ∧ s.finalized = 1 ∧ s.nIter = 3 := by
  obtain ⟨x0, h0, hb⟩ := filterOptimum_best (at' := at') pr sample hs
  obtain ⟨x1, h1, hb1⟩ := filterOptimum_best (at' := at') pr [(solve x0).2] (by simp)
  have e1 : x1 = (solve x0).2 := by simpa using hb1.1
  subst e1
  obtain ⟨k, rfl⟩ : ∃ k, fuel = k + 2 := ⟨fuel - 2, by omega⟩
  let s1 : AlgState (ScipyState X) (List X) Unit ℚ :=
    { st := ⟨sample, some [x0], [], 0, false⟩, initialized := true, nIter := 2, nEval := sample.length, term := .prim false 0 (), callbacks := [1], history := [], finalized := 0, archived := [] }
  let s2 : AlgState (ScipyState X) (List X) Unit ℚ :=
    { st := ⟨[(solve x0).2], some [(solve x0).2], (solve x0).1 ++ [(solve x0).2] ++ (solve x0).1 ++ [(solve x0).2], 2, true⟩, initialized := true, nIter := 3, nEval := sample.length,
      term := .prim false 1 (), callbacks := [1, 2], history := [], finalized := 1, archived := [] }
  have n1 : algNext scipyProgress (scipyHooks pr at' sample solve) false false scipyFresh = some s1 := by
    simp [algNext, algInfill, scipyFresh, algFresh, scipyHooks, algAdvance, algPostAdvance, Crit.update, scipyProgress, algFinish, Crit.hasTerminated, Crit.perc, h0, s1]
    exact decide_eq_false (not_le.2 zero_lt_one)
  have n2 : algNext scipyProgress (scipyHooks pr at' sample solve) false false s1 = some s2 := by
    simp [algNext, algInfill, scipyHooks, algAdvance, algPostAdvance, Crit.update, scipyProgress, algFinish, Crit.hasTerminated, Crit.perc, h1, s1, s2, scipyAdvance]
  refine ⟨x0, s2, hb, ?_, rfl, rfl, rfl, rfl, rfl, rfl, rfl⟩
  have t0 : algHasNext (scipyFresh : AlgState (ScipyState X) (List X) Unit ℚ) = true := by
    simp [algHasNext, scipyFresh, algFresh, Crit.hasTerminated, Crit.perc]
    exact decide_eq_false (not_le.2 zero_lt_one)
  have t1 : algHasNext s1 = true := by
    simp [algHasNext, s1, Crit.hasTerminated, Crit.perc]
    exact decide_eq_false (not_le.2 zero_lt_one)
  have t2 : algHasNext s2 = false := by simp [algHasNext, s2, Crit.hasTerminated, Crit.perc]
  simp only [algRun, t0, t1, n1, n2, if_true]
  cases k <;> simp [algRun, t2]

/-- **C149 (result).** A run ends after two iterations; its optimum is SciPy's answer for the best of the sampled starting points (feasible ones first, then by objective value; the least infeasible one if there is no
feasible one). -/
theorem C149_result (sample : List X) (hs : sample ≠ []) (solve : X → List X × X) (fuel : ℕ) (hf : 2 ≤ fuel) :
    ∃ x0 s, x0 ∈ sample ∧ ((∃ y ∈ sample, at'.feas y = true) → at'.feas x0 = true ∧ ∀ y ∈ sample, at'.feas y = true → at'.F x0 0 ≤ at'.F y 0) ∧
      ((∀ y ∈ sample, at'.feas y = false) → ∀ y ∈ sample, at'.cv x0 ≤ at'.cv y) ∧
      algRun scipyProgress (scipyHooks pr at' sample solve) false false fuel scipyFresh = some s ∧ s.st.opt = some [(solve x0).2] ∧ s.finalized = 1 := by
  obtain ⟨x0, s, hb, h1, h2, _, _, _, _, h3, _⟩ := scipy_run_all pr at' sample hs solve fuel hf
  exact ⟨x0, s, hb.1, hb.2.1, hb.2.2, h1, h2, h3⟩

/-- **C149 (evaluations).** SciPy is called twice, with the same starting point: `LoopwiseAlgorithm._infill` calls `_advance` before `next` calls it. The number of evaluations is the sample plus twice (the calls of
the objective and one evaluation of the answer). -/
theorem C149_evaluations (sample : List X) (hs : sample ≠ []) (solve : X → List X × X) (fuel : ℕ) (hf : 2 ≤ fuel) :
    ∃ x0 ∈ sample, ∃ s, algRun scipyProgress (scipyHooks pr at' sample solve) false false fuel scipyFresh = some s ∧ s.st.runs = 2 ∧
      scipyEvals s = sample.length + 2 * ((solve x0).1.length + 1) := by
  obtain ⟨x0, s, hb, h1, h2, _, hn, hr, hc, _⟩ := scipy_run_all pr at' sample hs solve fuel hf
  refine ⟨x0, hb.1, s, h1, hr, ?_⟩
  simp only [scipyEvals, hn, hc, List.length_append, List.length_singleton]
  omega

example : ([0, 1] : List ℕ) ≠ [] := by simp

/-- **C149 (refuted).** An evaluation budget is exceeded even if SciPy keeps to it: the budget is SciPy's limit for each of its two calls. -/
theorem C149_budget_refuted :
    ¬ ∀ (X : Type) (pr : ∀ n, (Fin n → Fin 1 → ℝ) → Fin n → ℕ) (at' : Attrs X ℝ ℝ 1) (sample : List X) (solve : X → List X × X) (budget : ℕ), sample ≠ [] → (∀ x, (solve x).1.length ≤ budget) →
      ∀ s, algRun scipyProgress (scipyHooks pr at' sample solve) false false 2 scipyFresh = some s → scipyEvals s ≤ sample.length + budget + 1 := by
  intro H
  obtain ⟨x0, _, s, h1, _, h2⟩ := C149_evaluations (X := Unit) (fun _ _ _ => 0) ⟨fun _ _ => 0, fun _ => true, fun _ => 0⟩ [()] (by simp) (fun _ => (List.replicate 100 (), ())) 2 le_rfl
  have := H Unit (fun _ _ _ => 0) ⟨fun _ _ => 0, fun _ => true, fun _ => 0⟩ [()] (fun _ => (List.replicate 100 (), ())) 100 (by simp) (by simp) s h1
  rw [h2] at this
  simp at this

/-- **C149 (never worse, if SciPy is not).** If SciPy's answer is feasible and not worse than a feasible starting point, the result is feasible and not worse than any feasible sampled point. -/
theorem C149_no_worse (sample : List X) (solve : X → List X × X) (hfeas : ∃ y ∈ sample, at'.feas y = true)
    (hsolve : ∀ x, at'.feas x = true → at'.feas (solve x).2 = true ∧ at'.F (solve x).2 0 ≤ at'.F x 0) :
    ∃ s x, algRun scipyProgress (scipyHooks pr at' sample solve) false false 2 scipyFresh = some s ∧ s.st.opt = some [x] ∧ at'.feas x = true ∧ ∀ y ∈ sample, at'.feas y = true → at'.F x 0 ≤ at'.F y 0 := by
  have hs : sample ≠ [] := by rintro rfl; simp at hfeas
  obtain ⟨x0, s, _, hbest, _, h1, h2, _⟩ := C149_result pr at' sample hs solve 2 le_rfl
  obtain ⟨hf, hle⟩ := hbest hfeas
  obtain ⟨g1, g2⟩ := hsolve x0 hf
  exact ⟨s, _, h1, h2, g1, fun y hy hy' => g2.trans (hle y hy hy')⟩

/-- **C149 (refuted).** The best solution seen is not kept: if SciPy answers with a worse point than it was given, that is the result. -/
theorem C149_keeps_best_refuted :
    ¬ ∀ (X : Type) (pr : ∀ n, (Fin n → Fin 1 → ℝ) → Fin n → ℕ) (at' : Attrs X ℝ ℝ 1) (sample : List X) (solve : X → List X × X) s x, (∀ y, at'.feas y = true) → sample ≠ [] →
      algRun scipyProgress (scipyHooks pr at' sample solve) false false 2 scipyFresh = some s → s.st.opt = some [x] → ∀ y ∈ sample, at'.F x 0 ≤ at'.F y 0 := by
  intro H
  let at'' : Attrs Bool ℝ ℝ 1 := ⟨fun b _ => if b then 1 else 0, fun _ => true, fun _ => 0⟩
  obtain ⟨x0, s, _, _, _, h1, h2, _⟩ := C149_result (X := Bool) (fun _ _ _ => 0) at'' [false] (by simp) (fun _ => ([true], true)) 2 le_rfl
  have := H Bool (fun _ _ _ => 0) at'' [false] (fun _ => ([true], true)) s true (fun _ => rfl) (by simp) h1 h2 false (by simp)
  norm_num [at''] at this

end Props
