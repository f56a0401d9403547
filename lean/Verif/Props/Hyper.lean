import Verif.Model.Hyper
import Verif.Props.Minimize
import Verif.Props.Parameters
import Verif.Props.Mixed

/-!
# C113: hyperparameter optimisation evaluates what it says, and evaluations do not influence each other
-/

set_option linter.unusedSimpArgs false
set_option linter.unusedVariables false
set_option linter.unusedSectionVars false

namespace Props

open Model

variable {C Pr σ P S K X : Type*} [Field K] [LinearOrder K] (code : AlgCode C Pr σ P S K)

theorem callTerm_extends {W W' : World C Pr σ P S K} (h : Extends W W') (c : MinCall Pr S K) (hc : ValidCall W c) : callTerm W' c = callTerm W c := by
  unfold callTerm
  cases hct : c.term with
  | none => rfl
  | some t =>
    simp only [Option.bind_some]
    cases t with
    | tuple d => rfl
    | ref i =>
      have := List.getElem?_eq_getElem (hc.term i hct)
      simp only [termValue, this, prefix_get h.2 this]

theorem validCall_extends {W W' : World C Pr σ P S K} (h : Extends W W') (c : MinCall Pr S K) (hc : ValidCall W c) : ValidCall W' c :=
  ⟨lt_of_lt_of_le hc.alg h.1.length_le, fun t ht => lt_of_lt_of_le (hc.term t ht) h.2.length_le⟩

theorem multiRun_spec (fuel : ℕ) (c : MinCall Pr S K) (hcop : Copies c) (v : AlgValue C Pr σ P S K) (T : Option (Crit S K)) (seeds : List ℕ)
    (W : World C Pr σ P S K) (hW : Sound W) (hc : ValidCall W c) (hv : valueAlg W c.alg = some v) (hT : callTerm W c = T) :
    ((seeds.mapM fun s => specMinimize code fuel v c.problem T (some (some s)) c.entropy) = none ∧ multiRun code fuel c W seeds = none) ∨
    ∃ rs W', (seeds.mapM fun s => specMinimize code fuel v c.problem T (some (some s)) c.entropy) = some rs ∧
      multiRun code fuel c W seeds = some (W', rs) ∧ Extends W W' ∧ Sound W' := by
  induction seeds generalizing W with
  | nil => exact .inr ⟨[], W, rfl, rfl, .refl W, hW⟩
  | cons s ss ih =>
    have hcs : ValidCall W { c with seed := some (some s) } := ⟨hc.alg, hc.term⟩
    have hcall : callTerm W { c with seed := some (some s) } = T := hT
    rw [List.mapM_cons, multiRun]
    rcases minimize_spec code fuel W hW { c with seed := some (some s) } hcs hcop v hv with ⟨h1, h2⟩ | ⟨r, W1, h1, h2, h3⟩
    · left
      rw [hcall] at h1
      simp only at h1
      exact ⟨by simp [h1], by rw [h2]; rfl⟩
    · rw [hcall] at h1
      simp only at h1
      have hs1 := sound_minimize code hW fuel { c with seed := some (some s) } hcs hcop r h2
      rw [h2]
      simp only [h1, Option.bind_eq_bind, Option.bind_some]
      rcases ih W1 hs1 (validCall_extends h3 c hc) (extends_value h3 hv) ((callTerm_extends h3 c hc).trans hT) with ⟨k1, k2⟩ | ⟨rs, W2, k1, k2, k3, k4⟩
      · left
        rw [k1, k2]; exact ⟨rfl, rfl⟩
      · right
        rw [k1, k2]
        exact ⟨r :: rs, W2, rfl, rfl, h3.trans k3, k4⟩

theorem hyperCreate_spec (set : C → X → Option C) (W : World C Pr σ P S K) (hW : Sound W) (a : ℕ) (v : AlgValue C Pr σ P S K)
    (hv : valueAlg W a = some v) (x : X) :
    (set v.cfg x = none ∧ hyperCreate set W a x = none) ∨
    ∃ cfg W' a', set v.cfg x = some cfg ∧ hyperCreate set W a x = some (W', a') ∧ Extends W W' ∧ Sound W' ∧ a' < W'.algs.length ∧
      valueAlg W' a' = some ⟨cfg, v.problem, v.seed, v.term, v.core⟩ := by
  obtain ⟨W1, a1, h1, h2, h3, h4, h5⟩ := copyAlg_spec W a v hv
  have hs := hW.copyAlg _ _ h1
  obtain ⟨o, ho, h3⟩ := Option.bind_eq_some_iff.1 h3
  have ha1 : a1 < W1.algs.length := (List.getElem?_eq_some_iff.1 ho).1
  have hcfg : o.cfg = v.cfg ∧ o.problem = v.problem ∧ o.seed = v.seed ∧ o.core = v.core := by
    cases ht : o.term with
    | none => rw [ht] at h3; simp only [Option.some.injEq] at h3; subst h3; exact ⟨rfl, rfl, rfl, rfl⟩
    | some t =>
      rw [ht] at h3
      obtain ⟨c, hc, h3⟩ := Option.map_eq_some_iff.1 h3
      subst h3; exact ⟨rfl, rfl, rfl, rfl⟩
  cases hset : set v.cfg x with
  | none =>
    left
    refine ⟨rfl, ?_⟩
    unfold hyperCreate
    rw [h1]
    simp only [Option.bind_some, ho, hcfg.1, hset, Option.map_none]
  | some cfg =>
    right
    refine ⟨cfg, ⟨W1.algs.set a1 ⟨cfg, o.problem, o.seed, o.term, o.core⟩, W1.terms⟩, a1, rfl, ?_, ?_, ?_, by simpa using ha1, ?_⟩
    · unfold hyperCreate
      rw [h1]
      simp only [Option.bind_some, ho, hcfg.1, hset, Option.map_some]
    · exact ⟨prefix_set h2.1 _ h4, h2.2⟩
    · have hmem : ∀ o' ∈ W1.algs.set a1 ⟨cfg, o.problem, o.seed, o.term, o.core⟩, ∃ o'' ∈ W1.algs, o'.term = o''.term ∧ o'.problem = o''.problem := by
        intro o' ho'
        rcases List.mem_or_eq_of_mem_set ho' with h | h
        · exact ⟨o', h, rfl, rfl⟩
        · exact ⟨o, List.mem_of_getElem? ho, by rw [h], by rw [h]⟩
      refine ⟨?_, ?_⟩
      · intro o' ho' t ht
        obtain ⟨o'', h, e1, e2⟩ := hmem o' ho'
        exact hs.refs o'' h t (e1 ▸ ht)
      · intro o' ho' hp
        obtain ⟨o'', h, e1, e2⟩ := hmem o' ho'
        rw [e1]
        exact hs.setup o'' h (e2 ▸ hp)
    · unfold valueAlg
      rw [List.getElem?_set_self ha1]
      simp only [Option.bind_some]
      cases ht : o.term with
      | none =>
        rw [ht] at h3
        simp only [Option.some.injEq] at h3
        subst h3; rfl
      | some t =>
        rw [ht] at h3
        obtain ⟨c, hc, h3⟩ := Option.map_eq_some_iff.1 h3
        subst h3
        have : termValue (⟨W1.algs.set a1 ⟨cfg, o.problem, o.seed, some t, o.core⟩, W1.terms⟩ : World C Pr σ P S K) t = some c := by
          cases t with
          | tuple d => exact hc
          | ref i => exact hc
        simp only [this, Option.map_some]

/-- The mean of vectors, coordinate by coordinate. -/
def IsMean {d : ℕ} (rows : List (Fin d → K)) (m : Fin d → K) : Prop := ∀ j, m j * (rows.length : K) = (rows.map fun r => r j).sum

/-- Specification of one evaluation, as a function of values alone: the algorithm with the hyperparameters `x` is run once per seed on the problem;
the value is the mean over the runs. -/
def specHyper {d : ℕ} (fuel : ℕ) (set : C → X → Option C) (values : AlgState σ P S K → Option (Fin d → K)) (v : AlgValue C Pr σ P S K) (c : MinCall Pr S K)
    (T : Option (Crit S K)) (seeds : List ℕ) (x : X) : Option (Fin d → K) :=
  (set v.cfg x).bind fun cfg =>
    ((seeds.mapM fun s => specMinimize code fuel ⟨cfg, v.problem, v.seed, v.term, v.core⟩ c.problem T (some (some s)) c.entropy).bind fun rets =>
      rets.mapM values).bind colMean

theorem hyperEvaluate_spec {d : ℕ} (fuel : ℕ) (set : C → X → Option C) (values : AlgState σ P S K → Option (Fin d → K)) (c : MinCall Pr S K) (hcop : Copies c)
    (seeds : List ℕ) (W : World C Pr σ P S K) (hW : Sound W) (hc : ValidCall W c) (v : AlgValue C Pr σ P S K) (hv : valueAlg W c.alg = some v) (x : X) :
    (specHyper code fuel set values v c (callTerm W c) seeds x = none ∧ hyperEvaluate code fuel set values c seeds W x = none) ∨
    ∃ m W', specHyper code fuel set values v c (callTerm W c) seeds x = some m ∧ hyperEvaluate code fuel set values c seeds W x = some (W', m) ∧
      Extends W W' ∧ Sound W' := by
  unfold specHyper hyperEvaluate
  rcases hyperCreate_spec set W hW c.alg v hv x with ⟨h1, h2⟩ | ⟨cfg, W1, a1, h1, h2, h3, h4, h5, h6⟩
  · left; rw [h1, h2]; exact ⟨rfl, rfl⟩
  · rw [h1, h2]
    simp only [Option.bind_some]
    have hc1 : ValidCall W1 { c with alg := a1 } := ⟨h5, fun t ht => lt_of_lt_of_le (hc.term t ht) h3.2.length_le⟩
    have ht1 : callTerm W1 { c with alg := a1 } = callTerm W c := callTerm_extends h3 c hc
    rcases multiRun_spec code fuel { c with alg := a1 } hcop _ _ seeds W1 h4 hc1 h6 ht1 with ⟨k1, k2⟩ | ⟨rs, W2, k1, k2, k3, k4⟩
    · left
      simp only at k1
      rw [k1, k2]; exact ⟨rfl, rfl⟩
    · simp only at k1
      rw [k1, k2]
      simp only [Option.bind_some, statsMean]
      cases hm : (rs.mapM values).bind colMean with
      | none => left; exact ⟨rfl, rfl⟩
      | some m => right; exact ⟨m, W2, rfl, rfl, h3.trans k3, k4⟩

/-- **C113 (value).** The evaluation of hyperparameters `x` is the mean, over the seeds, of what the algorithm with exactly these
hyperparameters reaches. -/
theorem C113_value {d : ℕ} (fuel : ℕ) (set : C → X → Option C) (values : AlgState σ P S K → Option (Fin d → K)) (c : MinCall Pr S K) (hcop : Copies c)
    (seeds : List ℕ) (W : World C Pr σ P S K) (hW : Sound W) (hc : ValidCall W c) (v : AlgValue C Pr σ P S K) (hv : valueAlg W c.alg = some v) (x : X) :
    (hyperEvaluate code fuel set values c seeds W x).map Prod.snd = specHyper code fuel set values v c (callTerm W c) seeds x := by
  rcases hyperEvaluate_spec code fuel set values c hcop seeds W hW hc v hv x with ⟨h1, h2⟩ | ⟨m, W', h1, h2, -, -⟩ <;> rw [h1, h2] <;> rfl

/-- **C113 (mean).** What `specHyper` reports is a mean: there is one run per seed, each of them successful, and the value is their mean. -/
theorem C113_mean [CharZero K] {d : ℕ} (fuel : ℕ) (set : C → X → Option C) (values : AlgState σ P S K → Option (Fin d → K)) (c : MinCall Pr S K) (seeds : List ℕ)
    (v : AlgValue C Pr σ P S K) (T : Option (Crit S K)) (x : X) (m : Fin d → K) (h : specHyper code fuel set values v c T seeds x = some m) :
    ∃ cfg rows, set v.cfg x = some cfg ∧ seeds ≠ [] ∧ IsMean rows m ∧
      List.Forall₂ (fun s row => ∃ r, specMinimize code fuel ⟨cfg, v.problem, v.seed, v.term, v.core⟩ c.problem T (some (some s)) c.entropy = some r ∧
        values r = some row) seeds rows := by
  obtain ⟨cfg, h1, h⟩ := Option.bind_eq_some_iff.1 h
  obtain ⟨rows, h2, h⟩ := Option.bind_eq_some_iff.1 h
  obtain ⟨rets, h3, h4⟩ := Option.bind_eq_some_iff.1 h2
  unfold colMean at h
  split_ifs at h with hl
  obtain rfl := Option.some.inj h
  have g1 := mapM_forall _ _ _ h3
  have g2 := mapM_forall _ _ _ h4
  have g3 : List.Forall₂ (fun s row => ∃ r, specMinimize code fuel ⟨cfg, v.problem, v.seed, v.term, v.core⟩ c.problem T (some (some s)) c.entropy = some r ∧
        values r = some row) seeds rows := by
    clear * - g1 g2
    induction g1 generalizing rows with
    | nil => cases g2; exact .nil
    | cons ha _ ih => cases g2 with | cons hb hbs => exact .cons ⟨_, ha, hb⟩ (ih _ hbs)
  refine ⟨cfg, rows, h1, ?_, ?_, g3⟩
  · rintro rfl
    cases g3
    exact hl rfl
  · intro j
    rw [div_mul_cancel₀]
    exact_mod_cast hl

/-- **C113 (no side effects).** Evaluating changes neither the algorithm being tuned nor any other object. -/
theorem C113_no_side_effects {d : ℕ} (fuel : ℕ) (set : C → X → Option C) (values : AlgState σ P S K → Option (Fin d → K)) (c : MinCall Pr S K) (hcop : Copies c)
    (seeds : List ℕ) (W W' : World C Pr σ P S K) (hW : Sound W) (hc : ValidCall W c) (x : X) (m : Fin d → K)
    (h : hyperEvaluate code fuel set values c seeds W x = some (W', m)) : Extends W W' ∧ Sound W' := by
  obtain ⟨v, hv⟩ := hW.value c.alg hc.alg
  rcases hyperEvaluate_spec code fuel set values c hcop seeds W hW hc v hv x with ⟨-, h2⟩ | ⟨m', W'', -, h2, h3, h4⟩
  · rw [h2] at h; cases h
  · rw [h2] at h
    simp only [Option.some.injEq, Prod.mk.injEq] at h
    exact h.1 ▸ ⟨h3, h4⟩

/-- The result of a seeded run does not depend on the entropy of the system. -/
theorem specHyper_entropy {d : ℕ} (fuel : ℕ) (set : C → X → Option C) (values : AlgState σ P S K → Option (Fin d → K)) (v : AlgValue C Pr σ P S K)
    (c : MinCall Pr S K) (T : Option (Crit S K)) (seeds : List ℕ) (x : X) (e : ℕ) :
    specHyper code fuel set values v { c with entropy := e } T seeds x = specHyper code fuel set values v c T seeds x := by
  unfold specHyper specMinimize
  simp only [Option.getD_some]

/-- **C113 (independent evaluations).** Whatever has been evaluated before, and whatever the entropy of the system, every value is the one of the
specification: evaluating the same hyperparameters again gives the same value, and the order does not matter. -/
theorem C113_independent {d : ℕ} (fuel : ℕ) (set : C → X → Option C) (values : AlgState σ P S K → Option (Fin d → K)) (c : MinCall Pr S K) (hcop : Copies c)
    (seeds : List ℕ) (W : World C Pr σ P S K) (hW : Sound W) (hc : ValidCall W c) (v : AlgValue C Pr σ P S K) (hv : valueAlg W c.alg = some v)
    (xs : List X) (W' : World C Pr σ P S K) (ms : List (Fin d → K)) (h : hyperEvals code fuel set values c seeds W xs = some (W', ms)) :
    Extends W W' ∧ List.Forall₂ (fun x m => specHyper code fuel set values v c (callTerm W c) seeds x = some m) xs ms := by
  have key : ∀ (xs : List X) (W₁ : World C Pr σ P S K) (ms : List (Fin d → K)), Sound W₁ → Extends W W₁ →
      hyperEvals code fuel set values c seeds W₁ xs = some (W', ms) →
      Extends W W' ∧ List.Forall₂ (fun x m => specHyper code fuel set values v c (callTerm W c) seeds x = some m) xs ms := by
    intro xs
    induction xs with
    | nil =>
      intro W₁ ms h1 h2 h
      simp only [hyperEvals, Option.some.injEq, Prod.mk.injEq] at h
      rw [← h.1, ← h.2]; exact ⟨h2, .nil⟩
    | cons x xs ih =>
      intro W₁ ms h1 h2 h
      obtain ⟨⟨W₂, m⟩, h3, h⟩ := Option.bind_eq_some_iff.1 h
      obtain ⟨⟨W₃, rs⟩, h4, hh⟩ := Option.map_eq_some_iff.1 h
      simp only [Prod.mk.injEq] at hh
      rcases hyperEvaluate_spec code fuel set values c hcop seeds W₁ h1 (validCall_extends h2 c hc) v (extends_value h2 hv) x with
        ⟨-, k2⟩ | ⟨m', W₂', k1, k2, k3, k4⟩
      · rw [k2] at h3; cases h3
      · rw [k2] at h3
        simp only [Option.some.injEq, Prod.mk.injEq] at h3
        obtain ⟨rfl, rfl⟩ := h3
        obtain ⟨g1, g2⟩ := ih W₂' rs k4 (h2.trans k3) (by rw [h4, ← hh.1])
        rw [← hh.2]
        rw [callTerm_extends h2 c hc] at k1
        exact ⟨g1, .cons k1 g2⟩
  exact key xs W ms hW (.refl W) h

/-- **C113 (entropy).** The same, for the entropy. -/
theorem C113_seeded {d : ℕ} (fuel : ℕ) (set : C → X → Option C) (values : AlgState σ P S K → Option (Fin d → K)) (c : MinCall Pr S K) (hcop : Copies c)
    (seeds : List ℕ) (W : World C Pr σ P S K) (hW : Sound W) (hc : ValidCall W c) (x : X) (e : ℕ) :
    (hyperEvaluate code fuel set values { c with entropy := e } seeds W x).map Prod.snd = (hyperEvaluate code fuel set values c seeds W x).map Prod.snd := by
  obtain ⟨v, hv⟩ := hW.value c.alg hc.alg
  rw [C113_value code fuel set values c hcop seeds W hW hc v hv x,
    C113_value code fuel set values { c with entropy := e } hcop seeds W hW ⟨hc.alg, hc.term⟩ v hv x]
  exact specHyper_entropy code fuel set values v c _ seeds x e

/-- **C113 (a run without a feasible solution, refuted).** If one of the runs ends without values (no feasible solution found), the evaluation
of the hyperparameters raises instead of reporting an infeasible value. -/
theorem C113_infeasible_refuted {d : ℕ} (values : AlgState σ P S K → Option (Fin d → K)) (rets : List (AlgState σ P S K)) (r : AlgState σ P S K)
    (hr : r ∈ rets) (hv : values r = none) : statsMean values rets = none := by
  have : rets.mapM values = none := by
    induction rets with
    | nil => cases hr
    | cons a l ih =>
      rw [List.mapM_cons]
      rcases List.mem_cons.1 hr with rfl | hr
      · rw [hv]; rfl
      · rw [ih hr]
        cases values a <;> rfl
  unfold statsMean
  rw [this]; rfl

/-- **C113 (the parameters that are set).** With `create` of the library: the algorithm that is run has the values `x` under the paths named
by the keys of `x`, and is otherwise the algorithm being tuned. -/
theorem C113_parameters {α : Type} (cfg cfg' : List (PKey × PTree α)) (x : List (PKey × α)) (hn : (x.map Prod.fst).Nodup)
    (hp : ∀ e ∈ x, ∀ e' ∈ x, ¬ (e.1 ++ ['.']) <+: e'.1) (fuel : ℕ) (hf : ∀ e ∈ x, e.1.length < fuel) (hw : WellNamed (.node (hierarchicalDict fuel x)))
    (h : setParamItems (hierarchicalDict fuel x) cfg = some cfg') (path : List PKey) :
    (∀ k v, (k, v) ∈ x → path = splitDots k → look (.node cfg') path = .param v) ∧
    ((∀ k v, (k, v) ∈ x → path ≠ splitDots k) → look (.node cfg') path = look (.node cfg) path) := by
  obtain ⟨h1, h2⟩ := C36_set_params _ _ _ hw h path
  have h3 := (C36_hierarchical x hn hp fuel hf path).1
  refine ⟨fun k v hk hpath => h1 v ((h3 v).2 ⟨k, hk, hpath⟩), fun hno => h2 fun v hv => ?_⟩
  obtain ⟨k, hk, hpath⟩ := (h3 v).1 hv
  exact hno k v hk hpath

/-! ### a concrete case -/

/-- The counting algorithm with a configuration: the number added in each generation. -/
def exHyper : AlgCode ℕ Unit ℕ Unit Unit ℚ where
  start _ _ n := n
  hooks k _ :=
    { initInfill := fun s => (some (), s), infill := fun s => (some (), s), eval := fun _ s => (s + k, 1), initAdvance := fun _ s => s,
      advance := fun _ s => (none, s), setOptimum := id }
  default _ := .prim false 0 ()
  raw _ _ := nGenRaw 3

def exHyperWorld : World ℕ Unit ℕ Unit Unit ℚ := ⟨[⟨1, none, none, none, none⟩], [.prim false 0 ()]⟩

example : Sound exHyperWorld ∧ ValidCall exHyperWorld exCall ∧ Copies exCall ∧
    ((hyperEvals exHyper 10 (fun _ x => some x) (fun s => some fun (_ : Fin 1) => (s.st : ℚ)) exCall [4, 7] exHyperWorld [10, 2, 10]).map
      fun r => r.2.map fun f => f 0) = some [71 / 2, 23 / 2, 71 / 2] := by
  refine ⟨⟨?_, ?_⟩, ⟨by decide, ?_⟩, ⟨rfl, rfl⟩, by decide +kernel⟩
  · intro o ho t ht
    simp only [exHyperWorld, List.mem_singleton] at ho
    subst ho; cases ht
  · intro o ho hp
    simp only [exHyperWorld, List.mem_singleton] at ho
    subst ho; cases hp
  · intro t ht
    simp only [exCall, Option.some.injEq, TermArg.ref.injEq] at ht
    subst ht; decide

end Props
