import Verif.Model.Minimize
import Verif.Props.Algorithm
import Mathlib.Data.List.Infix

/-!
# C110: `minimize` leaves its arguments alone, is repeatable, and continues checkpoints
-/

set_option linter.unusedSimpArgs false
set_option linter.unusedVariables false
set_option linter.unusedSectionVars false

namespace Props

open Model

variable {C Pr σ P S K : Type*} [Field K] [LinearOrder K] (code : AlgCode C Pr σ P S K)

/-- All references to termination objects are valid. -/
def WellFormed (W : World C Pr σ P S K) : Prop := ∀ o ∈ W.algs, ∀ t, o.term = some (.ref t) → t < W.terms.length

/-- The objects of `W` are unchanged in `W'`, which may have more. -/
def Extends (W W' : World C Pr σ P S K) : Prop := W.algs <+: W'.algs ∧ W.terms <+: W'.terms

theorem Extends.refl (W : World C Pr σ P S K) : Extends W W := ⟨List.prefix_refl _, List.prefix_refl _⟩

theorem Extends.trans {W W' W'' : World C Pr σ P S K} (h : Extends W W') (h' : Extends W' W'') : Extends W W'' :=
  ⟨h.1.trans h'.1, h.2.trans h'.2⟩

theorem prefix_get {α : Type*} {l l' : List α} (h : l <+: l') {i : ℕ} {a : α} (ha : l[i]? = some a) : l'[i]? = some a := by
  obtain ⟨t, rfl⟩ := h
  have hlt : i < l.length := by
    by_contra hcon
    rw [List.getElem?_eq_none (by omega)] at ha; cases ha
  rw [List.getElem?_append_left hlt, ha]

theorem prefix_set {α : Type*} {l l' : List α} (h : l <+: l') {i : ℕ} (a : α) (hi : l.length ≤ i) : l <+: l'.set i a := by
  obtain ⟨t, rfl⟩ := h
  rw [List.set_append_right _ _ hi]
  exact List.prefix_append _ _

/-- The state of a termination handed over by the user. -/
def termValue (W : World C Pr σ P S K) : TermArg S K → Option (Crit S K)
  | .tuple c => some c
  | .ref t => W.terms[t]?

/-- What an algorithm object is worth: configuration, problem, seed, termination, state of the loop. -/
structure AlgValue (C Pr σ P S K : Type*) where
  cfg : C
  problem : Option Pr
  seed : Option ℕ
  term : Option (Crit S K)
  core : Option (AlgState σ P S K)

/-- The value of an object, read through its references. -/
def valueAlg (W : World C Pr σ P S K) (a : ℕ) : Option (AlgValue C Pr σ P S K) :=
  W.algs[a]?.bind fun o =>
    match o.term with
    | none => some ⟨o.cfg, o.problem, o.seed, none, o.core⟩
    | some t => (termValue W t).map fun c => ⟨o.cfg, o.problem, o.seed, some c, o.core⟩

/-- Running the loop and reading the result. -/
def runCore (fuel : ℕ) (cfg : C) (p : Pr) (s : AlgState σ P S K) : Option (AlgState σ P S K) :=
  (algRun (code.raw cfg p) (code.hooks cfg p) false false fuel s).bind fun s => if s.initialized then some s else none

/-- Specification: the result as a function of values alone. -/
def specMinimize (fuel : ℕ) (v : AlgValue C Pr σ P S K) (problem : Pr) (t : Option (Crit S K)) (seed : Option (Option ℕ)) (entropy : ℕ) :
    Option (AlgState σ P S K) :=
  match v.problem with
  | none =>
    let T := (t.orElse fun _ => v.term).getD (code.default problem)
    runCore code fuel v.cfg problem (algFresh (code.start v.cfg problem ((seed.getD v.seed).getD entropy)) T)
  | some p =>
    match v.term, v.core with
    | some T, some s => runCore code fuel v.cfg p { s with term := T }
    | _, _ => none

theorem runAlg_value (fuel : ℕ) (W : World C Pr σ P S K) (a : ℕ) (cfg : C) (p : Pr) (t : ℕ) (s : AlgState σ P S K)
    (h : loadAlg W a = some (cfg, p, t, s)) :
    runAlg code fuel W a = (runCore code fuel cfg p s).map fun r => (storeAlg W a t r, r) := by
  unfold runAlg runCore
  rw [h]
  simp only [Option.bind_some]
  cases algRun (code.raw cfg p) (code.hooks cfg p) false false fuel s with
  | none => rfl
  | some r =>
    simp only [Option.bind_some]
    split_ifs <;> rfl

theorem runAlg_none (fuel : ℕ) (W : World C Pr σ P S K) (a : ℕ) (h : loadAlg W a = none) : runAlg code fuel W a = none := by
  unfold runAlg; rw [h]; rfl

theorem copyTerm_spec (W : World C Pr σ P S K) (t : TermArg S K) (c : Crit S K) (h : termValue W t = some c) :
    ∃ W' t', copyTerm W t = some (W', t') ∧ Extends W W' ∧ W'.algs = W.algs ∧ termValue W' t' = some c ∧
      (∀ i, t' = .ref i → W.terms.length ≤ i) := by
  cases t with
  | tuple d => exact ⟨W, .tuple d, rfl, .refl W, rfl, h, by simp⟩
  | ref i =>
    have h' : W.terms[i]? = some c := h
    refine ⟨⟨W.algs, W.terms ++ [c]⟩, .ref W.terms.length, by simp [copyTerm, h'], ⟨List.prefix_refl _, List.prefix_append _ _⟩, rfl, ?_, ?_⟩
    · simp [termValue]
    · intro j hj; cases hj; exact le_rfl

theorem extends_termValue {W W' : World C Pr σ P S K} (h : Extends W W') {t : TermArg S K} {c : Crit S K} (ht : termValue W t = some c) :
    termValue W' t = some c := by
  cases t with
  | tuple d => exact ht
  | ref i => exact prefix_get h.2 ht

theorem extends_value {W W' : World C Pr σ P S K} (h : Extends W W') {a : ℕ} {v : AlgValue C Pr σ P S K} (hv : valueAlg W a = some v) :
    valueAlg W' a = some v := by
  obtain ⟨o, ho, hv⟩ := Option.bind_eq_some_iff.1 hv
  unfold valueAlg
  rw [prefix_get h.1 ho]
  simp only [Option.bind_some]
  cases ht : o.term with
  | none => rw [ht] at hv; exact hv
  | some t =>
    rw [ht] at hv
    obtain ⟨c, hc, hv⟩ := Option.map_eq_some_iff.1 hv
    simp only [extends_termValue h hc, Option.map_some, hv]

theorem copyAlg_spec (W : World C Pr σ P S K) (a : ℕ) (v : AlgValue C Pr σ P S K) (hv : valueAlg W a = some v) :
    ∃ W' a', copyAlg W a = some (W', a') ∧ Extends W W' ∧ valueAlg W' a' = some v ∧ W.algs.length ≤ a' ∧
      (∀ o t, W'.algs[a']? = some o → o.term = some (.ref t) → W.terms.length ≤ t) := by
  obtain ⟨o, ho, hv⟩ := Option.bind_eq_some_iff.1 hv
  cases ht : o.term with
  | none =>
    rw [ht] at hv
    refine ⟨⟨W.algs ++ [o], W.terms⟩, W.algs.length, by simp [copyAlg, ho, ht], ⟨List.prefix_append _ _, List.prefix_refl _⟩, ?_, le_rfl, ?_⟩
    · simp only [valueAlg, List.getElem?_append_right le_rfl, Nat.sub_self, List.getElem?_cons_zero, Option.bind_some, ht]
      exact hv
    · intro o' t ho' ht'
      simp only [List.getElem?_append_right le_rfl, Nat.sub_self, List.getElem?_cons_zero, Option.some.injEq] at ho'
      subst ho'
      rw [ht] at ht'; cases ht'
  | some t =>
    rw [ht] at hv
    obtain ⟨c, hc, hv⟩ := Option.map_eq_some_iff.1 hv
    obtain ⟨W1, t1, h1, h2, h3, h4, h5⟩ := copyTerm_spec W t c hc
    refine ⟨⟨W1.algs ++ [{ o with term := some t1 }], W1.terms⟩, W1.algs.length, by simp [copyAlg, ho, ht, h1],
      ⟨h2.1.trans (List.prefix_append _ _), h2.2⟩, ?_, by rw [h3], ?_⟩
    · simp only [valueAlg, List.getElem?_append_right le_rfl, Nat.sub_self, List.getElem?_cons_zero, Option.bind_some]
      have : termValue (⟨W1.algs ++ [{ o with term := some t1 }], W1.terms⟩ : World C Pr σ P S K) t1 = some c := by
        cases t1 with
        | tuple d => exact h4
        | ref i => exact h4
      simp only [this, Option.map_some, hv]
    · intro o' i ho' hi
      simp only [List.getElem?_append_right le_rfl, Nat.sub_self, List.getElem?_cons_zero, Option.some.injEq] at ho'
      subst ho'
      simp only [Option.some.injEq] at hi
      exact h5 i hi

theorem setupAlg_spec (W : World C Pr σ P S K) (a : ℕ) (v : AlgValue C Pr σ P S K) (hv : valueAlg W a = some v) (problem : Pr)
    (t : Option (TermArg S K)) (c : Option (Crit S K)) (hc : t.map (termValue W) = c.map some) (seed : Option (Option ℕ)) (entropy : ℕ) :
    ∃ W' i, setupAlg code W a problem t seed entropy = some W' ∧
      loadAlg W' a = some (v.cfg, problem, i, algFresh (code.start v.cfg problem ((seed.getD v.seed).getD entropy))
        ((c.orElse fun _ => v.term).getD (code.default problem))) ∧
      (∀ U : World C Pr σ P S K, Extends U W → U.algs.length ≤ a → Extends U W') ∧
      (∀ n, n ≤ W.terms.length → (∀ j, t = some (.ref j) → n ≤ j) → (t = none → ∀ o j, W.algs[a]? = some o → o.term = some (.ref j) → n ≤ j) → n ≤ i) ∧
      (∀ j, t = some (.ref j) → i = j) := by
  obtain ⟨o, ho, hv⟩ := Option.bind_eq_some_iff.1 hv
  have ha : a < W.algs.length := by
    by_contra hcon
    rw [List.getElem?_eq_none (by omega)] at ho; cases ho
  have hfields : v.cfg = o.cfg ∧ v.seed = o.seed ∧ (o.term = none ∧ v.term = none ∨ ∃ u d, o.term = some u ∧ termValue W u = some d ∧ v.term = some d) := by
    cases ht : o.term with
    | none => rw [ht] at hv; cases hv; exact ⟨rfl, rfl, .inl ⟨rfl, rfl⟩⟩
    | some u =>
      rw [ht] at hv
      obtain ⟨d, hd, hv⟩ := Option.map_eq_some_iff.1 hv
      cases hv
      exact ⟨rfl, rfl, .inr ⟨u, d, rfl, hd, rfl⟩⟩
  obtain ⟨e1, e2, e3⟩ := hfields
  -- the termination used
  have hres : ∀ (u : Option (TermArg S K)) (d : Option (Crit S K)), u.map (termValue W) = d.map some →
      ∃ W1 i, resolveTerm code problem W u = (W1, i) ∧ W1.algs = W.algs ∧ W.terms <+: W1.terms ∧ W1.terms[i]? = some (d.getD (code.default problem)) ∧
        (∀ n, n ≤ W.terms.length → (∀ j, u = some (.ref j) → n ≤ j) → n ≤ i) ∧ (∀ j, u = some (.ref j) → i = j) := by
    intro u d hud
    cases u with
    | none =>
      cases d with
      | some d => simp at hud
      | none =>
        exact ⟨_, _, rfl, rfl, List.prefix_append _ _, by simp, fun n hn _ => hn, by simp⟩
    | some u =>
      cases d with
      | none => simp at hud
      | some d =>
        simp only [Option.map_some, Option.some.injEq] at hud
        cases u with
        | tuple q =>
          simp only [termValue, Option.some.injEq] at hud
          subst hud
          exact ⟨_, _, rfl, rfl, List.prefix_append _ _, by simp, fun n hn _ => hn, by simp⟩
        | ref j =>
          exact ⟨_, _, rfl, rfl, List.prefix_refl _, hud, fun n hn h => h j rfl, by intro k hk; cases hk; rfl⟩
  obtain ⟨W1, i, h1, h2, h3, h4, h5, h6⟩ := hres (if t.isSome then t else o.term) (c.orElse fun _ => v.term) (by
    cases t with
    | some u =>
      cases c with
      | none => simp at hc
      | some d => simpa using hc
    | none =>
      cases c with
      | some d => simp at hc
      | none =>
        rcases e3 with ⟨h, h'⟩ | ⟨u, d, h, h', h''⟩
        · simp [h, h']
        · simp [h, h', h''])
  refine ⟨⟨W1.algs.set a ⟨o.cfg, some problem, seed.getD o.seed, some (.ref i),
      some (algFresh (code.start o.cfg problem ((seed.getD o.seed).getD entropy)) (code.default problem))⟩, W1.terms⟩, i, ?_, ?_, ?_, ?_, ?_⟩
  · simp only [setupAlg, ho, Option.map_some, h1]
  · simp only [loadAlg, h2, List.getElem?_set, ha, if_true, Option.bind_some, h4, Option.map_some, e1, e2]
    rfl
  · intro U hU hUa
    exact ⟨prefix_set (h2 ▸ hU.1) _ hUa, hU.2.trans h3⟩
  · intro n hn hj hj'
    refine h5 n hn ?_
    intro j hjj
    cases t with
    | some u => exact hj j (by simpa using hjj)
    | none => exact hj' rfl o j ho (by simpa using hjj)
  · intro j hj
    subst hj
    exact h6 j rfl

theorem load_of_value (W : World C Pr σ P S K) (a : ℕ) (v : AlgValue C Pr σ P S K) (hv : valueAlg W a = some v) (p : Pr) (hp : v.problem = some p)
    (hwf : ∀ o ∈ W.algs, o.problem.isSome → ∀ c, o.term ≠ some (.tuple c)) :
    (∃ i T s o, v.term = some T ∧ v.core = some s ∧ W.algs[a]? = some o ∧ o.term = some (.ref i) ∧ loadAlg W a = some (v.cfg, p, i, { s with term := T })) ∨
    ((v.term = none ∨ v.core = none) ∧ loadAlg W a = none) := by
  obtain ⟨o, ho, hv⟩ := Option.bind_eq_some_iff.1 hv
  cases ht : o.term with
  | none =>
    right
    rw [ht] at hv
    cases hv
    refine ⟨.inl rfl, ?_⟩
    simp only [loadAlg, ho, Option.bind_some, ht]
    cases o.problem <;> cases o.core <;> rfl
  | some u =>
    rw [ht] at hv
    obtain ⟨d, hd, hv⟩ := Option.map_eq_some_iff.1 hv
    cases hv
    simp only at hp
    cases hcore : o.core with
    | none =>
      right
      refine ⟨.inr rfl, ?_⟩
      simp only [loadAlg, ho, Option.bind_some, ht, hp, hcore]
    | some s =>
      cases u with
      | tuple c => exact absurd ht (hwf o (List.mem_of_getElem? ho) (by rw [hp]; rfl) c)
      | ref i =>
        left
        have hd' : W.terms[i]? = some d := hd
        exact ⟨i, d, s, o, rfl, rfl, ho, ht, by simp only [loadAlg, ho, Option.bind_some, ht, hp, hcore, hd', Option.map_some]⟩

theorem storeAlg_extends (U W : World C Pr σ P S K) (h : Extends U W) (a t : ℕ) (s : AlgState σ P S K) (ha : U.algs.length ≤ a)
    (ht : U.terms.length ≤ t) : Extends U (storeAlg W a t s) := by
  unfold storeAlg
  refine ⟨?_, prefix_set h.2 _ ht⟩
  simp only
  split
  · exact h.1
  · exact prefix_set h.1 _ ha

/-- The store as it can be: references are valid, and an algorithm that is set up has a termination object. -/
structure Sound (W : World C Pr σ P S K) : Prop where
  refs : WellFormed W
  setup : ∀ o ∈ W.algs, o.problem.isSome → ∃ t, o.term = some (.ref t)

theorem Sound.value {W : World C Pr σ P S K} (h : Sound W) (a : ℕ) (ha : a < W.algs.length) : ∃ v, valueAlg W a = some v := by
  unfold valueAlg
  rw [List.getElem?_eq_getElem ha]
  simp only [Option.bind_some]
  cases ht : W.algs[a].term with
  | none => exact ⟨_, rfl⟩
  | some t =>
    cases t with
    | tuple c => exact ⟨_, rfl⟩
    | ref i =>
      have := h.refs _ (List.getElem_mem ha) i ht
      simp only [termValue, List.getElem?_eq_getElem this, Option.map_some]
      exact ⟨_, rfl⟩

theorem Sound.noTuple {W : World C Pr σ P S K} (h : Sound W) : ∀ o ∈ W.algs, o.problem.isSome → ∀ c, o.term ≠ some (.tuple c) := by
  intro o ho hp c hc
  obtain ⟨t, ht⟩ := h.setup o ho hp
  rw [ht] at hc; cases hc

/-- A call refers to objects that exist. -/
structure ValidCall (W : World C Pr σ P S K) (c : MinCall Pr S K) : Prop where
  alg : c.alg < W.algs.length
  term : ∀ t, c.term = some (.ref t) → t < W.terms.length

/-- With the default arguments `copy_algorithm=True` and `copy_termination=True`. -/
def Copies (c : MinCall Pr S K) : Prop := c.copyAlg = true ∧ c.copyTerm = true

/-- The state of the termination of a call. -/
def callTerm (W : World C Pr σ P S K) (c : MinCall Pr S K) : Option (Crit S K) := c.term.bind (termValue W)

theorem minimize_spec (fuel : ℕ) (W : World C Pr σ P S K) (hW : Sound W) (c : MinCall Pr S K) (hc : ValidCall W c) (hcop : Copies c)
    (v : AlgValue C Pr σ P S K) (hv : valueAlg W c.alg = some v) :
    (specMinimize code fuel v c.problem (callTerm W c) c.seed c.entropy = none ∧ minimize code fuel W c = none) ∨
    ∃ r W', specMinimize code fuel v c.problem (callTerm W c) c.seed c.entropy = some r ∧ minimize code fuel W c = some (W', r) ∧ Extends W W' := by
  obtain ⟨W1, a1, h1, h2, h3, h4, h5⟩ := copyAlg_spec W c.alg v hv
  obtain ⟨o1, ho1, hv1⟩ := Option.bind_eq_some_iff.1 h3
  have hop : o1.problem = v.problem := by
    cases ht : o1.term with
    | none => rw [ht] at hv1; cases hv1; rfl
    | some u =>
      rw [ht] at hv1
      obtain ⟨d, hd, hv1⟩ := Option.map_eq_some_iff.1 hv1
      cases hv1; rfl
  cases hp : v.problem with
  | none =>
    -- set up
    have hterm : ∃ W2 t2, termOf W1 c = some (W2, t2) ∧ Extends W1 W2 ∧ W2.algs = W1.algs ∧ t2.map (termValue W2) = (callTerm W c).map some ∧
        (∀ j, t2 = some (.ref j) → W.terms.length ≤ j) := by
      unfold termOf callTerm
      cases ht : c.term with
      | none => exact ⟨W1, none, rfl, .refl _, rfl, rfl, by simp⟩
      | some t =>
        have hval : ∃ d, termValue W t = some d := by
          cases t with
          | tuple d => exact ⟨d, rfl⟩
          | ref i => exact ⟨_, List.getElem?_eq_getElem (hc.term i ht)⟩
        obtain ⟨d, hd⟩ := hval
        obtain ⟨W2, t2, g1, g2, g3, g4, g5⟩ := copyTerm_spec W1 t d (extends_termValue h2 hd)
        refine ⟨W2, some t2, by simp [hcop.2, g1], g2, g3, by simp [g4, hd], ?_⟩
        intro j hj
        simp only [Option.some.injEq] at hj
        exact le_trans h2.2.length_le (g5 j hj)
    obtain ⟨W2, t2, k1, k2, k3, k4, k5⟩ := hterm
    obtain ⟨W3, i, s1, s2, s3, s4, -⟩ := setupAlg_spec code W2 a1 v (extends_value k2 h3) c.problem t2 (callTerm W c) k4 c.seed c.entropy
    have hmin : minimize code fuel W c = runAlg code fuel W3 a1 := by
      unfold minimize
      rw [hcop.1]
      simp only [if_true, h1, Option.bind_some, ho1, hop, hp, Option.isNone_none, k1, s1]
    rw [runAlg_value code fuel W3 a1 _ _ _ _ s2] at hmin
    have hspec : specMinimize code fuel v c.problem (callTerm W c) c.seed c.entropy = runCore code fuel v.cfg c.problem
        (algFresh (code.start v.cfg c.problem ((c.seed.getD v.seed).getD c.entropy)) (((callTerm W c).orElse fun _ => v.term).getD (code.default c.problem))) := by
      unfold specMinimize
      rw [hp]
    rw [hspec]
    cases hr : runCore code fuel v.cfg c.problem _ with
    | none => left; rw [hr] at hmin; exact ⟨rfl, hmin⟩
    | some r =>
      right
      rw [hr] at hmin
      refine ⟨r, _, rfl, hmin, ?_⟩
      refine storeAlg_extends W W3 (s3 W (h2.trans k2) h4) a1 i r h4 ?_
      refine s4 _ (h2.trans k2).2.length_le k5 ?_
      intro hn o j ho hj
      rw [k3] at ho
      exact h5 o j ho hj
  | some p =>
    have hmin : minimize code fuel W c = runAlg code fuel W1 a1 := by
      unfold minimize
      rw [hcop.1]
      simp only [if_true, h1, Option.bind_some, ho1, hop, hp, Option.isNone_some, Bool.false_eq_true, if_false]
    have hwf : ∀ o ∈ W1.algs, o.problem.isSome → ∀ c, o.term ≠ some (.tuple c) := by
      obtain ⟨o, ho, hvo⟩ := Option.bind_eq_some_iff.1 hv
      cases hot : o.term with
      | none =>
        simp only [copyAlg, ho, Option.bind_some, hot, Option.some.injEq, Prod.mk.injEq] at h1
        rw [← h1.1]
        intro o' ho' hp' c hc'
        rcases List.mem_append.1 ho' with h | h
        · exact hW.noTuple o' h hp' c hc'
        · rw [List.mem_singleton.1 h, hot] at hc'; cases hc'
      | some u =>
        cases u with
        | tuple d =>
          rw [hot] at hvo
          obtain ⟨d', -, hvo⟩ := Option.map_eq_some_iff.1 hvo
          cases hvo
          simp only at hp
          exact absurd hot (hW.noTuple o (List.mem_of_getElem? ho) (by rw [hp]; rfl) d)
        | ref i =>
          have hlt := hW.refs o (List.mem_of_getElem? ho) i hot
          simp only [copyAlg, ho, Option.bind_some, hot, copyTerm, List.getElem?_eq_getElem hlt, Option.map_some, Option.some.injEq, Prod.mk.injEq] at h1
          rw [← h1.1]
          intro o' ho' hp' c hc'
          rcases List.mem_append.1 ho' with h | h
          · exact hW.noTuple o' h hp' c hc'
          · rw [List.mem_singleton.1 h] at hc'; cases hc'
    rcases load_of_value W1 a1 v h3 p hp hwf with ⟨i, T, s, o, e1, e2, e3, e4, e5⟩ | ⟨e1, e2⟩
    · rw [runAlg_value code fuel W1 a1 _ _ _ _ e5] at hmin
      have hspec : specMinimize code fuel v c.problem (callTerm W c) c.seed c.entropy = runCore code fuel v.cfg p { s with term := T } := by
        unfold specMinimize
        rw [hp]
        simp only [e1, e2]
      rw [hspec]
      cases hr : runCore code fuel v.cfg p { s with term := T } with
      | none => left; rw [hr] at hmin; exact ⟨rfl, hmin⟩
      | some r =>
        right
        rw [hr] at hmin
        exact ⟨r, _, rfl, hmin, storeAlg_extends W W1 h2 a1 i r h4 (h5 o i e3 e4)⟩
    · left
      rw [runAlg_none code fuel W1 a1 e2] at hmin
      refine ⟨?_, hmin⟩
      unfold specMinimize
      rw [hp]
      rcases e1 with e | e
      · simp only [e]
      · cases v.term <;> simp only [e]

/-- **C110 (no side effects).** With the default arguments, `minimize` changes none of the objects that existed before: neither the
algorithm, nor its termination, nor the termination handed over, nor anything else. -/
theorem C110_no_side_effects (fuel : ℕ) (W W' : World C Pr σ P S K) (hW : Sound W) (c : MinCall Pr S K) (hc : ValidCall W c) (hcop : Copies c)
    (r : AlgState σ P S K) (h : minimize code fuel W c = some (W', r)) : Extends W W' := by
  obtain ⟨v, hv⟩ := hW.value c.alg hc.alg
  rcases minimize_spec code fuel W hW c hc hcop v hv with ⟨-, h2⟩ | ⟨r', W'', -, h2, h3⟩
  · rw [h2] at h; cases h
  · rw [h2] at h
    simp only [Option.some.injEq, Prod.mk.injEq] at h
    rw [← h.1]; exact h3

/-- **C110 (a function of values).** The result is a function of the configuration of the algorithm, the problem, the seed and the state of
the termination. -/
theorem C110_result (fuel : ℕ) (W : World C Pr σ P S K) (hW : Sound W) (c : MinCall Pr S K) (hc : ValidCall W c) (hcop : Copies c)
    (v : AlgValue C Pr σ P S K) (hv : valueAlg W c.alg = some v) :
    (minimize code fuel W c).map Prod.snd = specMinimize code fuel v c.problem (callTerm W c) c.seed c.entropy := by
  rcases minimize_spec code fuel W hW c hc hcop v hv with ⟨h1, h2⟩ | ⟨r', W'', h1, h2, h3⟩ <;> rw [h1, h2] <;> rfl

/-- **C110 (repeatable).** A seeded call gives the same result whenever it is made: in any later state of the store in which the
objects it refers to are unchanged, whatever the operating system's entropy. -/
theorem C110_repeatable (fuel : ℕ) (W W₁ : World C Pr σ P S K) (hW : Sound W) (hW₁ : Sound W₁) (hext : Extends W W₁) (c : MinCall Pr S K)
    (hc : ValidCall W c) (hcop : Copies c) (n : ℕ) (hseed : c.seed = some (some n)) (entropy : ℕ) :
    (minimize code fuel W₁ { c with entropy := entropy }).map Prod.snd = (minimize code fuel W c).map Prod.snd := by
  obtain ⟨v, hv⟩ := hW.value c.alg hc.alg
  have hc₁ : ValidCall W₁ { c with entropy := entropy } :=
    ⟨lt_of_lt_of_le hc.alg hext.1.length_le, fun t ht => lt_of_lt_of_le (hc.term t ht) hext.2.length_le⟩
  rw [C110_result code fuel W hW c hc hcop v hv, C110_result code fuel W₁ hW₁ { c with entropy := entropy } hc₁ hcop v (extends_value hext hv)]
  have ht : callTerm W₁ { c with entropy := entropy } = callTerm W c := by
    unfold callTerm
    simp only
    cases hct : c.term with
    | none => rfl
    | some t =>
      simp only [Option.bind_some]
      cases t with
      | tuple d => rfl
      | ref i =>
        have := List.getElem?_eq_getElem (hc.term i hct)
        simp only [termValue, this, prefix_get hext.2 this]
  rw [ht]
  unfold specMinimize
  cases v.problem with
  | none => simp only [hseed, Option.getD_some]
  | some p => rfl

/-- **C110 (stops).** The run of a fresh algorithm ends exactly when the termination that was handed over says so: the state in
the result has terminated, and the run has been driven by that termination. -/
theorem C110_stops (fuel : ℕ) (W W' : World C Pr σ P S K) (hW : Sound W) (c : MinCall Pr S K) (hc : ValidCall W c) (hcop : Copies c)
    (v : AlgValue C Pr σ P S K) (hv : valueAlg W c.alg = some v) (hfresh : v.problem = none) (T : Crit S K) (hT : callTerm W c = some T)
    (n : ℕ) (hseed : c.seed = some (some n)) (r : AlgState σ P S K) (h : minimize code fuel W c = some (W', r)) :
    r.term.hasTerminated = true ∧ r.initialized = true ∧
      algRun (code.raw v.cfg c.problem) (code.hooks v.cfg c.problem) false false fuel (algFresh (code.start v.cfg c.problem n) T) = some r := by
  have h1 := C110_result code fuel W hW c hc hcop v hv
  rw [h] at h1
  unfold specMinimize at h1
  rw [hfresh] at h1
  simp only [Option.map_some, hT, hseed, Option.getD_some] at h1
  have h2 := h1.symm
  change runCore code fuel v.cfg c.problem (algFresh (code.start v.cfg c.problem n) T) = some r at h2
  unfold runCore at h2
  obtain ⟨s, hs, h3⟩ := Option.bind_eq_some_iff.1 h2
  split_ifs at h3 with hi
  obtain rfl := Option.some.inj h3
  refine ⟨?_, hi, hs⟩
  have : ∀ (fuel : ℕ) (s0 : AlgState σ P S K), algRun (code.raw v.cfg c.problem) (code.hooks v.cfg c.problem) false false fuel s0 = some s →
      algHasNext s = false := by
    intro fuel
    induction fuel with
    | zero =>
      intro s0 h
      simp only [algRun] at h
      split_ifs at h with hn
      obtain rfl := Option.some.inj h
      simpa using hn
    | succ fuel ih =>
      intro s0 h
      simp only [algRun] at h
      split_ifs at h with hn
      · cases hx : algNext (code.raw v.cfg c.problem) (code.hooks v.cfg c.problem) false false s0 with
        | none => rw [hx] at h; cases h
        | some s1 => rw [hx] at h; exact ih s1 h
      · obtain rfl := Option.some.inj h
        simpa using hn
  have := this fuel _ hs
  unfold algHasNext at this
  simpa using this

/-- **C110 (already set up, refuted).** If the algorithm has been set up before, the problem, the termination and the seed handed to
`minimize` are ignored: the result is the same whatever they are. -/
theorem C110_ignored_refuted (fuel : ℕ) (W : World C Pr σ P S K) (hW : Sound W) (c c' : MinCall Pr S K) (hc : ValidCall W c) (hc' : ValidCall W c')
    (hcop : Copies c) (hcop' : Copies c') (halg : c'.alg = c.alg) (v : AlgValue C Pr σ P S K) (hv : valueAlg W c.alg = some v) (p : Pr)
    (hset : v.problem = some p) :
    (minimize code fuel W c').map Prod.snd = (minimize code fuel W c).map Prod.snd := by
  rw [C110_result code fuel W hW c hc hcop v hv, C110_result code fuel W hW c' hc' hcop' v (halg ▸ hv)]
  unfold specMinimize
  rw [hset]

/-- **C110 (continuing a finished run, refuted).** In particular, if its run is over, `minimize` with any termination - more
generations, say - returns the old state at once. -/
theorem C110_finished_refuted (fuel : ℕ) (W : World C Pr σ P S K) (hW : Sound W) (c : MinCall Pr S K) (hc : ValidCall W c) (hcop : Copies c)
    (v : AlgValue C Pr σ P S K) (hv : valueAlg W c.alg = some v) (p : Pr) (hset : v.problem = some p) (T : Crit S K) (s : AlgState σ P S K)
    (hT : v.term = some T) (hs : v.core = some s) (hover : T.hasTerminated = true) (hi : s.initialized = true) :
    (minimize code fuel W c).map Prod.snd = some { s with term := T } := by
  rw [C110_result code fuel W hW c hc hcop v hv]
  unfold specMinimize
  rw [hset]
  simp only [hT, hs]
  unfold runCore
  rw [C18_run_terminated _ _ _ _ _ _ (by simp [algHasNext, hover])]
  simp [hi]

/-- **C110 (terminations are not reusable, refuted).** With `copy_termination=False`, a termination object with which a run has ended makes
every further call of `minimize` with it raise. -/
theorem C110_shared_refuted (fuel : ℕ) (W : World C Pr σ P S K) (hW : Sound W) (c : MinCall Pr S K) (hc : ValidCall W c) (hca : c.copyAlg = true)
    (hct : c.copyTerm = false) (v : AlgValue C Pr σ P S K) (hv : valueAlg W c.alg = some v) (hfresh : v.problem = none) (t : ℕ)
    (ht : c.term = some (.ref t)) (T : Crit S K) (hT : W.terms[t]? = some T) (hover : T.hasTerminated = true) :
    minimize code fuel W c = none := by
  obtain ⟨W1, a1, h1, h2, h3, h4, h5⟩ := copyAlg_spec W c.alg v hv
  obtain ⟨o1, ho1, hv1⟩ := Option.bind_eq_some_iff.1 h3
  have hop : o1.problem = none := by
    rw [← hfresh]
    cases ht : o1.term with
    | none => rw [ht] at hv1; cases hv1; rfl
    | some u =>
      rw [ht] at hv1
      obtain ⟨d, hd, hv1⟩ := Option.map_eq_some_iff.1 hv1
      cases hv1; rfl
  have hT1 : termValue W1 (.ref t) = some T := prefix_get h2.2 hT
  obtain ⟨W3, i, s1, s2, s3, s4, -⟩ := setupAlg_spec code W1 a1 v h3 c.problem (some (.ref t)) (some T) (by simp [hT1]) c.seed c.entropy
  unfold minimize
  rw [hca]
  simp only [if_true, h1, Option.bind_some, ho1, hop, Option.isNone_none, termOf, ht, hct, Bool.false_eq_true, if_false, s1]
  rw [runAlg_value code fuel W3 a1 _ _ _ _ s2]
  unfold runCore
  rw [C18_run_terminated _ _ _ _ _ _ (by simp [algHasNext, algFresh, hover])]
  simp [algFresh]

/-- The run that ends with a shared termination object leaves it terminated. -/
theorem C110_shared_terminated (fuel : ℕ) (W W' : World C Pr σ P S K) (hW : Sound W) (c : MinCall Pr S K) (hc : ValidCall W c) (hca : c.copyAlg = true)
    (hct : c.copyTerm = false) (v : AlgValue C Pr σ P S K) (hv : valueAlg W c.alg = some v) (hfresh : v.problem = none) (t : ℕ)
    (ht : c.term = some (.ref t)) (r : AlgState σ P S K) (h : minimize code fuel W c = some (W', r)) :
    W'.terms[t]? = some r.term := by
  obtain ⟨W1, a1, h1, h2, h3, h4, h5⟩ := copyAlg_spec W c.alg v hv
  obtain ⟨o1, ho1, hv1⟩ := Option.bind_eq_some_iff.1 h3
  have hop : o1.problem = none := by
    rw [← hfresh]
    cases ht : o1.term with
    | none => rw [ht] at hv1; cases hv1; rfl
    | some u =>
      rw [ht] at hv1
      obtain ⟨d, hd, hv1⟩ := Option.map_eq_some_iff.1 hv1
      cases hv1; rfl
  have hlt := hc.term t ht
  have hT1 : termValue W1 (.ref t) = some W.terms[t] := prefix_get h2.2 (List.getElem?_eq_getElem hlt)
  obtain ⟨W3, i, s1, s2, s3, s4, s5⟩ := setupAlg_spec code W1 a1 v h3 c.problem (some (.ref t)) (some W.terms[t]) (by simp [hT1]) c.seed c.entropy
  obtain rfl := s5 t rfl
  unfold minimize at h
  rw [hca] at h
  simp only [if_true, h1, Option.bind_some, ho1, hop, Option.isNone_none, termOf, ht, hct, Bool.false_eq_true, if_false, s1] at h
  rw [runAlg_value code fuel W3 a1 _ _ _ _ s2] at h
  obtain ⟨r', hr', h⟩ := Option.map_eq_some_iff.1 h
  simp only [Prod.mk.injEq] at h
  obtain ⟨rfl, rfl⟩ := h
  have hlen : i < W3.terms.length := lt_of_lt_of_le hlt ((s3 W h2 h4).2.length_le)
  simp [storeAlg, hlen]

/-- `k` calls of `algorithm.next()`, each made only if the run is not over. -/
def nextsAlg : ℕ → World C Pr σ P S K → ℕ → Option (World C Pr σ P S K)
  | 0, W, _ => some W
  | k + 1, W, a => (loadAlg W a).bind fun l => if algHasNext l.2.2.2 then (nextAlg code W a).bind fun W' => nextsAlg k W' a else none

theorem load_store (W : World C Pr σ P S K) (a : ℕ) (cfg : C) (p : Pr) (t : ℕ) (s s' : AlgState σ P S K) (h : loadAlg W a = some (cfg, p, t, s)) :
    loadAlg (storeAlg W a t s') a = some (cfg, p, t, s') := by
  obtain ⟨o, ho, h⟩ := Option.bind_eq_some_iff.1 h
  have ha : a < W.algs.length := by
    by_contra hcon
    rw [List.getElem?_eq_none (by omega)] at ho; cases ho
  split at h
  case h_1 q u c0 hp ht hs =>
    obtain ⟨c, hc, h⟩ := Option.map_eq_some_iff.1 h
    simp only [Prod.mk.injEq] at h
    obtain ⟨rfl, rfl, rfl, -⟩ := h
    have hlt : u < W.terms.length := by
      by_contra hcon
      rw [List.getElem?_eq_none (Nat.le_of_not_lt hcon)] at hc; cases hc
    simp only [loadAlg, storeAlg, ho, List.getElem?_set, ha, if_true, Option.bind_some, hp, ht, hlt, Option.map_some]
  case h_2 => cases h

theorem value_of_load (W : World C Pr σ P S K) (a : ℕ) (cfg : C) (p : Pr) (t : ℕ) (s : AlgState σ P S K) (h : loadAlg W a = some (cfg, p, t, s)) :
    ∃ v, valueAlg W a = some v ∧ v.cfg = cfg ∧ v.problem = some p ∧ v.term = some s.term ∧ ∃ s0, v.core = some s0 ∧ { s0 with term := s.term } = s := by
  obtain ⟨o, ho, h⟩ := Option.bind_eq_some_iff.1 h
  split at h
  case h_1 q u c0 hp ht hs =>
    obtain ⟨c, hc, h⟩ := Option.map_eq_some_iff.1 h
    simp only [Prod.mk.injEq] at h
    obtain ⟨rfl, rfl, rfl, rfl⟩ := h
    refine ⟨⟨o.cfg, o.problem, o.seed, some c, o.core⟩, ?_, rfl, hp, rfl, c0, hs, rfl⟩
    simp only [valueAlg, ho, Option.bind_some, ht, termValue, hc, Option.map_some]
  case h_2 => cases h

theorem nexts_run (fuel k : ℕ) (W Wk : World C Pr σ P S K) (a : ℕ) (hk : nextsAlg code k W a = some Wk) (cfg : C) (p : Pr) (t : ℕ)
    (s : AlgState σ P S K) (hl : loadAlg W a = some (cfg, p, t, s)) :
    ∃ sk, loadAlg Wk a = some (cfg, p, t, sk) ∧ runCore code (k + fuel) cfg p s = runCore code fuel cfg p sk ∧
      Wk.algs.length = W.algs.length ∧ Wk.terms.length = W.terms.length := by
  induction k generalizing W s with
  | zero =>
    simp only [nextsAlg, Option.some.injEq] at hk
    subst hk
    exact ⟨s, hl, by rw [Nat.zero_add], rfl, rfl⟩
  | succ k ih =>
    rw [nextsAlg, hl] at hk
    simp only [Option.bind_some] at hk
    split_ifs at hk with hn
    obtain ⟨W1, hW1, hk⟩ := Option.bind_eq_some_iff.1 hk
    unfold nextAlg at hW1
    rw [hl] at hW1
    simp only [Option.bind_some] at hW1
    obtain ⟨s1, hs1, rfl⟩ := Option.map_eq_some_iff.1 hW1
    obtain ⟨sk, h1, h2, h3, h4⟩ := ih _ hk s1 (load_store W a cfg p t s s1 hl)
    refine ⟨sk, h1, ?_, ?_, ?_⟩
    · rw [← h2, Nat.succ_add]
      unfold runCore
      rw [algRun, if_pos hn, hs1]
    · rw [h3]; unfold storeAlg; simp only; split <;> simp
    · rw [h4]; simp [storeAlg]

/-- **C110 (checkpoints).** Take an algorithm that has been set up, advance it by any number of generations with `next()`, and then hand
it to `minimize`: the result is the one `minimize` gives without the interruption. -/
theorem C110_checkpoint (fuel k : ℕ) (W Wk : World C Pr σ P S K) (hW : Sound W) (hWk : Sound Wk) (c : MinCall Pr S K) (hc : ValidCall W c)
    (hcop : Copies c) (hk : nextsAlg code k W c.alg = some Wk) (cfg : C) (p : Pr) (t : ℕ) (s : AlgState σ P S K)
    (hl : loadAlg W c.alg = some (cfg, p, t, s)) :
    (minimize code fuel Wk c).map Prod.snd = (minimize code (k + fuel) W c).map Prod.snd := by
  obtain ⟨sk, h1, h2, h3, h4⟩ := nexts_run code fuel k W Wk c.alg hk cfg p t s hl
  have hck : ValidCall Wk c := ⟨by rw [h3]; exact hc.alg, fun t ht => by rw [h4]; exact hc.term t ht⟩
  obtain ⟨v, v1, v2, v3, v4, s0, v5, v6⟩ := value_of_load W c.alg cfg p t s hl
  obtain ⟨w, w1, w2, w3, w4, s0', w5, w6⟩ := value_of_load Wk c.alg cfg p t sk h1
  rw [C110_result code _ W hW c hc hcop v v1, C110_result code _ Wk hWk c hck hcop w w1]
  unfold specMinimize
  rw [v3, w3]
  simp only [v4, v5, w4, w5, v2, w2]
  rw [v6, w6, h2]

/-! ### sequences of calls -/

theorem Sound.copyTerm {W W' : World C Pr σ P S K} (h : Sound W) (t t' : TermArg S K) (hc : Model.copyTerm W t = some (W', t')) :
    Sound W' ∧ (∀ i, t' = .ref i → i < W'.terms.length) ∧ W'.algs = W.algs ∧ W.terms.length ≤ W'.terms.length := by
  cases t with
  | tuple d =>
    simp only [Model.copyTerm, Option.some.injEq, Prod.mk.injEq] at hc
    obtain ⟨rfl, rfl⟩ := hc
    exact ⟨h, by simp, rfl, le_rfl⟩
  | ref i =>
    obtain ⟨c, hc1, hc⟩ := Option.map_eq_some_iff.1 hc
    simp only [Prod.mk.injEq] at hc
    obtain ⟨rfl, rfl⟩ := hc
    refine ⟨⟨fun o ho t ht => ?_, h.setup⟩, ?_, rfl, by simp⟩
    · have := h.refs o ho t ht
      simp only [List.length_append, List.length_singleton]; omega
    · intro j hj; cases hj; simp

theorem Sound.copyAlg {W W' : World C Pr σ P S K} (h : Sound W) (a a' : ℕ) (hc : Model.copyAlg W a = some (W', a')) : Sound W' := by
  obtain ⟨o, ho, hc⟩ := Option.bind_eq_some_iff.1 hc
  have hmem := List.mem_of_getElem? ho
  cases ht : o.term with
  | none =>
    rw [ht] at hc
    simp only [Option.some.injEq, Prod.mk.injEq] at hc
    obtain ⟨rfl, rfl⟩ := hc
    constructor
    · intro o' ho' t ht'
      rcases List.mem_append.1 ho' with hm | hm
      · exact h.refs o' hm t ht'
      · rw [List.mem_singleton.1 hm] at ht'; exact h.refs o hmem t ht'
    · intro o' ho' hp
      rcases List.mem_append.1 ho' with hm | hm
      · exact h.setup o' hm hp
      · rw [List.mem_singleton.1 hm] at hp ⊢; exact h.setup o hmem hp
  | some t =>
    rw [ht] at hc
    obtain ⟨⟨W1, t1⟩, h1, hc⟩ := Option.map_eq_some_iff.1 hc
    simp only [Prod.mk.injEq] at hc
    obtain ⟨rfl, rfl⟩ := hc
    obtain ⟨k1, k2, k3, k4⟩ := h.copyTerm t t1 h1
    constructor
    · intro o' ho' i hi
      rcases List.mem_append.1 ho' with hm | hm
      · exact k1.refs o' hm i hi
      · rw [List.mem_singleton.1 hm] at hi
        exact k2 i (by simpa using hi)
    · intro o' ho' hp
      rcases List.mem_append.1 ho' with hm | hm
      · exact k1.setup o' hm hp
      · rw [List.mem_singleton.1 hm] at hp ⊢
        obtain ⟨j, hj⟩ := h.setup o hmem hp
        rw [ht] at hj
        obtain rfl := Option.some.inj hj
        obtain ⟨c, -, hc⟩ := Option.map_eq_some_iff.1 h1
        simp only [Prod.mk.injEq] at hc
        exact ⟨W.terms.length, by rw [← hc.2]⟩

theorem Sound.storeAlg {W : World C Pr σ P S K} (h : Sound W) (a t : ℕ) (s : AlgState σ P S K) : Sound (storeAlg W a t s) := by
  have key : ∀ o ∈ (Model.storeAlg W a t s).algs, ∃ o' ∈ W.algs, o.term = o'.term ∧ o.problem = o'.problem := by
    intro o ho
    unfold Model.storeAlg at ho
    simp only at ho
    split at ho
    · exact ⟨o, ho, rfl, rfl⟩
    · rename_i o1 ho1
      rcases List.mem_or_eq_of_mem_set ho with hm | rfl
      · exact ⟨o, hm, rfl, rfl⟩
      · exact ⟨o1, List.mem_of_getElem? ho1, rfl, rfl⟩
  constructor
  · intro o ho i hi
    obtain ⟨o', h1, h2, -⟩ := key o ho
    have := h.refs o' h1 i (h2 ▸ hi)
    simpa [Model.storeAlg] using this
  · intro o ho hp
    obtain ⟨o', h1, h2, h3⟩ := key o ho
    rw [h2]; exact h.setup o' h1 (h3 ▸ hp)

theorem Sound.setupAlg {W W' : World C Pr σ P S K} (h : Sound W) (a : ℕ) (problem : Pr) (t : Option (TermArg S K))
    (ht : ∀ i, t = some (.ref i) → i < W.terms.length) (seed : Option (Option ℕ)) (entropy : ℕ)
    (hs : Model.setupAlg code W a problem t seed entropy = some W') : Sound W' := by
  obtain ⟨o, ho, hs⟩ := Option.map_eq_some_iff.1 hs
  have hmem := List.mem_of_getElem? ho
  have hres : ∀ u : Option (TermArg S K), (∀ i, u = some (.ref i) → i < W.terms.length) →
      (resolveTerm code problem W u).1.algs = W.algs ∧ W.terms.length ≤ (resolveTerm code problem W u).1.terms.length ∧
      (resolveTerm code problem W u).2 < (resolveTerm code problem W u).1.terms.length := by
    intro u hu
    rcases u with - | (i | c)
    · simp [resolveTerm]
    · exact ⟨rfl, le_rfl, hu i rfl⟩
    · simp [resolveTerm]
  obtain ⟨r1, r2, r3⟩ := hres (if t.isSome then t else o.term) (by
    intro i hi
    cases t with
    | some u => exact ht i (by simpa using hi)
    | none => exact h.refs o hmem i (by simpa using hi))
  subst hs
  constructor
  · intro o' ho' i hi
    simp only at ho' ⊢
    rw [r1] at ho'
    rcases List.mem_or_eq_of_mem_set ho' with hm | rfl
    · exact lt_of_lt_of_le (h.refs o' hm i hi) r2
    · simp only [Option.some.injEq, TermArg.ref.injEq] at hi
      rw [← hi]; exact r3
  · intro o' ho' hp
    simp only at ho'
    rw [r1] at ho'
    rcases List.mem_or_eq_of_mem_set ho' with hm | rfl
    · exact h.setup o' hm hp
    · exact ⟨_, rfl⟩

theorem sound_runAlg {W W' : World C Pr σ P S K} (h : Sound W) (fuel a : ℕ) (r : AlgState σ P S K) (hr : runAlg code fuel W a = some (W', r)) :
    Sound W' := by
  obtain ⟨l, -, hr⟩ := Option.bind_eq_some_iff.1 hr
  obtain ⟨s, -, hr⟩ := Option.bind_eq_some_iff.1 hr
  split_ifs at hr
  simp only [Option.some.injEq, Prod.mk.injEq] at hr
  rw [← hr.1]
  exact h.storeAlg _ _ _

/-- `minimize` keeps the store sound. -/
theorem sound_minimize {W W' : World C Pr σ P S K} (h : Sound W) (fuel : ℕ) (c : MinCall Pr S K) (hc : ValidCall W c) (hcop : Copies c)
    (r : AlgState σ P S K) (hr : minimize code fuel W c = some (W', r)) : Sound W' := by
  unfold minimize at hr
  rw [hcop.1] at hr
  simp only [if_true] at hr
  obtain ⟨⟨W1, a1⟩, h1, hr⟩ := Option.bind_eq_some_iff.1 hr
  have s1 := h.copyAlg _ _ h1
  obtain ⟨o, -, hr⟩ := Option.bind_eq_some_iff.1 hr
  split_ifs at hr
  · obtain ⟨⟨W2, t2⟩, h2, hr⟩ := Option.bind_eq_some_iff.1 hr
    obtain ⟨W3, h3, hr⟩ := Option.bind_eq_some_iff.1 hr
    refine sound_runAlg code ?_ fuel _ r hr
    have : Sound W2 ∧ ∀ i, t2 = some (.ref i) → i < W2.terms.length := by
      unfold termOf at h2
      cases ht : c.term with
      | none =>
        rw [ht] at h2
        simp only [Option.some.injEq, Prod.mk.injEq] at h2
        obtain ⟨rfl, rfl⟩ := h2
        exact ⟨s1, by simp⟩
      | some t =>
        rw [ht] at h2
        simp only [hcop.2, if_true] at h2
        obtain ⟨⟨W4, t4⟩, h4, h2⟩ := Option.map_eq_some_iff.1 h2
        simp only [Prod.mk.injEq] at h2
        obtain ⟨rfl, rfl⟩ := h2
        obtain ⟨k1, k2, -, -⟩ := s1.copyTerm t t4 h4
        exact ⟨k1, fun i hi => k2 i (by simpa using hi)⟩
    exact this.1.setupAlg code a1 c.problem t2 this.2 _ _ h3
  · exact sound_runAlg code s1 fuel _ r hr

/-- Calls of `minimize` one after the other. -/
def calls (fuel : ℕ) : World C Pr σ P S K → List (MinCall Pr S K) → Option (World C Pr σ P S K)
  | W, [] => some W
  | W, c :: cs => (minimize code fuel W c).bind fun r => calls fuel r.1 cs

/-- **C110 (independent runs).** Any number of runs may have been made in between, with the same or other algorithms: a seeded call with the
default arguments gives the result it would have given at the beginning, and all objects of the user are still as they were. -/
theorem C110_independent (fuel : ℕ) (cs : List (MinCall Pr S K)) (W W₁ : World C Pr σ P S K) (hW : Sound W)
    (hcs : ∀ d ∈ cs, ValidCall W d ∧ Copies d) (hrun : calls code fuel W cs = some W₁) (c : MinCall Pr S K) (hc : ValidCall W c) (hcop : Copies c)
    (n : ℕ) (hseed : c.seed = some (some n)) (entropy : ℕ) :
    Extends W W₁ ∧ (minimize code fuel W₁ { c with entropy := entropy }).map Prod.snd = (minimize code fuel W c).map Prod.snd := by
  have key : ∀ (cs : List (MinCall Pr S K)) (W₂ : World C Pr σ P S K), Sound W₂ → Extends W W₂ → (∀ d ∈ cs, ValidCall W d ∧ Copies d) →
      calls code fuel W₂ cs = some W₁ → Sound W₁ ∧ Extends W W₁ := by
    intro cs
    induction cs with
    | nil => intro W₂ h1 h2 _ h3; simp only [calls, Option.some.injEq] at h3; exact h3 ▸ ⟨h1, h2⟩
    | cons d cs ih =>
      intro W₂ h1 h2 h3 h4
      obtain ⟨⟨W₃, r⟩, h5, h6⟩ := Option.bind_eq_some_iff.1 h4
      obtain ⟨hv, hd⟩ := h3 d (List.mem_cons_self ..)
      have hv2 : ValidCall W₂ d := ⟨lt_of_lt_of_le hv.alg h2.1.length_le, fun t ht => lt_of_lt_of_le (hv.term t ht) h2.2.length_le⟩
      exact ih W₃ (sound_minimize code h1 fuel d hv2 hd r h5) (h2.trans (C110_no_side_effects code fuel W₂ W₃ h1 d hv2 hd r h5))
        (fun e he => h3 e (List.mem_cons_of_mem _ he)) h6
  obtain ⟨h1, h2⟩ := key cs W hW (.refl W) hcs hrun
  exact ⟨h2, C110_repeatable code fuel W W₁ hW h1 h2 c hc hcop n hseed entropy⟩

/-! ### a concrete case -/

/-- An algorithm that counts: the state is a number, started with the seed, and grows by one in each generation. -/
def exCode : AlgCode Unit Unit ℕ Unit Unit ℚ where
  start _ _ n := n
  hooks _ _ :=
    { initInfill := fun s => (some (), s), infill := fun s => (some (), s), eval := fun _ s => (s + 1, 1), initAdvance := fun _ s => s,
      advance := fun _ s => (none, s), setOptimum := id }
  default _ := .prim false 0 ()
  raw _ _ := nGenRaw 3

/-- One algorithm that has not been set up, one termination object. -/
def exWorld : World Unit Unit ℕ Unit Unit ℚ := ⟨[⟨(), none, none, none, none⟩], [.prim false 0 ()]⟩

/-- `minimize(problem, algorithm, termination, seed=7)`. -/
def exCall : MinCall Unit Unit ℚ := ⟨(), 0, some (.ref 0), true, true, some (some 7), 0⟩

example : Sound exWorld ∧ ValidCall exWorld exCall ∧ Copies exCall ∧ (minimize exCode 10 exWorld exCall).map (fun r => (r.2.st, r.2.nEval, r.2.callbacks)) =
    some (10, 3, [1, 2, 3]) := by
  refine ⟨⟨?_, ?_⟩, ⟨by decide, ?_⟩, ⟨rfl, rfl⟩, by decide +kernel⟩
  · intro o ho t ht
    simp only [exWorld, List.mem_singleton] at ho
    subst ho; cases ht
  · intro o ho hp
    simp only [exWorld, List.mem_singleton] at ho
    subst ho; cases hp
  · intro t ht
    simp only [exCall, Option.some.injEq, TermArg.ref.injEq] at ht
    subst ht; decide

/-- Two runs with the same termination object and `copy_termination=False`: the second raises. -/
example : ((minimize exCode 10 exWorld { exCall with copyTerm := false }).bind fun r =>
    minimize exCode 10 r.1 { exCall with copyTerm := false }).isNone = true ∧
    (minimize exCode 10 exWorld { exCall with copyTerm := false }).isSome = true := by
  constructor <;> decide +kernel

end Props
