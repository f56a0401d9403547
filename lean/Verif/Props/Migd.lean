import Verif.Model.Migd
import Verif.Props.Indicators
import Verif.Props.Observers
import Mathlib.Tactic.Ring

/-! # C157: the MIGD callback -/

set_option linter.unusedSimpArgs false
set_option linter.unusedVariables false

namespace Props
open Model Spec Lemmas

variable {X : Type*} {m : ℕ}

/-- The ticks of the clock in a history. -/
def migdTicks : List (MigdOp X m) → ℕ
  | [] => 0
  | .prob (.tic e) :: l => e + migdTicks l
  | _ :: l => migdTicks l

/-- The population at the end of a history that started with `pop`. -/
def migdPop (pop : List (X × (Fin m → ℝ))) : List (MigdOp X m) → List (X × (Fin m → ℝ))
  | [] => pop
  | .advance p :: l => migdPop p l
  | _ :: l => migdPop pop l

/-- How often the callback has been called. -/
def migdCalls : List (MigdOp X m) → ℕ
  | [] => 0
  | .update :: l => migdCalls l + 1
  | _ :: l => migdCalls l

/-- The time on a clock that has made `tau` ticks. -/
def clock (nt taut tau : ℕ) : ℚ := ((tau / taut : ℕ) : ℚ) / nt

theorem migdIgd_eq (moo : Moocore m) (hmoo : MooIgdContract moo) (pf F : List (Fin m → ℝ)) (hpf : pf ≠ []) (hF : F ≠ []) :
    migdIgd moo pf F = some (invGenDist (euclid fun _ => 1) pf F) := by
  obtain ⟨I, hI⟩ := (C59_accepts { pf := pf : DistArgs m }).2 ⟨hpf, by simp⟩
  obtain ⟨lo, hlo⟩ := ptMin_isSome hpf
  obtain ⟨hi, hhi⟩ := ptMax_isSome hpf
  have := C59_value moo hmoo .igd { pf := pf : DistArgs m } I hI (fun _ => 1) ⟨lo, hi, frontRange_of hlo hhi, fun k => by simp⟩ F hF
  simpa [migdIgd, hI, textbook] using this

/-- What the callback writes for a population `pop` at time `t`. -/
noncomputable def migdEntry (reevaluate : Bool) (pfAt : ℚ → List (Fin m → ℝ)) (evalAt : ℚ → X → Fin m → ℝ) (t : ℚ) (pop : List (X × (Fin m → ℝ))) : ℚ × ℝ :=
  (t, invGenDist (euclid fun _ => 1) (pfAt t) (pop.map fun p => if reevaluate then evalAt t p.1 else p.2))

theorem migdF_eq (b : Bool) (evalAt : ℚ → X → Fin m → ℝ) (t : ℚ) (pop : List (X × (Fin m → ℝ))) :
    migdF b evalAt t pop = pop.map fun p => if b then evalAt t p.1 else p.2 := by
  cases b <;> simp [migdF]

/-- **C157.** In any history on an unconstrained dynamic problem whose time is not set by hand, the callback never raises; it writes one record per call, and the record of a call is the time on the clock at that moment and the IGD between the front *of that time* and the objectives of the population *of that moment* — evaluated at that time (`reevaluate=True`) or as stored by the algorithm. The calls do not move the clock nor change the population. -/
theorem C157_records (moo : Moocore m) (hmoo : MooIgdContract moo) (reevaluate : Bool) (nt taut tau0 : ℕ) (pfAt : ℚ → List (Fin m → ℝ)) (hpf : ∀ t, pfAt t ≠ []) (evalAt : ℚ → X → Fin m → ℝ)
    (pop0 : List (X × (Fin m → ℝ))) (h0 : pop0 ≠ []) (ops : List (MigdOp X m)) (hset : ∀ t, MigdOp.prob (.setTime t) ∉ ops) (hpop : ∀ p, MigdOp.advance p ∈ ops → p ≠ []) :
    ∃ s, migdRun moo reevaluate 0 nt taut pfAt evalAt ⟨⟨tau0, none, none⟩, pop0, []⟩ ops = some s ∧ s.records.length = migdCalls ops ∧
      s.dyn.tau = tau0 + migdTicks ops ∧ s.pop = migdPop pop0 ops ∧
      ∀ a b, ops = a ++ .update :: b → s.records[migdCalls a]? = some (migdEntry reevaluate pfAt evalAt (clock nt taut (tau0 + migdTicks a)) (migdPop pop0 a)) := by
  suffices key : ∀ (ops : List (MigdOp X m)) (st : MigdState X m), st.dyn.time = none → (∀ f, st.dyn.cache = some f → f = pfAt (clock nt taut st.dyn.tau)) → st.pop ≠ [] →
      (∀ t, MigdOp.prob (.setTime t) ∉ ops) → (∀ p, MigdOp.advance p ∈ ops → p ≠ []) →
      ∃ s, migdRun moo reevaluate 0 nt taut pfAt evalAt st ops = some s ∧ s.records.length = st.records.length + migdCalls ops ∧
      s.dyn.tau = st.dyn.tau + migdTicks ops ∧ s.pop = migdPop st.pop ops ∧ (∀ k < st.records.length, s.records[k]? = st.records[k]?) ∧
      ∀ a b, ops = a ++ .update :: b → s.records[st.records.length + migdCalls a]? = some (migdEntry reevaluate pfAt evalAt (clock nt taut (st.dyn.tau + migdTicks a)) (migdPop st.pop a)) by
    obtain ⟨s, h1, h2, h3, h4, _, h6⟩ := key ops ⟨⟨tau0, none, none⟩, pop0, []⟩ rfl (by simp) h0 hset hpop
    exact ⟨s, h1, by simpa using h2, h3, h4, fun a b hab => by simpa using h6 a b hab⟩
  intro ops
  induction ops with
  | nil => intro st _ _ _ _ _; exact ⟨st, rfl, by simp [migdCalls], by simp [migdTicks], rfl, fun _ _ => rfl, fun a b h => by simp at h⟩
  | cons o ops ih =>
    intro st ht hc hp hset hpop
    have hset' : ∀ t, MigdOp.prob (.setTime t) ∉ ops := fun t h => hset t (by simp [h])
    have hpop' : ∀ p, MigdOp.advance p ∈ ops → p ≠ [] := fun p h => hpop p (by simp [h])
    have htime : dynTime nt taut st.dyn = clock nt taut st.dyn.tau := by simp only [dynTime, ht, Option.getD_none, clock]; ring
    -- one step, then the rest
    have go : ∀ st' : MigdState X m, migdStep moo reevaluate 0 nt taut pfAt evalAt st o = some st' → st'.dyn.time = none →
        (∀ f, st'.dyn.cache = some f → f = pfAt (clock nt taut st'.dyn.tau)) → st'.pop ≠ [] →
        st'.dyn.tau = st.dyn.tau + migdTicks [o] → st'.pop = migdPop st.pop [o] →
        ((o = .update ∧ st'.records = st.records ++ [migdEntry reevaluate pfAt evalAt (clock nt taut st.dyn.tau) st.pop]) ∨ (o ≠ .update ∧ st'.records = st.records)) →
        ∃ s, migdRun moo reevaluate 0 nt taut pfAt evalAt st (o :: ops) = some s ∧ s.records.length = st.records.length + migdCalls (o :: ops) ∧
        s.dyn.tau = st.dyn.tau + migdTicks (o :: ops) ∧ s.pop = migdPop st.pop (o :: ops) ∧ (∀ k < st.records.length, s.records[k]? = st.records[k]?) ∧
        ∀ a b, o :: ops = a ++ .update :: b → s.records[st.records.length + migdCalls a]? = some (migdEntry reevaluate pfAt evalAt (clock nt taut (st.dyn.tau + migdTicks a)) (migdPop st.pop a)) := by
      intro st' hst ht' hc' hp' htau hpop'' hrec
      obtain ⟨s, h1, h2, h3, h4, h5, h6⟩ := ih st' ht' hc' hp' hset' hpop'
      have ptick : ∀ l : List (MigdOp X m), migdTicks (o :: l) = migdTicks [o] + migdTicks l := by
        intro l
        cases o with
        | prob q => cases q <;> simp [migdTicks]
        | advance p => simp [migdTicks]
        | update => simp [migdTicks]
      have ppop : ∀ l : List (MigdOp X m), migdPop st.pop (o :: l) = migdPop (migdPop st.pop [o]) l := by
        intro l
        cases o with
        | prob q => cases q <;> simp [migdPop]
        | advance p => simp [migdPop]
        | update => simp [migdPop]
      have pcall : ∀ l : List (MigdOp X m), migdCalls (o :: l) = migdCalls [o] + migdCalls l := by
        intro l
        cases o with
        | prob q => cases q <;> simp [migdCalls]
        | advance p => simp [migdCalls]
        | update => simp [migdCalls, Nat.add_comm]
      have hlen : st'.records.length = st.records.length + migdCalls [o] := by
        rcases hrec with ⟨rfl, hr⟩ | ⟨hne, hr⟩
        · simp [hr, migdCalls]
        · rw [hr]
          cases o with
          | prob q => cases q <;> simp [migdCalls]
          | advance p => simp [migdCalls]
          | update => exact absurd rfl hne
      refine ⟨s, ?_, ?_, ?_, ?_, ?_, ?_⟩
      · simp only [migdRun, List.foldlM_cons, hst, Option.bind_eq_bind, Option.bind_some]; exact h1
      · rw [h2, hlen, pcall ops]; omega
      · rw [h3, htau, ptick ops]; omega
      · rw [h4, hpop'', ← ppop ops]
      · intro k hk
        rw [h5 k (by omega)]
        rcases hrec with ⟨_, hr⟩ | ⟨_, hr⟩
        · rw [hr, List.getElem?_append_left hk]
        · rw [hr]
      · intro a b hab
        rcases a with _ | ⟨o', a⟩
        · obtain ⟨rfl, rfl⟩ : o = .update ∧ ops = b := by simpa using hab
          rcases hrec with ⟨_, hr⟩ | ⟨hne, _⟩
          · have := h5 st.records.length (by simp [hr])
            simp only [migdCalls, migdTicks, migdPop, Nat.add_zero]
            rw [this, hr]
            simp
          · exact absurd rfl hne
        · obtain ⟨rfl, hab'⟩ : o = o' ∧ ops = a ++ .update :: b := by simpa using hab
          have := h6 a b hab'
          rw [pcall a, ptick a, ppop a, ← hpop'', ← Nat.add_assoc, ← hlen, ← Nat.add_assoc, ← htau]
          exact this
    cases o with
    | prob q =>
      cases q with
      | tic e => exact go { st with dyn := ⟨st.dyn.tau + e, st.dyn.time, none⟩ } rfl ht (by simp) hp (by simp [migdTicks]) (by simp [migdPop]) (Or.inr ⟨by simp, rfl⟩)
      | setTime t => exact absurd (by simp) (hset t)
      | front =>
        cases hq : st.dyn.cache with
        | some f => exact go st (by simp [migdStep, dynStep, hq]) ht hc hp (by simp [migdTicks]) (by simp [migdPop]) (Or.inr ⟨by simp, rfl⟩)
        | none =>
          refine go { st with dyn := ⟨st.dyn.tau, st.dyn.time, some (pfAt (dynTime nt taut st.dyn))⟩ } (by simp [migdStep, dynStep, hq]) ht ?_ hp (by simp [migdTicks]) (by simp [migdPop]) (Or.inr ⟨by simp, rfl⟩)
          intro f hf
          simp only [Option.some.injEq] at hf
          rw [← hf, htime]
    | advance p => exact go { st with pop := p } rfl ht hc (hpop p (by simp)) (by simp [migdTicks]) (by simp [migdPop]) (Or.inr ⟨by simp, rfl⟩)
    | update =>
      have hF : migdF reevaluate evalAt (dynTime nt taut st.dyn) st.pop ≠ [] := by rw [migdF_eq]; simpa using hp
      have hv := migdIgd_eq moo hmoo (pfAt (clock nt taut st.dyn.tau)) _ (hpf _) hF
      rw [htime, migdF_eq] at hv
      cases hq : st.dyn.cache with
      | some f =>
        have hf := hc f hq
        refine go { st with records := st.records ++ [migdEntry reevaluate pfAt evalAt (clock nt taut st.dyn.tau) st.pop] } ?_ ht hc hp (by simp [migdTicks]) (by simp [migdPop]) (Or.inl ⟨rfl, rfl⟩)
        simp only [migdStep, migdUpdate, if_pos, dynStep, hq, Option.bind_some, migdF_eq, htime]
        rw [hf, hv]
        rfl
      | none =>
        refine go ⟨⟨st.dyn.tau, st.dyn.time, some (pfAt (clock nt taut st.dyn.tau))⟩, st.pop, st.records ++ [migdEntry reevaluate pfAt evalAt (clock nt taut st.dyn.tau) st.pop]⟩ ?_ ht ?_ hp (by simp [migdTicks]) (by simp [migdPop]) (Or.inl ⟨rfl, rfl⟩)
        · simp only [migdStep, migdUpdate, if_pos, dynStep, hq, Option.bind_some, migdF_eq, htime]
          rw [hv]
          rfl
        · intro f hf
          simp only [Option.some.injEq] at hf
          exact hf.symm

/-- **C157.** The value is the mean of the recorded IGD values, undefined before the first record. -/
theorem C157_value (s : MigdState X m) : (s.records = [] → migdValue s = none) ∧ (s.records ≠ [] → migdValue s = some (avg (s.records.map Prod.snd))) := by
  constructor
  · intro h; simp [migdValue, npMean, h]
  · intro h; simp [migdValue, npMean, h, avg]

/-- **C157.** With `reevaluate=True` no record depends on the objectives stored in the population: they may be those of another time. -/
theorem C157_fresh (pfAt : ℚ → List (Fin m → ℝ)) (evalAt : ℚ → X → Fin m → ℝ) (t : ℚ) (pop pop' : List (X × (Fin m → ℝ))) (h : pop.map Prod.fst = pop'.map Prod.fst) :
    migdEntry true pfAt evalAt t pop = migdEntry true pfAt evalAt t pop' := by
  have : ∀ l : List (X × (Fin m → ℝ)), (l.map fun p => if true then evalAt t p.1 else p.2) = (l.map Prod.fst).map (evalAt t) := by intro l; simp
  unfold migdEntry
  rw [this, this, h]

/-- **C157.** On a problem with constraints every call raises. -/
theorem C157_constraints (moo : Moocore m) (reevaluate : Bool) (nConstr nt taut : ℕ) (pfAt : ℚ → List (Fin m → ℝ)) (evalAt : ℚ → X → Fin m → ℝ) (s : MigdState X m) (h : 0 < nConstr) :
    migdStep moo reevaluate nConstr nt taut pfAt evalAt s .update = none := by
  simp [migdStep, migdUpdate, h.ne']

/-- **C157, refuted when the time is set by hand**: after a call at time 0, the callback at time 1 still measures the distance to the front of time 0. Here the population moves exactly to the front of time 1 and is charged the distance between the fronts. -/
theorem C157_set_time_refuted (moo : Moocore 1) (hmoo : MooIgdContract moo) :
    ∃ s : MigdState ℝ 1, migdRun moo true 0 10 20 (fun t => [fun _ => (t : ℝ)]) (fun _ x _ => x) ⟨⟨1, none, none⟩, [(0, fun _ => 0)], []⟩ [.update, .prob (.setTime 1), .advance [(1, fun _ => 1)], .update] = some s ∧
      s.records = [(0, 0), (1, 1)] ∧ migdEntry true (fun t => [fun (_ : Fin 1) => (t : ℝ)]) (fun _ x _ => x) 1 [((1 : ℝ), fun _ => 1)] = (1, 0) := by
  have hv : ∀ a b : ℝ, invGenDist (euclid fun _ => 1) [fun _ : Fin 1 => a] [fun _ => b] = |a - b| := by
    intro a b
    simp [invGenDist, avg, least, euclid, Real.sqrt_sq_eq_abs]
  have hi : ∀ a b : ℝ, migdIgd moo [fun _ : Fin 1 => a] [fun _ => b] = some |a - b| := by
    intro a b
    rw [migdIgd_eq moo hmoo _ _ (by simp) (by simp), hv]
  refine ⟨⟨⟨1, some 1, some [fun _ => ((0 : ℚ) : ℝ)]⟩, [(1, fun _ => 1)], [(0, 0), (1, 1)]⟩, ?_, rfl, ?_⟩
  · simp [migdRun, migdStep, migdUpdate, dynStep, dynTime, migdF, hi]
  · simp [migdEntry, hv]

/-- The hypotheses of `C157_records` are met: a front that moves with the time, a call, 20 ticks, a new population, another call. -/
example : ∃ (pfAt : ℚ → List (Fin 1 → ℝ)) (ops : List (MigdOp ℝ 1)), (∀ t, pfAt t ≠ []) ∧ (∀ t, MigdOp.prob (.setTime t) ∉ ops) ∧ (∀ p, MigdOp.advance p ∈ ops → p ≠ []) ∧
    migdCalls ops = 2 ∧ migdTicks ops = 20 ∧ clock 10 20 (1 + migdTicks ops) = 1 / 10 :=
  ⟨fun t => [fun _ => (t : ℝ)], [.update, .prob (.tic 20), .advance [(1, fun _ => 1)], .update], by simp, by simp, by simp, rfl, rfl, by simp [clock, migdTicks]⟩

end Props
