import Verif.Props.AdaptiveWrapper
import Verif.Props.Brkga
import Verif.Props.MultiProblems

/-!
# C84, C97, C163: the front of the omni-test, the infills of BRKGA, and a new wrapper evaluator
-/

namespace Props
open Model Spec

/-- C84, omni-test: every returned point is Pareto-optimal, and it is the image of the returned solution with the same number. -/
theorem C84_omni_front (n points : ℕ) :
    (∀ f ∈ omniFront n points, ParetoPoint (Cube n 0 6) omni f ∧ OmniArc n f) ∧ (omniFront n points).length = 3 ^ n * (points / 3 ^ n) ∧
    ∀ (k : ℕ) (f : Fin 2 → ℝ), (omniFront n points)[k]? = some f → ∃ x, (omniSet n points)[k]? = some x ∧ Cube n 0 6 x ∧ omni x = f := by
  obtain ⟨h1, h2⟩ := C84_omni n points
  refine ⟨fun f hf => ?_, by rw [omniFront, List.length_map, h2], fun k f hk => ?_⟩
  · obtain ⟨x, hx, rfl⟩ := List.mem_map.1 hf
    exact ⟨(h1 x hx).2, (C84_omni_arc n _).1 (h1 x hx).2⟩
  · rw [omniFront, List.getElem?_map] at hk
    cases hx : (omniSet n points)[k]? with
    | none => simp [hx] at hk
    | some x =>
      rw [hx] at hk
      exact ⟨x, rfl, (h1 x (List.mem_of_getElem? hx)).1, by simpa using hk⟩

example : (omniFront 2 500).length = 495 := by rw [(C84_omni_front 2 500).2.1]; norm_num

section Brkga
variable {ι α β : Type*} [DecidableEq ι] [LinearOrder α] [LinearOrder β]

/-- C97. A generation of BRKGA with one objective and no duplicate elimination: the new population consists of the old elites, the
offspring of the mating and the mutants, each of them once; their numbers add up. -/
theorem C97_generation (nearF : ι → ι → Bool) (at' : Attrs ι α β 1) (n : ℕ) (pop : List (ι × Bool)) (off mutants : List ι) :
    ((brAdvance nearF .off at' n pop (brInfill off mutants)).map Prod.fst).Perm (brElites pop ++ (off ++ mutants)) ∧
    (brInfill off mutants).take off.length = off ∧ (brInfill off mutants).drop off.length = mutants ∧
    (brAdvance nearF .off at' n pop (brInfill off mutants)).length = (brElites pop).length + off.length + mutants.length := by
  have h := (C97_survival (nearF := nearF) (at' := at') n pop (brInfill off mutants)).1
  refine ⟨h, by simp [brInfill], by simp [brInfill], ?_⟩
  have := h.length_eq
  simp only [List.length_map, List.length_append, brInfill] at this
  simp only [brInfill]
  omega

end Brkga

section Ev
variable {X κ V C : Type*} [DecidableEq κ]

/-- One call of `eval`: the arguments. -/
structure AcEvCall (κ : Type*) where
  skip : Bool
  req : List κ
  count : Bool
  pop : EvTarget

/-- C163 (evaluator, a whole run). A new wrapper around an evaluator, and any calls of `eval`: underneath, what the wrapped evaluator would have done; the counter of the wrapper is that of the wrapped
evaluator at its construction, however much is evaluated; every individual carries the shared configuration or what it carried before, and no individual that was not given to `eval` changes. -/
theorem C163_evaluator_run (cfg : C) (problem : List X → List κ → Option (List (κ × List V))) (e : EvState X κ V) (att : ℕ → Option C) (cs : List (AcEvCall κ)) :
    let fin := cs.foldl (fun s c => (acEvEval cfg problem c.skip c.req c.count c.pop s).1) (acEvInit e att)
    fin.inner = cs.foldl (fun s c => (evEval problem c.skip c.req c.count c.pop.ids s).1) e ∧ fin.nEval = e.nEval ∧
    (∀ i, fin.attached i = some cfg ∨ fin.attached i = att i) ∧ ∀ i, (∀ c ∈ cs, i ∉ c.pop.ids) → fin.attached i = att i := by
  suffices H : ∀ (cs : List (AcEvCall κ)) (s : AcEvState X κ V C),
      let fin := cs.foldl (fun s c => (acEvEval cfg problem c.skip c.req c.count c.pop s).1) s
      fin.inner = cs.foldl (fun s c => (evEval problem c.skip c.req c.count c.pop.ids s).1) s.inner ∧ fin.nEval = s.nEval ∧
      (∀ i, fin.attached i = some cfg ∨ fin.attached i = s.attached i) ∧ ∀ i, (∀ c ∈ cs, i ∉ c.pop.ids) → fin.attached i = s.attached i from H cs _
  intro cs
  induction cs with
  | nil => intro s; exact ⟨rfl, rfl, fun _ => .inr rfl, fun _ _ => rfl⟩
  | cons c cs ih =>
    intro s
    obtain ⟨a1, a2, a3, a4⟩ := C163_evaluator cfg problem c.skip c.req c.count c.pop s
    obtain ⟨b1, b2, b3, b4⟩ := ih (acEvEval cfg problem c.skip c.req c.count c.pop s).1
    simp only [List.foldl_cons]
    have step : ∀ i, (acEvEval cfg problem c.skip c.req c.count c.pop s).1.attached i = (if i ∈ c.pop.ids then some cfg else s.attached i) ∨
        (acEvEval cfg problem c.skip c.req c.count c.pop s).1.attached i = s.attached i := by
      intro i
      by_cases h : (acEvEval cfg problem c.skip c.req c.count c.pop s).2 = .inner .ok
      · exact .inl (a3 h i)
      · exact .inr (by rw [a4 h])
    refine ⟨by rw [b1, a1], by rw [b2, a2], fun i => ?_, fun i hi => ?_⟩
    · rcases b3 i with h | h
      · exact .inl h
      · rw [h]
        rcases step i with h' | h'
        · rw [h']; split_ifs
          · exact .inl rfl
          · exact .inr rfl
        · exact .inr h'
    · rw [b4 i fun c' hc' => hi c' (List.mem_cons_of_mem _ hc')]
      rcases step i with h' | h'
      · rw [h', if_neg (hi c List.mem_cons_self)]
      · exact h'

end Ev

end Props
