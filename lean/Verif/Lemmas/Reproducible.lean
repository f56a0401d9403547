import Verif.Model.Reproducible

/-!
# Computations that draw from the generator in use only
-/

namespace Lemmas

open Spec Model

variable {Γ A B X : Type*}

/-- The result does not depend on any random number. -/
def Deterministic (f : Rand Γ A) : Prop := ∀ w w', (f w).1 = (f w').1

theorem rep_pure (a : A) : Reproducible (rPure (Γ := Γ) a) := fun _ _ h => ⟨rfl, h⟩

theorem det_pure (a : A) : Deterministic (rPure (Γ := Γ) a) := fun _ _ => rfl

theorem rep_draw (d : Γ → A × Γ) : Reproducible (rDraw d) := fun w w' h => by
  unfold rDraw
  rw [h]
  exact ⟨rfl, rfl⟩

theorem rep_bind {f : Rand Γ A} {k : A → Rand Γ B} (hf : Reproducible f) (hk : ∀ a, Reproducible (k a)) : Reproducible (rBind f k) := by
  intro w w' h
  obtain ⟨h1, h2⟩ := hf w w' h
  have := hk (f w).1 (f w).2 (f w').2 h2
  unfold rBind
  rw [← h1]
  exact this

/-- A version that needs the continuation for the results that occur only. -/
theorem rep_bind_on {f : Rand Γ A} {k : A → Rand Γ B} (hf : Reproducible f) (hk : ∀ w, Reproducible (k (f w).1)) :
    Reproducible (rBind f k) := by
  intro w w' h
  obtain ⟨h1, h2⟩ := hf w w' h
  have := hk w (f w).2 (f w').2 h2
  unfold rBind
  rw [← h1]
  exact this

theorem rep_passed (R : Rng Γ) {f : Rand Γ A} (hf : Reproducible f) : Reproducible (callRandom R .passed f) := hf

theorem rep_seeded (R : Rng Γ) (s : ℕ) {f : Rand Γ A} (hf : Reproducible f) : Reproducible (callRandom R (.omitted (some s)) f) := by
  intro w w' h
  obtain ⟨h1, -⟩ := hf { w with cur := R.ofSeed s } { w' with cur := R.ofSeed s } rfl
  exact ⟨h1, h⟩

theorem rep_omitted (R : Rng Γ) (arg : RArg) {f : Rand Γ A} (hf : Deterministic f) (hr : Reproducible f) :
    Reproducible (callRandom R arg f) := by
  cases arg with
  | passed => exact hr
  | omitted s =>
    cases s with
    | none => exact fun w w' h => ⟨hf _ _, h⟩
    | some s => exact rep_seeded R s hr

theorem rep_choice2 (R : Rng Γ) (a b : ℕ) : Reproducible (rChoice2 R a b) := rep_bind (rep_draw _) fun _ => rep_pure _

theorem rep_own (R : Rng Γ) (a b : ℕ) : Reproducible (rBind (rChoice2 R a b) fun w => rPure (some w)) :=
  rep_bind (rep_choice2 R a b) fun _ => rep_pure _

theorem rep_compare_passed {β : Type*} [LinearOrder β] (R : Rng Γ) (a : ℕ) (av : β) (b : ℕ) (bv : β) (me : CmpMethod) (rr : Bool) :
    Reproducible (rCompare R .passed a av b bv me rr) := by
  unfold rCompare
  apply rep_passed
  cases me <;> dsimp only <;> split_ifs <;> first | exact rep_pure _ | exact rep_own R a b

/-- The values differ, or no random choice was asked for: no random number is used, whoever's generator it is. -/
theorem rep_compare_untied {β : Type*} [LinearOrder β] (R : Rng Γ) (arg : RArg) (a : ℕ) (av : β) (b : ℕ) (bv : β) (me : CmpMethod) (rr : Bool)
    (h : av ≠ bv ∨ rr = false) : Reproducible (rCompare R arg a av b bv me rr) := by
  have : ∃ v : Option ℕ, rCompare R arg a av b bv me rr = callRandom R arg (rPure v) := by
    unfold rCompare
    rcases h with h | h
    · rcases lt_or_gt_of_ne h with h' | h'
      · have h2 : ¬ bv < av := not_lt.2 h'.le
        cases me
        · exact ⟨some b, by dsimp only; rw [if_neg h2, if_pos h']⟩
        · exact ⟨some a, by dsimp only; rw [if_pos h']⟩
      · have h2 : ¬ av < bv := not_lt.2 (le_of_lt h')
        cases me
        · exact ⟨some a, by dsimp only; rw [if_pos h']⟩
        · exact ⟨some b, by dsimp only; rw [if_neg h2, if_pos h']⟩
    · subst h
      cases me
      · simp only [Bool.false_eq_true, if_false]
        split_ifs
        exacts [⟨_, rfl⟩, ⟨_, rfl⟩, ⟨_, rfl⟩]
      · simp only [Bool.false_eq_true, if_false]
        split_ifs
        exacts [⟨_, rfl⟩, ⟨_, rfl⟩, ⟨_, rfl⟩]
  obtain ⟨v, hv⟩ := this
  rw [hv]
  exact rep_omitted R arg (det_pure v) (rep_pure v)

theorem rep_tournaments {comp : ℕ → ℕ → Rand Γ (Option ℕ)} : ∀ rows : List (List ℕ),
    (∀ a b, [a, b] ∈ rows → Reproducible (comp a b)) → Reproducible (rTournaments comp rows)
  | [], _ => rep_pure _
  | row :: rows, h => by
    match row with
    | [] => exact rep_pure _
    | [_] => exact rep_pure _
    | _ :: _ :: _ :: _ => exact rep_pure _
    | [a, b] =>
      unfold rTournaments
      refine rep_bind (h a b (List.mem_cons_self ..)) fun w => ?_
      cases w with
      | none => exact rep_pure _
      | some w =>
        refine rep_bind (rep_tournaments rows fun a b hab => h a b (List.mem_cons_of_mem _ hab)) fun ws => ?_
        cases ws <;> exact rep_pure _

theorem rep_permutations (R : Rng Γ) (l : ℕ) : ∀ n, Reproducible (rPermutations R l n)
  | 0 => rep_pure _
  | n + 1 => rep_bind (rep_draw _) fun _ => rep_bind (rep_permutations R l n) fun _ => rep_pure _

theorem rep_select (R : Rng Γ) (n pressure nSelect nParents : ℕ) {comp : ℕ → ℕ → Rand Γ (Option ℕ)} (h : ∀ a b, Reproducible (comp a b)) :
    Reproducible (rTournamentSelect R n pressure nSelect nParents comp) := by
  unfold rTournamentSelect
  dsimp only
  split_ifs with hn h0
  · exact rep_pure _
  · exact rep_bind (rep_passed R (rep_permutations R _ _)) fun _ => rep_pure _
  · exact rep_bind (rep_passed R (rep_permutations R _ _)) fun _ =>
      rep_bind (rep_passed R (rep_tournaments _ fun a b _ => h a b)) fun _ => rep_pure _

theorem rep_operator (R : Rng Γ) {op : Rand Γ A} {repair : Option (A → Rand Γ A)} (h : Reproducible op)
    (hr : ∀ rep, repair = some rep → ∀ a, Deterministic (rep a) ∧ Reproducible (rep a)) : Reproducible (rOperator R op repair) := by
  refine rep_bind (rep_passed R h) fun out => ?_
  cases repair with
  | none => exact rep_pure _
  | some rep => exact rep_omitted R _ (hr rep rfl out).1 (hr rep rfl out).2

variable {m : ℕ}

/-- The parts of the algorithm other than the comparison draw from the generator they are given, and the built-in repairs of the
operators do not draw at all. -/
structure PartsOk (P : GaParts Γ X m) : Prop where
  crossover : ∀ pop S, Reproducible (P.crossover pop S)
  crossoverRepair : ∀ rep, P.crossoverRepair = some rep → ∀ a, Deterministic (rep a) ∧ Reproducible (rep a)
  mutation : ∀ off, Reproducible (P.mutation off)
  mutationRepair : ∀ rep, P.mutationRepair = some rep → ∀ a, Deterministic (rep a) ∧ Reproducible (rep a)
  repair : ∀ off, Reproducible (P.repair off)
  survive : ∀ pop n, Reproducible (P.survive pop n)
  sample : ∀ n, Reproducible (P.sample n)

theorem rep_mating (R : Rng Γ) {P : GaParts Γ X m} (hP : PartsOk P) (hc : ∀ pop a b, Reproducible (rPair R (P.attrs pop) P.kind a b))
    (pop : List X) (n : ℕ) : Reproducible (rMating R P pop n) := by
  unfold rMating
  refine rep_bind (rep_select R _ _ _ _ (hc pop)) fun S => ?_
  cases S with
  | none => exact rep_pure _
  | some S =>
    exact rep_bind (rep_operator R (hP.crossover pop S) hP.crossoverRepair) fun off =>
      rep_bind (rep_operator R (hP.mutation off) hP.mutationRepair) fun _ => rep_pure _

theorem rep_infill (R : Rng Γ) {P : GaParts Γ X m} (hP : PartsOk P) (hc : ∀ pop a b, Reproducible (rPair R (P.attrs pop) P.kind a b))
    (pop : List X) (n : ℕ) : ∀ (k : ℕ) (off : List X), Reproducible (rInfill R P pop n k off)
  | 0, _ => rep_pure _
  | k + 1, off => by
    unfold rInfill
    split_ifs
    · refine rep_bind (rep_mating R hP hc pop _) fun o => ?_
      cases o with
      | none => exact rep_pure _
      | some o => exact rep_bind (rep_passed R (hP.repair o)) fun _ => rep_infill R hP hc pop n k _
    · exact rep_pure _

theorem rep_generation (R : Rng Γ) {P : GaParts Γ X m} (hP : PartsOk P) (hc : ∀ pop a b, Reproducible (rPair R (P.attrs pop) P.kind a b))
    (popSize nOff maxIter : ℕ) (pop : List X) : Reproducible (rGeneration R P popSize nOff maxIter pop) := by
  unfold rGeneration
  refine rep_bind (rep_infill R hP hc pop _ _ _) fun off => ?_
  match off with
  | none => exact rep_pure _
  | some [] => exact rep_pure _
  | some (_ :: _) => exact rep_bind (rep_passed R (hP.survive _ _)) fun _ => rep_pure _

theorem rep_generations (R : Rng Γ) {P : GaParts Γ X m} (hP : PartsOk P) (hc : ∀ pop a b, Reproducible (rPair R (P.attrs pop) P.kind a b))
    (popSize nOff maxIter : ℕ) : ∀ (k : ℕ) (pop : List X), Reproducible (rGenerations R P popSize nOff maxIter k pop)
  | 0, _ => rep_pure _
  | k + 1, pop => by
    unfold rGenerations
    refine rep_bind (rep_generation R hP hc _ _ _ pop) fun p => ?_
    cases p with
    | none => exact rep_pure _
    | some p => exact rep_generations R hP hc popSize nOff maxIter k p

theorem rep_gaRun (R : Rng Γ) {P : GaParts Γ X m} (hP : PartsOk P) (hc : ∀ pop a b, Reproducible (rPair R (P.attrs pop) P.kind a b))
    (popSize nOff maxIter k : ℕ) : Reproducible (rGaRun R P popSize nOff maxIter k) := by
  unfold rGaRun
  refine rep_bind (rep_passed R (hP.sample _)) fun pop => ?_
  refine rep_bind ?_ fun pop => rep_generations R hP hc _ _ _ _ pop
  split_ifs
  · exact rep_passed R (hP.survive _ _)
  · exact rep_pure _

end Lemmas
