import Verif.Model.Cmaes
import Verif.Props.SingleObjective
import Mathlib.Tactic.Ring

/-!
# C140: CMA-ES: the protocol between pymoo and the strategy, the optimum, bounds, restarts, copies
-/

set_option linter.unusedVariables false
set_option linter.unusedSectionVars false
set_option linter.unusedSimpArgs false

namespace Props
open Model Spec

section
variable {S X α β : Type*} [LinearOrder α] [LinearOrder β] [AddCommGroup α] [IsOrderedAddMonoid α] (pr : ∀ n, (Fin n → Fin 1 → α) → Fin n → ℕ)

theorem cmaReject_none {V : Type*} (o : CmaStrategy S X V) (fuel : ℕ) (first : Bool) (x : X) (s : S) : cmaReject o fuel first x none s = .running := by
  induction fuel generalizing first x s with
  | zero => rfl
  | succ k ih =>
    unfold cmaReject
    cases first
    · exact ih false _ _
    · exact ih false _ _

/-- If a value is rejected for every point, the loop over the points does not end. -/
theorem cmaReject_rejected {V : Type*} (o : CmaStrategy S X V) (v : V) (hv : ∀ x, o.accepts x v = false) (fuel : ℕ) (first : Bool) (x : X) (s : S) :
    cmaReject o fuel first x (some v) s = .running := by
  induction fuel generalizing first x s with
  | zero => rfl
  | succ k ih =>
    unfold cmaReject
    cases first
    · simp only [hv, Bool.false_eq_true, if_false]; exact ih false _ _
    · simp only [hv, Bool.false_eq_true, if_false, if_true]; exact ih false _ _

/-- **C140** (refuted) With `parallelize=False` the algorithm hangs in its first step: it samples for ever without ever evaluating a solution, for every problem and every strategy that
has not stopped before its first generation. -/
theorem C140_serial_refuted (o : CmaStrategy S X α) (s : S) (hs : o.stop s = false) (hne : (o.ask s).1 ≠ []) (init : List (CmaInd X α β)) (hi : init ≠ []) (fuel : ℕ) :
    cmaInit pr o false fuel s init = .running := by
  have htop : cmaTop o false fuel s = .running := by
    cases fuel with
    | zero => rfl
    | succ k =>
      unfold cmaTop
      rw [if_neg (by simp [hs])]
      cases hx : (o.ask s).1 with
      | nil => exact absurd hx hne
      | cons x xs =>
        simp only [Bool.false_eq_true, if_false, List.map_cons, cmaCollect, cmaReject_none]
  obtain ⟨x, hx, -⟩ := filterOptimum_best pr (cmaAttrs X α β) init hi
  unfold cmaInit cmaOpt
  simp only [hx, htop]

theorem cmaCollect_accept {V : Type*} (o : CmaStrategy S X V) (ha : ∀ x v, o.accepts x v = true) (fuel : ℕ) (score : X → V) (l : List X) (s : S) :
    cmaCollect o (fuel + 1) l ((l.map score).map some) s = .ok (l.map fun x => (x, score x), s) := by
  induction l generalizing s with
  | nil => rfl
  | cons x xs ih =>
    simp only [List.map_cons, cmaCollect]
    rw [show cmaReject o (fuel + 1) true x (some (score x)) s = .ok ((x, score x), s) by unfold cmaReject; simp [ha]]
    simp only [ih]

/-- The value pymoo reports to the strategy for the point `x`: the objective of the solution it stands for, or `infty` if that is infeasible. -/
def cmaScore (bwd : X → X) (eval : X → CmaInd X α β) (infty : α) (x : X) : α := if (eval (bwd x)).feas then (eval (bwd x)).f else infty

theorem cmaPenal_f (infty : α) (i : CmaInd X α β) : (cmaPenal infty i).f = if i.feas then i.f else infty := by
  unfold cmaPenal; split <;> rfl

theorem cmaPenal_feas (infty : α) (i : CmaInd X α β) : (cmaPenal infty i).feas = i.feas := by
  unfold cmaPenal; split <;> rfl

theorem cmaPenal_cv (infty : α) (i : CmaInd X α β) : (cmaPenal infty i).cv = i.cv := by
  unfold cmaPenal; split <;> rfl

/-- The individual that is evaluated for the point `x`, as it is kept. -/
def cmaKept (bwd : X → X) (eval : X → CmaInd X α β) (infty : α) (x : X) : CmaInd X α β := cmaPenal infty (eval (bwd x))

/-- The algorithm waits for the scores of the points the strategy in state `s` asks for. -/
def CmaAt (o : CmaStrategy S X α) (s : S) (a : CmaAlg S X α β) : Prop :=
  a.es = true ∧ a.done = false ∧ ∀ fuel, cmaTop o true (fuel + 1) s = .ok a.pending

theorem cmaTop_points (o : CmaStrategy S X α) (s : S) (fuel : ℕ) (y : CmaYield S X) (h : cmaTop o true (fuel + 1) s = .ok y) : y.points = o.points s := by
  unfold cmaTop at h
  unfold Strategy.points
  split at h
  · rename_i hs
    injection h with h
    rw [if_pos hs, ← h]; rfl
  · rename_i hs
    rw [if_neg hs]
    simp only [if_true] at h
    injection h with h
    rw [← h]; rfl

theorem cmaTop_some (o : CmaStrategy S X α) (s : S) : ∃ y, ∀ fuel, cmaTop o true (fuel + 1) s = .ok y := by
  by_cases hs : o.stop s = true
  · exact ⟨.mean (o.mean s) s, fun fuel => by unfold cmaTop; rw [if_pos hs]⟩
  · exact ⟨.batch (o.ask s).1 (o.ask s).2, fun fuel => by unfold cmaTop; rw [if_neg hs]; rfl⟩

/-- One generation of the algorithm is one round of the ask-and-tell loop. -/
theorem cmaStep_refines (o : CmaStrategy S X α) (ha : ∀ x v, o.accepts x v = true) (bwd : X → X) (eval : X → CmaInd X α β) (infty : α) (fuel : ℕ) (s : S)
    (a : CmaAlg S X α β) (h : CmaAt o s a) (b : CmaInd X α β) (hb : a.opt = some [b]) (old : List (CmaInd X α β)) (hold : BestOf (cmaAttrs X α β) b old) :
    ∃ a' b', cmaStep pr o true (fuel + 1) bwd eval infty a = .ok (a', (o.points s).map (cmaKept bwd eval infty)) ∧ a'.opt = some [b'] ∧
      BestOf (cmaAttrs X α β) b' (old ++ (o.points s).map (cmaKept bwd eval infty)) ∧
      (o.next (cmaScore bwd eval infty) s = none → a'.done = true) ∧ ∀ s', o.next (cmaScore bwd eval infty) s = some s' → CmaAt o s' a' := by
  obtain ⟨h1, h2, h3⟩ := h
  have hp := cmaTop_points o s 0 a.pending (h3 0)
  have hinf : (a.pending.points.map fun x => eval (bwd x)).map (cmaPenal infty) = (o.points s).map (cmaKept bwd eval infty) := by
    rw [hp, List.map_map]; rfl
  have hf : ((o.points s).map (cmaKept bwd eval infty)).map (·.f) = (o.points s).map (cmaScore bwd eval infty) := by
    rw [List.map_map]
    refine List.map_congr_left fun x _ => ?_
    exact cmaPenal_f infty _
  obtain ⟨b', hb1, hb2⟩ := filterOptimum_best pr (cmaAttrs X α β) ([b] ++ (o.points s).map (cmaKept bwd eval infty)) (by simp)
  have hbest := BestOf.merge (cmaAttrs X α β) b b' old ((o.points s).map (cmaKept bwd eval infty)) _ hold hb2 (by intro y; simp)
  have hsend : (∃ s', o.next (cmaScore bwd eval infty) s = some s' ∧ cmaSend o true (fuel + 1) a.pending ((o.points s).map (cmaScore bwd eval infty)) = cmaTop o true (fuel + 1) s') ∨
      (o.next (cmaScore bwd eval infty) s = none ∧ cmaSend o true (fuel + 1) a.pending ((o.points s).map (cmaScore bwd eval infty)) = .raised) := by
    by_cases hs : o.stop s = true
    · have hpend : a.pending = .mean (o.mean s) s := by
        have := h3 0
        unfold cmaTop at this
        rw [if_pos hs] at this
        injection this with this
        exact this.symm
      have hn : o.next (cmaScore bwd eval infty) s = o.finish s (o.mean s) (cmaScore bwd eval infty (o.mean s)) := by unfold Strategy.next; rw [if_pos hs]
      rw [hn, hpend]
      unfold Strategy.points
      rw [if_pos hs]
      cases hfin : o.finish s (o.mean s) (cmaScore bwd eval infty (o.mean s)) with
      | none => right; exact ⟨rfl, by simp [cmaSend, hfin]⟩
      | some s' => left; exact ⟨s', rfl, by simp [cmaSend, hfin]⟩
    · have hpend : a.pending = .batch (o.ask s).1 (o.ask s).2 := by
        have := h3 0
        unfold cmaTop at this
        rw [if_neg hs] at this
        simp only [if_true] at this
        injection this with this
        exact this.symm
      have hn : o.next (cmaScore bwd eval infty) s = o.tell (o.ask s).2 (o.ask s).1 ((o.ask s).1.map (cmaScore bwd eval infty)) := by unfold Strategy.next; rw [if_neg hs]
      rw [hn, hpend]
      unfold Strategy.points
      rw [if_neg hs]
      have e1 : ((o.ask s).1.map fun x => (x, cmaScore bwd eval infty x)).map Prod.fst = (o.ask s).1 := by
        rw [List.map_map]; exact (List.map_congr_left fun x _ => rfl).trans (List.map_id _)
      have e2 : ((o.ask s).1.map fun x => (x, cmaScore bwd eval infty x)).map Prod.snd = (o.ask s).1.map (cmaScore bwd eval infty) := by
        rw [List.map_map]; exact List.map_congr_left fun x _ => rfl
      cases hfin : o.tell (o.ask s).2 (o.ask s).1 ((o.ask s).1.map (cmaScore bwd eval infty)) with
      | none => right; refine ⟨rfl, ?_⟩; simp only [cmaSend, cmaCollect_accept o ha, e1, e2, hfin]
      | some s' => left; refine ⟨s', rfl, ?_⟩; simp only [cmaSend, cmaCollect_accept o ha, e1, e2, hfin]
  have hopt : cmaOpt pr a.opt ((o.points s).map (cmaKept bwd eval infty)) = some (some [b']) := by
    unfold cmaOpt; rw [hb]; exact hb1
  rcases hsend with ⟨s', hn, hse⟩ | ⟨hn, hse⟩
  · obtain ⟨y, hy⟩ := cmaTop_some o s'
    refine ⟨{ a with pending := y, opt := some [b'] }, b', ?_, rfl, hbest, ?_, ?_⟩
    · unfold cmaStep
      simp only [hinf, hopt, h1, if_true, hf, hse, hy]
    · intro h; rw [hn] at h; cases h
    · intro s'' h
      rw [hn] at h
      obtain rfl := Option.some.inj h
      exact ⟨h1, h2, hy⟩
  · refine ⟨{ a with opt := some [b'], done := true }, b', ?_, rfl, hbest, fun _ => rfl, ?_⟩
    · unfold cmaStep
      simp only [hinf, hopt, h1, if_true, hf, hse]
    · intro s'' h; rw [hn] at h; cases h

theorem cmaRun_done (o : CmaStrategy S X α) (fuel : ℕ) (bwd : X → X) (eval : X → CmaInd X α β) (infty : α) (n : ℕ) (a : CmaAlg S X α β) (h : a.done = true) :
    cmaRun pr o true fuel bwd eval infty n a = .ok (a, []) := by
  cases n with
  | zero => rfl
  | succ k => unfold cmaRun; rw [if_pos h]

theorem cmaRun_refines (o : CmaStrategy S X α) (ha : ∀ x v, o.accepts x v = true) (bwd : X → X) (eval : X → CmaInd X α β) (infty : α) (fuel n : ℕ) :
    ∀ (s : S) (a : CmaAlg S X α β), CmaAt o s a → ∀ (b : CmaInd X α β), a.opt = some [b] → ∀ old : List (CmaInd X α β), BestOf (cmaAttrs X α β) b old →
    ∃ a' b', cmaRun pr o true (fuel + 1) bwd eval infty n a = .ok (a', (o.scored (cmaScore bwd eval infty) n s).map (cmaKept bwd eval infty)) ∧ a'.opt = some [b'] ∧
      BestOf (cmaAttrs X α β) b' (old ++ (o.scored (cmaScore bwd eval infty) n s).map (cmaKept bwd eval infty)) := by
  induction n with
  | zero => intro s a _ b hb old hold; exact ⟨a, b, rfl, hb, by simpa [Strategy.scored] using hold⟩
  | succ k ih =>
    intro s a hat b hb old hold
    obtain ⟨a1, b1, g1, g2, g3, g4, g5⟩ := cmaStep_refines pr o ha bwd eval infty fuel s a hat b hb old hold
    cases hn : o.next (cmaScore bwd eval infty) s with
    | none =>
      refine ⟨a1, b1, ?_, g2, ?_⟩
      · unfold cmaRun
        rw [if_neg (by simp [hat.2.1])]
        simp only [g1, cmaRun_done pr o _ bwd eval infty k a1 (g4 hn), Strategy.scored, hn, List.append_nil]
      · simpa only [Strategy.scored, hn, List.append_nil] using g3
    | some s' =>
      obtain ⟨a2, b2, e1, e2, e3⟩ := ih s' a1 (g5 s' hn) b1 g2 _ g3
      refine ⟨a2, b2, ?_, e2, ?_⟩
      · unfold cmaRun
        rw [if_neg (by simp [hat.2.1])]
        simp only [g1, e1, Strategy.scored, hn, List.map_append]
      · simpa only [Strategy.scored, hn, List.map_append, List.append_assoc] using e3

/-- **C140** With `parallelize=True` (the default): for every strategy, problem and number of generations the solutions that are evaluated are those the strategy asks for when it is told
their objective values (`infty` for the infeasible ones), in the same order and each once; the optimum is one solution, a best one of the initial and of all evaluated solutions. -/
theorem C140_run (o : CmaStrategy S X α) (ha : ∀ x v, o.accepts x v = true) (bwd : X → X) (eval : X → CmaInd X α β) (infty : α) (fuel : ℕ) (s : S) (init : List (CmaInd X α β))
    (hi : init ≠ []) : ∃ a, cmaInit pr o true (fuel + 1) s init = .ok a ∧ ∀ n, ∃ a' b,
      cmaRun pr o true (fuel + 1) bwd eval infty n a = .ok (a', (o.scored (cmaScore bwd eval infty) n s).map (cmaKept bwd eval infty)) ∧
      a'.opt = some [b] ∧ BestOf (cmaAttrs X α β) b (init ++ (o.scored (cmaScore bwd eval infty) n s).map (cmaKept bwd eval infty)) := by
  obtain ⟨b, hb1, hb2⟩ := filterOptimum_best pr (cmaAttrs X α β) init hi
  obtain ⟨y, hy⟩ := cmaTop_some o s
  refine ⟨⟨true, y, some [b], false⟩, ?_, fun n => ?_⟩
  · unfold cmaInit cmaOpt
    simp only [hb1, hy]
  · exact cmaRun_refines pr o ha bwd eval infty fuel n s _ ⟨rfl, rfl, hy⟩ b rfl init hb2

/-- **C140** A feasible optimum carries the values of the problem, and its objective is no larger than that of any feasible solution evaluated so far; without a feasible solution the optimum
has the least violation. -/
theorem C140_optimum (bwd : X → X) (eval : X → CmaInd X α β) (infty : α) (init : List (CmaInd X α β)) (pts : List X) (b : CmaInd X α β)
    (hb : BestOf (cmaAttrs X α β) b (init ++ pts.map (cmaKept bwd eval infty))) :
    (b ∈ init ∨ ∃ x ∈ pts, b.feas = (eval (bwd x)).feas ∧ b.cv = (eval (bwd x)).cv ∧ (b.feas = true → b = eval (bwd x))) ∧
    (((∃ i ∈ init, i.feas = true) ∨ ∃ x ∈ pts, (eval (bwd x)).feas = true) → b.feas = true ∧ (∀ i ∈ init, i.feas = true → b.f ≤ i.f) ∧
      ∀ x ∈ pts, (eval (bwd x)).feas = true → b.f ≤ (eval (bwd x)).f) ∧
    ((∀ i ∈ init, i.feas = false) → (∀ x ∈ pts, (eval (bwd x)).feas = false) → (∀ i ∈ init, b.cv ≤ i.cv) ∧ ∀ x ∈ pts, b.cv ≤ (eval (bwd x)).cv) := by
  obtain ⟨h1, h2, h3⟩ := hb
  have hk : ∀ x ∈ pts, cmaKept bwd eval infty x ∈ init ++ pts.map (cmaKept bwd eval infty) := fun x hx => List.mem_append_right _ (List.mem_map_of_mem hx)
  refine ⟨?_, ?_, ?_⟩
  · rcases List.mem_append.1 h1 with h | h
    · exact Or.inl h
    · obtain ⟨x, hx, rfl⟩ := List.mem_map.1 h
      refine Or.inr ⟨x, hx, cmaPenal_feas _ _, cmaPenal_cv _ _, fun hf => ?_⟩
      rw [show (cmaKept bwd eval infty x).feas = (eval (bwd x)).feas from cmaPenal_feas _ _] at hf
      unfold cmaKept cmaPenal
      rw [if_pos hf]
  · intro hex
    have : ∃ y ∈ init ++ pts.map (cmaKept bwd eval infty), (cmaAttrs X α β).feas y = true := by
      rcases hex with ⟨i, hi, hf⟩ | ⟨x, hx, hf⟩
      · exact ⟨i, List.mem_append_left _ hi, hf⟩
      · exact ⟨_, hk x hx, (cmaPenal_feas infty _).trans hf⟩
    obtain ⟨g1, g2⟩ := h2 this
    refine ⟨g1, fun i hi hf => g2 i (List.mem_append_left _ hi) hf, fun x hx hf => ?_⟩
    have := g2 _ (hk x hx) ((cmaPenal_feas infty _).trans hf)
    have e : (cmaKept bwd eval infty x).f = (eval (bwd x)).f := by rw [show (cmaKept bwd eval infty x).f = _ from cmaPenal_f infty _, if_pos hf]
    rw [← e]; exact this
  · intro hi hp
    have hall : ∀ y ∈ init ++ pts.map (cmaKept bwd eval infty), (cmaAttrs X α β).feas y = false := by
      intro y hy
      rcases List.mem_append.1 hy with h | h
      · exact hi y h
      · obtain ⟨x, hx, rfl⟩ := List.mem_map.1 h
        exact (cmaPenal_feas infty _).trans (hp x hx)
    refine ⟨fun i h => h3 hall i (List.mem_append_left _ h), fun x hx => ?_⟩
    have := h3 hall _ (hk x hx)
    rw [← show (cmaKept bwd eval infty x).cv = (eval (bwd x)).cv from cmaPenal_cv infty _]; exact this

/-- **C140** (refuted) The objective value of an infeasible solution is lost: it is overwritten by infinity in the individuals themselves, and so in the result. -/
theorem C140_values_refuted (bwd : X → X) (eval : X → CmaInd X α β) (infty : α) (x : X) (h : (eval (bwd x)).feas = false) : (cmaKept bwd eval infty x).f = infty := by
  rw [show (cmaKept bwd eval infty x).f = _ from cmaPenal_f infty _]; simp [h]

/-- **C140** (refuted) A copy of a running algorithm (a checkpoint, an entry of the history) evaluates the generation it was waiting for and then stops, whatever the strategy, the termination
and the number of generations it is run for. -/
theorem C140_copy_refuted (o : CmaStrategy S X α) (bwd : X → X) (eval : X → CmaInd X α β) (infty : α) (fuel n : ℕ) (s : S) (a : CmaAlg S X α β) (h : CmaAt o s a)
    (b : CmaInd X α β) (hb : a.opt = some [b]) :
    ∃ a', cmaRun pr o true (fuel + 1) bwd eval infty (n + 1) (cmaCopy a) = .ok (a', (o.points s).map (cmaKept bwd eval infty)) ∧ a'.done = true := by
  obtain ⟨h1, h2, h3⟩ := h
  have hp := cmaTop_points o s 0 a.pending (h3 0)
  obtain ⟨b', hb1, hb2⟩ := filterOptimum_best pr (cmaAttrs X α β) ([b] ++ (o.points s).map (cmaKept bwd eval infty)) (by simp)
  have hopt : cmaOpt pr a.opt ((o.points s).map (cmaKept bwd eval infty)) = some (some [b']) := by
    unfold cmaOpt; rw [hb]; exact hb1
  have hinf : (a.pending.points.map fun x => eval (bwd x)).map (cmaPenal infty) = (o.points s).map (cmaKept bwd eval infty) := by
    rw [hp, List.map_map]; rfl
  refine ⟨{ (cmaCopy a) with opt := some [b'], done := true }, ?_, rfl⟩
  have hstep : cmaStep pr o true (fuel + 1) bwd eval infty (cmaCopy a) = .ok ({ (cmaCopy a) with opt := some [b'], done := true }, (o.points s).map (cmaKept bwd eval infty)) := by
    unfold cmaStep
    have e1 : (cmaCopy a).pending = a.pending := rfl
    have e2 : (cmaCopy a).opt = a.opt := rfl
    have e3 : (cmaCopy a).es = false := rfl
    simp only [e1, e2, e3, hinf, hopt, Bool.false_eq_true, if_false]
  unfold cmaRun
  rw [if_neg (by simp [cmaCopy, h2])]
  simp only [hstep]
  rw [cmaRun_done pr o _ bwd eval infty n _ rfl]
  simp

end

/-- A strategy that counts: in state `k < 3` it asks for `k` and `k + 10`, then it stops; its final point is 7. -/
def cmaToy : CmaStrategy ℕ ℕ ℤ where
  ask s := ([s, s + 10], s)
  tell s _ _ := some (s + 1)
  stop s := decide (3 ≤ s)
  mean _ := 7
  finish _ _ _ := none
  askOne s := (s, s)
  accepts _ _ := true

/-- Objective `|x - 12|`, feasible from 2 on. -/
def cmaToyEval (x : ℕ) : CmaInd ℕ ℤ ℤ := ⟨x, |(x : ℤ) - 12|, max 0 (2 - x), decide (2 ≤ x)⟩

example : cmaToy.scored (cmaScore id cmaToyEval 1000) 10 0 = [0, 10, 1, 11, 2, 12, 7] := by decide +kernel
example : cmaToy.toStrategy.scored (cmaScore id cmaToyEval 1000) 1 0 ≠ cmaToy.toStrategy.scored (cmaScore id cmaToyEval 1000) 2 0 := by decide +kernel
example : cmaToy.stop 0 = false ∧ (cmaToy.ask 0).1 ≠ [] ∧ ∀ x v, cmaToy.accepts x v = true := ⟨rfl, by decide, fun _ _ => rfl⟩

/-! ### Bounds -/

/-- **C140** A point inside the bounds handed to the strategy stands for a solution inside the bounds of the problem, in every variable whose two bounds are different. -/
theorem C140_bounds (l u : Option ℚ) (hne : l = none ∨ l ≠ u) (hle : ∀ a b, l = some a → u = some b → a ≤ b) (n : ℚ)
    (h0 : ∀ a, (l.map fun _ => (0 : ℚ)) = some a → a ≤ n) (h1 : ∀ a, (u.map fun _ => (1 : ℚ)) = some a → n ≤ a) :
    (∀ a, l = some a → a ≤ ztoBwd (dropEqual l u) n) ∧ ∀ b, u = some b → ztoBwd (dropEqual l u) n ≤ b := by
  have hd : dropEqual l u = (l, u) := by
    unfold dropEqual
    rw [if_neg]
    rintro ⟨g1, g2⟩
    rcases hne with h | h
    · rw [h] at g1; simp at g1
    · exact h g2
  rw [hd]
  cases l with
  | none =>
    cases u with
    | none => simp
    | some b =>
      have := h1 1 rfl
      refine ⟨by simp, fun b' hb' => ?_⟩
      obtain rfl := Option.some.inj hb'
      simp only [ztoBwd]; linarith
  | some a =>
    have g0 := h0 0 rfl
    cases u with
    | none =>
      refine ⟨fun a' ha' => ?_, by simp⟩
      obtain rfl := Option.some.inj ha'
      simp only [ztoBwd]; linarith
    | some b =>
      have g1 := h1 1 rfl
      have hab := hle a b rfl rfl
      refine ⟨fun a' ha' => ?_, fun b' hb' => ?_⟩
      · obtain rfl := Option.some.inj ha'
        simp only [ztoBwd]; nlinarith
      · obtain rfl := Option.some.inj hb'
        simp only [ztoBwd]; nlinarith

/-- **C140** (refuted) A variable whose bounds are equal is not fixed: the strategy may choose any value of [0, 1] for it, and the solution evaluated lies up to one unit above the bounds. -/
theorem C140_fixed_refuted (a n : ℚ) (h0 : 0 < n) (h1 : n ≤ 1) :
    cmaBounds [some a] [some a] = [(some 0, some 1)] ∧ a < ztoBwd (dropEqual (some a) (some a)) n := by
  refine ⟨rfl, ?_⟩
  have : dropEqual (some a) (some a) = (some a, none) := by simp [dropEqual]
  rw [this]
  simp only [ztoBwd]; linarith

example : ztoBwd (dropEqual (some 2) (some 4)) (1 / 2) = 3 ∧ ztoBwd (dropEqual (some 2) (some 2)) 1 = 3 := by decide +kernel

/-! ### Restarts -/

theorem cmaRuns_plain (inc : ℝ) (p0 : ℕ) (maxiter0 : ℝ) (restarts : ℕ) (evals : ℕ → ℕ) (other : ℕ → Bool) (u : ℕ → ℝ) (fuel : ℕ) : ∀ st : CmaSched, st.withSmall = 0 → st.irun ≤ restarts →
    (cmaRuns false inc p0 maxiter0 restarts evals other u fuel st).1.length ≤ restarts + 1 - st.irun ∧
    (∀ (i : ℕ) r, (cmaRuns false inc p0 maxiter0 restarts evals other u fuel st).1[i]? = some r → r.1.popsize = p0 * inc ^ (st.irun + i)) ∧
    (restarts + 1 - st.irun ≤ fuel → (cmaRuns false inc p0 maxiter0 restarts evals other u fuel st).2 = true) ∧
    (restarts + 1 - st.irun ≤ fuel → (∀ k, other k = false) → (cmaRuns false inc p0 maxiter0 restarts evals other u fuel st).1.length = restarts + 1 - st.irun) := by
  induction fuel with
  | zero =>
    intro st h1 h2
    refine ⟨by simp [cmaRuns], by simp [cmaRuns], ?_, ?_⟩ <;> intro h <;> omega
  | succ k ih =>
    intro st h1 h2
    have hset : cmaSetup false inc p0 maxiter0 (u st.irun) st = (⟨st.irun = 0, false, p0 * inc ^ st.irun, maxiter0⟩, st) := by
      unfold cmaSetup
      simp only [Bool.false_eq_true, if_false, h1, Nat.sub_zero]
      congr 2
      split
      · rfl
      · have : st.irun = 0 := by omega
        rw [this]; simp
    have haft : cmaAfter false restarts (other st.irun) (evals st.irun) ⟨st.irun = 0, false, p0 * inc ^ st.irun, maxiter0⟩ st =
        if restarts < st.irun + 1 ∨ other st.irun = true then none else some { st with irun := st.irun + 1 } := by
      unfold cmaAfter
      simp [h1]
    by_cases hstop : restarts < st.irun + 1 ∨ other st.irun = true
    · have hr : cmaRuns false inc p0 maxiter0 restarts evals other u (k + 1) st = ([(⟨st.irun = 0, false, p0 * inc ^ st.irun, maxiter0⟩, evals st.irun)], true) := by
        unfold cmaRuns
        simp only [hset, haft, if_pos hstop]
      rw [hr]
      refine ⟨by simp; omega, ?_, fun _ => rfl, ?_⟩
      · intro i r hi
        cases i with
        | zero => simp at hi; rw [← hi]; simp
        | succ j => simp at hi
      · intro hf ho
        have : restarts < st.irun + 1 := by
          rcases hstop with h | h
          · exact h
          · rw [ho] at h; cases h
        simp; omega
    · have hr : cmaRuns false inc p0 maxiter0 restarts evals other u (k + 1) st =
          ((⟨st.irun = 0, false, p0 * inc ^ st.irun, maxiter0⟩, evals st.irun) :: (cmaRuns false inc p0 maxiter0 restarts evals other u k { st with irun := st.irun + 1 }).1,
            (cmaRuns false inc p0 maxiter0 restarts evals other u k { st with irun := st.irun + 1 }).2) := by
        conv_lhs => unfold cmaRuns
        simp only [hset, haft, if_neg hstop]
      push Not at hstop
      obtain ⟨g1, g2, g3, g4⟩ := ih { st with irun := st.irun + 1 } h1 (by show st.irun + 1 ≤ restarts; omega)
      rw [hr]
      refine ⟨?_, ?_, ?_, ?_⟩
      · have : restarts + 1 - (st.irun + 1) + 1 ≤ restarts + 1 - st.irun := by omega
        simp only [List.length_cons]
        exact (Nat.add_le_add_right g1 1).trans this
      · intro i r hi
        cases i with
        | zero => simp at hi; rw [← hi]; simp
        | succ j =>
          have := g2 j r (by simpa using hi)
          rw [this]
          congr 2
          show st.irun + 1 + j = st.irun + (j + 1)
          omega
      · intro hf; exact g3 (by show restarts + 1 - (st.irun + 1) ≤ k; omega)
      · intro hf ho
        have := g4 (by show restarts + 1 - (st.irun + 1) ≤ k; omega) ho
        simp only [List.length_cons, this]
        show restarts + 1 - (st.irun + 1) + 1 = _
        omega

/-- **C140** (restarts without BIPOP) The strategy is started at most `restarts + 1` times, exactly so if no run ends by the target, the budget or a callback, and the population of the `i`-th
restart is `incpopsize ^ i` times the first. -/
theorem C140_restarts (inc : ℝ) (p0 : ℕ) (maxiter0 : ℝ) (restarts : ℕ) (evals : ℕ → ℕ) (other : ℕ → Bool) (u : ℕ → ℝ) :
    ∃ runs, cmaRuns false inc p0 maxiter0 restarts evals other u (restarts + 1) ⟨0, 0, 0, 0⟩ = (runs, true) ∧ runs.length ≤ restarts + 1 ∧
      ((∀ k, other k = false) → runs.length = restarts + 1) ∧ ∀ (i : ℕ) r, runs[i]? = some r → r.1.popsize = p0 * inc ^ i := by
  obtain ⟨h1, h2, h3, h4⟩ := cmaRuns_plain inc p0 maxiter0 restarts evals other u (restarts + 1) ⟨0, 0, 0, 0⟩ rfl (Nat.zero_le _)
  refine ⟨_, Prod.ext rfl (h3 (by simp)), h1, fun ho => h4 (by simp) ho, fun i r hi => ?_⟩
  have := h2 i r hi
  simpa using this

/-- **C140** (BIPOP terminates) If every run evaluates something, the restart loop of BIPOP-CMA-ES ends. -/
theorem C140_bipop_terminates (inc : ℝ) (p0 : ℕ) (maxiter0 : ℝ) (restarts : ℕ) (evals : ℕ → ℕ) (other : ℕ → Bool) (u : ℕ → ℝ) (he : ∀ k, 1 ≤ evals k) :
    ∃ fuel, (cmaRuns true inc p0 maxiter0 restarts evals other u fuel ⟨0, 0, 0, 0⟩).2 = true := by
  have key : ∀ d e : ℕ, ∀ st : CmaSched, st.withSmall < st.irun → restarts + 1 - (st.irun - st.withSmall) ≤ d → st.largeSum - st.smallSum ≤ e →
      ∃ fuel, (cmaRuns true inc p0 maxiter0 restarts evals other u fuel st).2 = true := by
    intro d
    induction d with
    | zero =>
      intro e
      induction e with
      | zero =>
        intro st h1 h2 h3
        refine ⟨1, ?_⟩
        have hset : cmaSetup true inc p0 maxiter0 (u st.irun) st = (⟨false, false, p0 * inc ^ (st.irun - st.withSmall), maxiter0⟩, st) := by
          unfold cmaSetup
          rw [if_pos rfl, if_neg (by omega), if_neg (by omega)]
        unfold cmaRuns
        simp only [hset]
        unfold cmaAfter
        simp only [show restarts < st.irun + 1 - st.withSmall by omega, true_or, if_true]
      | succ e ih =>
        intro st h1 h2 h3
        refine ⟨1, ?_⟩
        unfold cmaRuns
        have : cmaAfter true restarts (other st.irun) (evals st.irun) (cmaSetup true inc p0 maxiter0 (u st.irun) st).1 (cmaSetup true inc p0 maxiter0 (u st.irun) st).2 = none := by
          have hw : (cmaSetup true inc p0 maxiter0 (u st.irun) st).2.withSmall ≤ st.withSmall + 1 ∧ (cmaSetup true inc p0 maxiter0 (u st.irun) st).2.irun = st.irun := by
            unfold cmaSetup
            rw [if_pos rfl, if_neg (by omega)]
            split <;> simp
          unfold cmaAfter
          simp only [hw.2]
          rw [if_pos]
          left
          omega
        simp only [this]
    | succ d ihd =>
      intro e
      induction e with
      | zero =>
        intro st h1 h2 h3
        have hset : cmaSetup true inc p0 maxiter0 (u st.irun) st = (⟨false, false, p0 * inc ^ (st.irun - st.withSmall), maxiter0⟩, st) := by
          unfold cmaSetup
          rw [if_pos rfl, if_neg (by omega), if_neg (by omega)]
        cases hc : cmaAfter true restarts (other st.irun) (evals st.irun) ⟨false, false, p0 * inc ^ (st.irun - st.withSmall), maxiter0⟩ st with
        | none => refine ⟨1, ?_⟩; unfold cmaRuns; simp only [hset, hc]
        | some st' =>
          have hst : st'.irun = st.irun + 1 ∧ st'.withSmall = st.withSmall := by
            unfold cmaAfter at hc
            simp only [] at hc
            split at hc
            · cases hc
            · obtain rfl := Option.some.inj hc; exact ⟨rfl, rfl⟩
          obtain ⟨fuel, hfuel⟩ := ihd (st'.largeSum - st'.smallSum) st' (by omega) (by omega) (le_refl _)
          refine ⟨fuel + 1, ?_⟩
          unfold cmaRuns; simp only [hset, hc, hfuel]
      | succ e ihe =>
        intro st h1 h2 h3
        by_cases hs : st.smallSum < st.largeSum
        · obtain ⟨r, hset, hsm⟩ : ∃ r, cmaSetup true inc p0 maxiter0 (u st.irun) st = (r, { st with withSmall := st.withSmall + 1 }) ∧ r.small = true := by
            unfold cmaSetup
            rw [if_pos rfl, if_neg (by omega), if_pos hs]
            exact ⟨_, rfl, rfl⟩
          cases hc : cmaAfter true restarts (other st.irun) (evals st.irun) r { st with withSmall := st.withSmall + 1 } with
          | none => refine ⟨1, ?_⟩; unfold cmaRuns; simp only [hset, hc]
          | some st' =>
            have hst : st'.irun = st.irun + 1 ∧ st'.withSmall = st.withSmall + 1 ∧ st'.smallSum = st.smallSum + evals st.irun ∧ st'.largeSum = st.largeSum := by
              unfold cmaAfter at hc
              simp only [] at hc
              split at hc
              · cases hc
              · obtain rfl := Option.some.inj hc; simp [hsm]
            have := he st.irun
            obtain ⟨fuel, hfuel⟩ := ihe st' (by omega) (by omega) (by omega)
            refine ⟨fuel + 1, ?_⟩
            unfold cmaRuns; simp only [hset, hc, hfuel]
        · have hset : cmaSetup true inc p0 maxiter0 (u st.irun) st = (⟨false, false, p0 * inc ^ (st.irun - st.withSmall), maxiter0⟩, st) := by
            unfold cmaSetup
            rw [if_pos rfl, if_neg (by omega), if_neg hs]
          cases hc : cmaAfter true restarts (other st.irun) (evals st.irun) ⟨false, false, p0 * inc ^ (st.irun - st.withSmall), maxiter0⟩ st with
          | none => refine ⟨1, ?_⟩; unfold cmaRuns; simp only [hset, hc]
          | some st' =>
            have hst : st'.irun = st.irun + 1 ∧ st'.withSmall = st.withSmall := by
              unfold cmaAfter at hc
              simp only [] at hc
              split at hc
              · cases hc
              · obtain rfl := Option.some.inj hc; exact ⟨rfl, rfl⟩
            obtain ⟨fuel, hfuel⟩ := ihd (st'.largeSum - st'.smallSum) st' (by omega) (by omega) (le_refl _)
            refine ⟨fuel + 1, ?_⟩
            unfold cmaRuns; simp only [hset, hc, hfuel]
  have hset : cmaSetup true inc p0 maxiter0 (u 0) ⟨0, 0, 0, 0⟩ = (⟨true, true, p0, maxiter0⟩, ⟨0, 0, 0, 0⟩) := by unfold cmaSetup; simp
  cases hc : cmaAfter true restarts (other 0) (evals 0) ⟨true, true, p0, maxiter0⟩ ⟨0, 0, 0, 0⟩ with
  | none => refine ⟨1, ?_⟩; unfold cmaRuns; simp only [hset, hc]
  | some st' =>
    have hst : st'.irun = 1 ∧ st'.withSmall = 0 := by
      unfold cmaAfter at hc
      simp only [] at hc
      split at hc
      · cases hc
      · obtain rfl := Option.some.inj hc; exact ⟨rfl, rfl⟩
    obtain ⟨fuel, hfuel⟩ := key (restarts + 1) (st'.largeSum - st'.smallSum) st' (by omega) (by omega) (le_refl _)
    refine ⟨fuel + 1, ?_⟩
    unfold cmaRuns; simp only [hset, hc, hfuel]

/-- Evaluations spent in the runs with a large (`small = false`) or small population. -/
def cmaSpent (small : Bool) (l : List (CmaRunSpec × ℕ)) : ℕ := ((l.filter fun r => r.1.small == small).map Prod.snd).sum

/-- The number of runs with a large population. -/
def cmaLarge (l : List (CmaRunSpec × ℕ)) : ℕ := (l.filter fun r => r.1.small == false).length

/-- What BIPOP-CMA-ES promises for the run `r` that follows the runs `pre`. -/
def BipopRule (inc : ℝ) (p0 : ℕ) (restarts : ℕ) (pre : List (CmaRunSpec × ℕ)) (r : CmaRunSpec) : Prop :=
  (pre = [] ∧ r.small = true ∧ r.popsize = p0) ∨
  (pre ≠ [] ∧ r.small = false ∧ cmaSpent false pre ≤ cmaSpent true pre ∧ cmaLarge pre < restarts ∧ r.popsize = p0 * inc ^ (cmaLarge pre + 1)) ∨
  (pre ≠ [] ∧ r.small = true ∧ cmaSpent true pre < cmaSpent false pre ∧ (p0 : ℝ) ≤ r.popsize ∧ r.popsize ≤ p0 * inc ^ cmaLarge pre ∧ r.popsize * r.maxiter ≤ cmaSpent false pre / 2)

structure BipopInv (restarts : ℕ) (pre : List (CmaRunSpec × ℕ)) (st : CmaSched) : Prop where
  len : st.irun = pre.length
  runs : pre ≠ [] → st.irun = st.withSmall + 1 + cmaLarge pre
  small : st.smallSum = cmaSpent true pre
  large : st.largeSum = cmaSpent false pre
  lt : pre ≠ [] → cmaLarge pre < restarts
  zero : pre = [] → st.withSmall = 0

theorem cmaSpent_snoc (b : Bool) (l : List (CmaRunSpec × ℕ)) (r : CmaRunSpec × ℕ) : cmaSpent b (l ++ [r]) = cmaSpent b l + if r.1.small = b then r.2 else 0 := by
  unfold cmaSpent
  rw [List.filter_append, List.map_append, List.sum_append]
  by_cases h : r.1.small = b
  · simp [h]
  · have : (r.1.small == b) = false := by simpa using h
    simp [this, h]

theorem cmaLarge_snoc (l : List (CmaRunSpec × ℕ)) (r : CmaRunSpec × ℕ) : cmaLarge (l ++ [r]) = cmaLarge l + if r.1.small = false then 1 else 0 := by
  unfold cmaLarge
  rw [List.filter_append, List.length_append]
  by_cases h : r.1.small = false
  · simp [h]
  · have : r.1.small = true := by simpa using h
    simp [this]

theorem bipop_small_size (inc : ℝ) (hinc : 1 ≤ inc) (p0 k : ℕ) (u : ℝ) (hu0 : 0 ≤ u) (hu1 : u ≤ 1) :
    (p0 : ℝ) ≤ ⌊(p0 : ℝ) * (inc ^ k) ^ (u ^ (2 : ℝ))⌋ ∧ ((⌊(p0 : ℝ) * (inc ^ k) ^ (u ^ (2 : ℝ))⌋ : ℤ) : ℝ) ≤ p0 * inc ^ k := by
  have hm : 1 ≤ inc ^ k := one_le_pow₀ hinc
  have he0 : 0 ≤ u ^ (2 : ℝ) := Real.rpow_nonneg hu0 _
  have he1 : u ^ (2 : ℝ) ≤ 1 := Real.rpow_le_one hu0 hu1 (by norm_num)
  have h1 : 1 ≤ (inc ^ k) ^ (u ^ (2 : ℝ)) := Real.one_le_rpow hm he0
  have h2 : (inc ^ k) ^ (u ^ (2 : ℝ)) ≤ inc ^ k := by
    calc (inc ^ k) ^ (u ^ (2 : ℝ)) ≤ (inc ^ k) ^ (1 : ℝ) := Real.rpow_le_rpow_of_exponent_le hm he1
      _ = inc ^ k := Real.rpow_one _
  have hp : (0 : ℝ) ≤ p0 := Nat.cast_nonneg _
  constructor
  · have : ((p0 : ℤ) : ℤ) ≤ ⌊(p0 : ℝ) * (inc ^ k) ^ (u ^ (2 : ℝ))⌋ := by
      rw [Int.le_floor]
      push_cast
      nlinarith
    exact_mod_cast this
  · exact (Int.floor_le _).trans (mul_le_mul_of_nonneg_left h2 hp)

theorem bipop_rule (inc : ℝ) (hinc : 1 ≤ inc) (p0 : ℕ) (hp0 : 0 < p0) (maxiter0 : ℝ) (restarts : ℕ) (u : ℝ) (hu0 : 0 ≤ u) (hu1 : u ≤ 1) (pre : List (CmaRunSpec × ℕ)) (st : CmaSched)
    (h : BipopInv restarts pre st) : BipopRule inc p0 restarts pre (cmaSetup true inc p0 maxiter0 u st).1 := by
  unfold cmaSetup
  rw [if_pos rfl]
  by_cases h0 : st.irun = 0
  · rw [if_pos h0]
    left
    refine ⟨List.length_eq_zero_iff.1 (h.len ▸ h0), rfl, rfl⟩
  · rw [if_neg h0]
    have hne : pre ≠ [] := by
      rintro rfl
      exact h0 h.len
    have hr := h.runs hne
    by_cases hs : st.smallSum < st.largeSum
    · rw [if_pos hs]
      right; right
      have hk : st.irun - (st.withSmall + 1) = cmaLarge pre := by omega
      obtain ⟨g1, g2⟩ := bipop_small_size inc hinc p0 (cmaLarge pre) u hu0 hu1
      have hpos : (0 : ℝ) < ⌊(p0 : ℝ) * (inc ^ cmaLarge pre) ^ (u ^ (2 : ℝ))⌋ := lt_of_lt_of_le (by exact_mod_cast hp0) g1
      simp only [hk]
      refine ⟨hne, trivial, by rw [← h.small, ← h.large]; exact hs, g1, g2, ?_⟩
      calc _ ≤ _ := mul_le_mul_of_nonneg_left (min_le_right _ _) hpos.le
        _ = (cmaSpent false pre : ℝ) / 2 := by rw [h.large, mul_div_cancel₀ _ hpos.ne']; ring
    · rw [if_neg hs]
      right; left
      refine ⟨hne, rfl, by rw [← h.small, ← h.large]; omega, h.lt hne, ?_⟩
      show _ = _ * _ ^ (cmaLarge pre + 1)
      rw [show st.irun - st.withSmall = cmaLarge pre + 1 by omega]

theorem bipop_next (inc : ℝ) (p0 : ℕ) (maxiter0 : ℝ) (restarts : ℕ) (u : ℝ) (other : Bool) (evals : ℕ) (pre : List (CmaRunSpec × ℕ)) (st st' : CmaSched)
    (h : BipopInv restarts pre st) (hc : cmaAfter true restarts other evals (cmaSetup true inc p0 maxiter0 u st).1 (cmaSetup true inc p0 maxiter0 u st).2 = some st') :
    BipopInv restarts (pre ++ [((cmaSetup true inc p0 maxiter0 u st).1, evals)]) st' := by
  set r := (cmaSetup true inc p0 maxiter0 u st).1 with hrd
  have hst : ∀ st2, (cmaSetup true inc p0 maxiter0 u st).2 = st2 → st'.irun = st2.irun + 1 ∧ st'.withSmall = st2.withSmall ∧
      st'.smallSum = (if r.small then st2.smallSum + evals else st2.smallSum) ∧ st'.largeSum = (if ¬ r.small = true then st2.largeSum + evals else st2.largeSum) ∧
      st2.irun + 1 - st2.withSmall ≤ restarts := by
    intro st2 e
    rw [e] at hc
    unfold cmaAfter at hc
    simp only [] at hc
    split at hc
    · cases hc
    · rename_i hn
      push Not at hn
      obtain rfl := Option.some.inj hc
      exact ⟨rfl, rfl, by simp, by simp, hn.1⟩
  have hcase : (st.irun = 0 ∧ (cmaSetup true inc p0 maxiter0 u st).2 = st ∧ r.small = true) ∨
      (st.irun ≠ 0 ∧ (cmaSetup true inc p0 maxiter0 u st).2 = { st with withSmall := st.withSmall + 1 } ∧ r.small = true) ∨
      (st.irun ≠ 0 ∧ (cmaSetup true inc p0 maxiter0 u st).2 = st ∧ r.small = false) := by
    rw [hrd]
    unfold cmaSetup
    rw [if_pos rfl]
    by_cases h0 : st.irun = 0
    · rw [if_pos h0]; exact Or.inl ⟨h0, rfl, rfl⟩
    · rw [if_neg h0]
      by_cases hs : st.smallSum < st.largeSum
      · rw [if_pos hs]; exact Or.inr (Or.inl ⟨h0, rfl, rfl⟩)
      · rw [if_neg hs]; exact Or.inr (Or.inr ⟨h0, rfl, rfl⟩)
  have hl := h.len
  rcases hcase with ⟨h0, e, hsm⟩ | ⟨h0, e, hsm⟩ | ⟨h0, e, hsm⟩
  · obtain ⟨a, b, c, d, f⟩ := hst st e
    have hpre : pre = [] := List.length_eq_zero_iff.1 (hl ▸ h0)
    have hz := h.zero hpre
    have hL : cmaLarge pre = 0 := by rw [hpre]; rfl
    refine ⟨by simp [a, hl], fun _ => ?_, ?_, ?_, fun _ => ?_, by simp⟩
    · rw [cmaLarge_snoc]; simp only [hsm]; simp; omega
    · rw [cmaSpent_snoc, c, h.small]; simp [hsm]
    · rw [cmaSpent_snoc, d, h.large]; simp [hsm]
    · rw [cmaLarge_snoc]; simp only [hsm]; simp; omega
  · obtain ⟨a, b, c, d, f⟩ := hst _ e
    have hne : pre ≠ [] := by rintro rfl; exact h0 hl
    have hr := h.runs hne
    have hlt := h.lt hne
    simp only at a b c d f
    refine ⟨by simp [a, hl], fun _ => ?_, ?_, ?_, fun _ => ?_, by simp⟩
    · rw [cmaLarge_snoc]; simp only [hsm]; simp; omega
    · rw [cmaSpent_snoc, c, h.small]; simp [hsm]
    · rw [cmaSpent_snoc, d, h.large]; simp [hsm]
    · rw [cmaLarge_snoc]; simp only [hsm]; simp; omega
  · obtain ⟨a, b, c, d, f⟩ := hst _ e
    have hne : pre ≠ [] := by rintro rfl; exact h0 hl
    have hr := h.runs hne
    have hlt := h.lt hne
    refine ⟨by simp [a, hl], fun _ => ?_, ?_, ?_, fun _ => ?_, by simp⟩
    · rw [cmaLarge_snoc]; simp only [hsm]; simp; omega
    · rw [cmaSpent_snoc, c, h.small]; simp [hsm]
    · rw [cmaSpent_snoc, d, h.large]; simp [hsm]
    · rw [cmaLarge_snoc]; simp only [hsm]; simp; omega

/-- **C140** (BIPOP) In every execution of BIPOP-CMA-ES each run obeys the rule of the method: after the first run, a run with a small population is made exactly while less has been spent
on small populations than on large ones; it has between the initial and the last large population size and a budget of at most half of what large populations have used; a large
run multiplies the population size once more; there are at most `restarts` of them. -/
theorem C140_bipop (inc : ℝ) (hinc : 1 ≤ inc) (p0 : ℕ) (hp0 : 0 < p0) (maxiter0 : ℝ) (restarts : ℕ) (evals : ℕ → ℕ) (other : ℕ → Bool) (u : ℕ → ℝ) (hu : ∀ k, 0 ≤ u k ∧ u k ≤ 1) (fuel : ℕ)
    (pre : List (CmaRunSpec × ℕ)) (r : CmaRunSpec × ℕ) (post : List (CmaRunSpec × ℕ))
    (h : (cmaRuns true inc p0 maxiter0 restarts evals other u fuel ⟨0, 0, 0, 0⟩).1 = pre ++ r :: post) : BipopRule inc p0 restarts pre r.1 ∧ r.2 = evals pre.length := by
  have key : ∀ (fuel : ℕ) (st : CmaSched) (before : List (CmaRunSpec × ℕ)), BipopInv restarts before st → ∀ pre r post,
      (cmaRuns true inc p0 maxiter0 restarts evals other u fuel st).1 = pre ++ r :: post → BipopRule inc p0 restarts (before ++ pre) r.1 ∧ r.2 = evals (before ++ pre).length := by
    intro fuel
    induction fuel with
    | zero => intro st before _ pre r post h; simp [cmaRuns] at h
    | succ k ih =>
      intro st before hinv pre r post h
      have hrule := bipop_rule inc hinc p0 hp0 maxiter0 restarts (u st.irun) (hu _).1 (hu _).2 before st hinv
      unfold cmaRuns at h
      simp only [] at h
      cases hc : cmaAfter true restarts (other st.irun) (evals st.irun) (cmaSetup true inc p0 maxiter0 (u st.irun) st).1 (cmaSetup true inc p0 maxiter0 (u st.irun) st).2 with
      | none =>
        simp only [hc] at h
        cases pre with
        | nil =>
          obtain ⟨rfl, -⟩ := List.cons_eq_cons.1 h
          refine ⟨by simpa using hrule, ?_⟩
          simp [hinv.len]
        | cons p ps => simp at h
      | some st' =>
        simp only [hc] at h
        cases pre with
        | nil =>
          obtain ⟨rfl, -⟩ := List.cons_eq_cons.1 h
          refine ⟨by simpa using hrule, ?_⟩
          simp [hinv.len]
        | cons p ps =>
          obtain ⟨rfl, h2⟩ := List.cons_eq_cons.1 h
          have hn := bipop_next inc p0 maxiter0 restarts (u st.irun) (other st.irun) (evals st.irun) before st st' hinv hc
          have := ih st' _ hn ps r post h2
          simpa using this
  have := key fuel ⟨0, 0, 0, 0⟩ [] ⟨rfl, by simp, rfl, rfl, by simp, by simp⟩ pre r post h
  simpa using this

/-- Two restarts: the runs are small (the first), large, small, small, large. -/
example : (∀ k, 1 ≤ (fun k : ℕ => if k = 1 then 10 else 4) k) ∧
    cmaAfter true 2 false 10 ⟨false, false, 20, 100⟩ ⟨1, 0, 4, 0⟩ = some ⟨2, 0, 4, 10⟩ ∧ cmaAfter true 2 false 4 ⟨false, true, 20, 100⟩ ⟨2, 1, 4, 10⟩ = some ⟨3, 1, 8, 10⟩ := by
  refine ⟨fun k => by dsimp only; split <;> norm_num, by simp [cmaAfter], by simp [cmaAfter]⟩

end Props
