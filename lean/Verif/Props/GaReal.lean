import Verif.Model.GaReal
import Verif.Props.GaRun
import Verif.Props.SBX
import Verif.Props.RealMutation
import Verif.Props.Sampling
import Verif.Props.Permutation

/-! # C159 for the operators of the package: real variables within bounds, permutations -/

set_option linter.unusedSimpArgs false
set_option linter.unusedVariables false
set_option linter.unusedSectionVars false

namespace Props
open Model Lemmas

section
variable {n : ℕ} {κ V : Type*} [DecidableEq κ]

/-- Between the bounds. -/
def InBounds (xl xu x : Fin n → ℝ) : Prop := ∀ j, xl j ≤ x j ∧ x j ≤ xu j

theorem parentRow_mem {A : Type*} [Inhabited A] (M : List (List A)) (h : ∀ l ∈ M, l.length = 2) (k : ℕ) (hk : k < 2) (i : Fin M.length) : ∃ l ∈ M, parentRow M k i ∈ l := by
  have hl : M.get i ∈ M := List.get_mem _ _
  refine ⟨M.get i, hl, ?_⟩
  have : k < (M.get i).length := by rw [h _ hl]; exact hk
  simp only [parentRow, List.getElem?_eq_getElem this, Option.getD_some]
  exact List.getElem_mem _

theorem crossTwo_mem {A : Type*} [Inhabited A] {P : A → Prop} (M : List (List A)) (cross : Fin M.length → Bool) (Q : Fin 2 → Fin M.length → A) (hM : ∀ l ∈ M, ∀ x ∈ l, P x)
    (hQ : (∀ l ∈ M, l.length = 2) → ∀ k i, P (Q k i)) : ∀ y ∈ crossTwo M cross Q, P y := by
  intro y hy
  unfold crossTwo at hy
  split_ifs at hy with h2
  · have h2' : ∀ l ∈ M, l.length = 2 := by simpa using h2
    obtain ⟨k, -, hy⟩ := List.mem_flatMap.1 hy
    obtain ⟨i, -, rfl⟩ := List.mem_map.1 hy
    split_ifs
    · exact hQ h2' k i
    · obtain ⟨l, hl, hm⟩ := parentRow_mem M h2' k.1 k.2 i
      exact hM l hl _ hm
  · simp at hy

/-- The random numbers are in `[0, 1)`, the distribution indices and `eps` are not negative. -/
def SbxNumsOk (d : (r : ℕ) → SbxNums n r) : Prop := ∀ r, (∀ i, 0 ≤ (d r).eta i) ∧ 0 ≤ (d r).eps ∧ ∀ i j, 0 ≤ (d r).rand i j ∧ (d r).rand i j < 1

theorem sbxRows_in (xl xu : Fin n → ℝ) (d : (r : ℕ) → SbxNums n r) (hd : SbxNumsOk d) (M : List (List (Fin n → ℝ))) (hM : ∀ l ∈ M, ∀ x ∈ l, InBounds xl xu x) : ∀ y ∈ sbxRows xl xu d M, InBounds xl xu y := by
  refine crossTwo_mem M _ _ hM ?_
  intro h2 k i j
  have hok : SbxOk (fun (k : Fin 2) i => parentRow M k.1 i) xl xu (d M.length).eta (d M.length).eps (d M.length).rand := by
    refine ⟨?_, (hd _).1, (hd _).2.1, (hd _).2.2⟩
    intro k i j
    obtain ⟨l, hl, hm⟩ := parentRow_mem M h2 k.1 k.2 i
    exact hM l hl _ hm j
  obtain ⟨c1, c2, -⟩ := C48_operator (fun (k : Fin 2) i => parentRow M k.1 i) xl xu (d M.length).eta (d M.length).probVar (d M.length).probExch (d M.length).probBin (d M.length).eps (d M.length).v
    (d M.length).u (d M.length).rand (d M.length).w hok none
  have hk : k.1 < (sbxDo (fun (k : Fin 2) i => parentRow M k.1 i) xl xu (d M.length).eta (d M.length).probVar (d M.length).probExch (d M.length).probBin (d M.length).eps (d M.length).v
    (d M.length).u (d M.length).rand (d M.length).w none).length := by rw [c1]; simpa using k.2
  simp only [List.getElem?_eq_getElem hk, Option.getD_some]
  exact c2 _ (List.getElem_mem _) i j

theorem pmRows_in (xl xu : Fin n → ℝ) (eta : (r : ℕ) → Fin r → ℝ) (mask : (r : ℕ) → Fin r → Fin n → Bool) (rand : (r : ℕ) → Fin r → Fin n → ℝ) (he : ∀ r i, 0 ≤ eta r i)
    (hr : ∀ r i j, 0 ≤ rand r i j ∧ rand r i j ≤ 1) (rows : List (Fin n → ℝ)) (h : ∀ x ∈ rows, InBounds xl xu x) : ∀ y ∈ pmRows xl xu eta mask rand rows, InBounds xl xu y := by
  intro y hy
  simp only [pmRows, List.mem_ofFn] at hy
  obtain ⟨i, rfl⟩ := hy
  intro j
  have := C49_pm (fun i => rows.get i) xl xu (eta rows.length) (mask rows.length) (rand rows.length) (fun i j => h _ (List.get_mem _ _) j) (he _) (hr _) i j
  exact ⟨this.1, this.2.1⟩

/-- A generation with SBX and polynomial mutation, no repair, any selection and survival. -/
structure RealGen (xl xu : Fin n → ℝ) (g : GaGen (Fin n → ℝ) κ V) : Prop where
  select : ∀ k heap pop m, ∀ M ∈ (g.rounds k).select heap pop m, ∀ i ∈ M, i ∈ pop
  cross : ∀ k, ∃ d, SbxNumsOk d ∧ (g.rounds k).cross = some (sbxRows xl xu d)
  mutate : ∀ k, ∃ eta mask rand, (∀ r i, 0 ≤ eta r i) ∧ (∀ r i j, 0 ≤ rand r i j ∧ rand r i j ≤ 1) ∧ (g.rounds k).mutate = pmRows xl xu eta mask rand
  repair : ∀ k, (g.rounds k).repair = id
  survive : PicksMembers g.survive

theorem RealGen.ok {xl xu : Fin n → ℝ} {g : GaGen (Fin n → ℝ) κ V} (h : RealGen xl xu g) : GaGenOk (InBounds xl xu) (InBounds xl xu) g := by
  refine ⟨fun k => ⟨h.select k, ?_, ?_, ?_⟩, h.survive⟩
  · obtain ⟨d, hd, hc⟩ := h.cross k
    exact ⟨_, hc, sbxRows_in xl xu d hd⟩
  · obtain ⟨eta, mask, rand, he, hr, hm⟩ := h.mutate k
    rw [hm]
    exact pmRows_in xl xu eta mask rand he hr
  · rw [h.repair k]
    exact fun rows h => h

/-- **C159** (real variables). The genetic algorithms with their default operators for real variables: random sampling, SBX and polynomial mutation, no repair operator. Every point ever evaluated is within the bounds, whatever the random numbers, selection, duplicate elimination and survival; and all values stored are the problem's values at the stored variables. -/
theorem C159_real (xl xu : Fin n → ℝ) (hb : ∀ j, xl j ≤ xu j) (f : (Fin n → ℝ) → κ → V) (c : GaCfg (Fin n → ℝ) κ V) (hc : ComputesRows f c.problem) (hreq : c.req.Nodup) (hne : c.req ≠ []) (popSize : ℕ)
    (u : (N : ℕ) → Fin N → Fin n → ℝ) (hu : ∀ N i j, 0 ≤ u N i j ∧ u N i j < 1) (survive : Option ((ℕ → EvInd (Fin n → ℝ) κ V) → List ℕ → List ℕ)) (hsv : ∀ f, survive = some f → PicksMembers f)
    (heap : ℕ → EvInd (Fin n → ℝ) κ V) (next : ℕ) (gens : List (GaGen (Fin n → ℝ) κ V)) (hg : ∀ g ∈ gens, RealGen xl xu g) (s : GaState (Fin n → ℝ) κ V)
    (h : (gaStart c id popSize (.op (floatRows xl xu u)) survive heap next).bind (gaGens c gens) = some s) :
    (∀ i ∈ s.pop, HoldsValues f c.req s.ev.heap i ∧ InBounds xl xu (s.ev.heap i).x) ∧ (∀ q ∈ s.ev.log, ∀ i ∈ q.2, HoldsValues f c.req s.ev.heap i ∧ InBounds xl xu (s.ev.heap i).x) ∧
    s.ev.nEval ≤ popSize + gens.length * c.nOff := by
  obtain ⟨Y, hY, hin⟩ := (C57_float xl xu (u popSize) (hu popSize)).1 hb
  have hrows : floatRows xl xu u popSize = List.ofFn Y := by simp [floatRows, hY]
  obtain ⟨a1, a2, -, -, a5⟩ := C159_run (P := InBounds xl xu) (P0 := InBounds xl xu) f c hc hreq hne id (fun rows h => h) popSize (.op (floatRows xl xu u)) survive hsv heap next (by
    intro x hx
    rw [hrows, List.mem_ofFn] at hx
    obtain ⟨i, rfl⟩ := hx
    exact fun j => ⟨(hin i j).1, (hin i j).2.1⟩) gens (fun g hgm => (hg g hgm).ok) s h
  refine ⟨a1, a2, ?_⟩
  simpa [initCount, hrows] using a5

/-- **C159** (permutations). With order crossover and inversion mutation, started from permutations, every point ever evaluated is a permutation of `0, …, n-1`. -/
theorem C159_permutation (f : List ℕ → κ → V) (c : GaCfg (List ℕ) κ V) (hc : ComputesRows f c.problem) (hreq : c.req.Nodup) (hne : c.req ≠ []) (popSize : ℕ)
    (draw : ℕ → List (List ℕ)) (hdraw : ∀ x ∈ draw popSize, x.Perm (List.range n)) (survive : Option ((ℕ → EvInd (List ℕ) κ V) → List ℕ → List ℕ)) (hsv : ∀ f, survive = some f → PicksMembers f)
    (heap : ℕ → EvInd (List ℕ) κ V) (next : ℕ) (gens : List (GaGen (List ℕ) κ V))
    (hg : ∀ g ∈ gens, PicksMembers g.survive ∧ ∀ k, (∀ heap pop m, ∀ M ∈ (g.rounds k).select heap pop m, ∀ i ∈ M, i ∈ pop) ∧ (∃ cross seq shift, (g.rounds k).cross = some (oxRows cross seq shift)) ∧
      (∃ sel seq, (g.rounds k).mutate = inversionRows sel seq) ∧ (g.rounds k).repair = id) (s : GaState (List ℕ) κ V)
    (h : (gaStart c id popSize (.op draw) survive heap next).bind (gaGens c gens) = some s) :
    (∀ i ∈ s.pop, HoldsValues f c.req s.ev.heap i ∧ (s.ev.heap i).x.Perm (List.range n)) ∧ (∀ q ∈ s.ev.log, ∀ i ∈ q.2, HoldsValues f c.req s.ev.heap i ∧ (s.ev.heap i).x.Perm (List.range n)) := by
  have hok : ∀ g ∈ gens, GaGenOk (fun x : List ℕ => x.Perm (List.range n)) (fun x : List ℕ => x.Perm (List.range n)) g := by
    intro g hgm
    obtain ⟨hs, hk⟩ := hg g hgm
    refine ⟨fun k => ?_, hs⟩
    obtain ⟨h1, ⟨cross, seq, shift, h2⟩, ⟨sel, seq', h3⟩, h4⟩ := hk k
    refine ⟨h1, ⟨_, h2, ?_⟩, ?_, by rw [h4]; exact fun rows h => h⟩
    · intro M hM
      refine crossTwo_mem M _ _ hM ?_
      intro hl k i
      obtain ⟨l1, m1, e1⟩ := parentRow_mem M hl k.1 k.2 i
      obtain ⟨l2, m2, e2⟩ := parentRow_mem M hl (1 - k.1) (by omega) i
      have p1 := hM l1 m1 _ e1
      have p2 := hM l2 m2 _ e2
      obtain ⟨y, hy, hyp, -⟩ := C25_ox (parentRow M k.1 i) (parentRow M (1 - k.1) i) (p2.trans p1.symm) (p1.nodup_iff.2 List.nodup_range) (seq M.length i).1 (seq M.length i).2 shift
      rw [hy]
      exact hyp.trans p1
    · intro rows hr y hy
      rw [h3] at hy
      simp only [inversionRows, List.mem_mapIdx] at hy
      obtain ⟨i, hi, rfl⟩ := hy
      split_ifs
      · exact (C25_inversion _ _ _).1.trans (hr _ (List.getElem_mem _))
      · exact hr _ (List.getElem_mem _)
  obtain ⟨a1, a2, -⟩ := C159_run (P := fun x : List ℕ => x.Perm (List.range n)) (P0 := fun x : List ℕ => x.Perm (List.range n)) f c hc hreq hne id (fun rows h => h) popSize (.op draw) survive hsv heap next hdraw gens hok s h
  exact ⟨a1, a2⟩

/-- **C159** (survival). The survival of NSGA-II, with or without constraints, returns members of the population it is given, whatever the objects hold. -/
theorem C159_rank_and_crowding {X α γ : Type*} {m : ℕ} [LinearOrder α] [Sub α] [LinearOrder γ] (split : Bool) (paretoRank : (N : ℕ) → (Fin N → Fin m → α) → Fin N → ℕ) (obj : EvInd X κ V → Fin m → α) (feas : EvInd X κ V → Bool)
    (crowd : (l : ℕ) → (Fin l → Fin m → α) → ℕ → Fin l → γ) (argsort : (l : ℕ) → (Fin l → γ) → List (Fin l)) (P : ℕ → (l : ℕ) → Fin l → Fin l)
    (sortCV : (ℕ → EvInd X κ V) → (pop : List ℕ) → List (Fin pop.length) → List (Fin pop.length)) (k : ℕ) :
    PicksMembers fun (heap : ℕ → EvInd X κ V) l => survivalDo split (rcOperator paretoRank (fun i => obj (heap i)) crowd argsort P) (fun i => feas (heap i)) l (sortCV heap l) (some k) := by
  have hop : ∀ (heap : ℕ → EvInd X κ V) (sub : List ℕ) k, ∀ i ∈ rcOperator paretoRank (fun i => obj (heap i)) crowd argsort P sub k, i ∈ sub := by
    intro heap sub k i hi
    unfold rcOperator at hi
    cases hst : rankAndCrowding (paretoRank sub.length) (fun i => obj (heap (sub.get i))) crowd argsort P k with
    | none => rw [hst] at hi; simp at hi
    | some st =>
      rw [hst] at hi
      simp only [Option.map_some, Option.getD_some] at hi
      obtain ⟨q, -, rfl⟩ := List.mem_map.1 hi
      exact List.get_mem _ _
  intro heap l i hi
  simp only [survivalDo] at hi
  split_ifs at hi with h1 h2 h3 h4 h5
  · exact hi
  · rw [List.nil_append] at hi
    obtain ⟨q, -, rfl⟩ := List.mem_map.1 hi
    exact List.get_mem _ _
  · simp at hi
  · rcases List.mem_append.1 hi with hi | hi
    · obtain ⟨q, -, rfl⟩ := List.mem_map.1 (hop heap _ _ i hi)
      exact List.get_mem _ _
    · obtain ⟨q, -, rfl⟩ := List.mem_map.1 hi
      exact List.get_mem _ _
  · obtain ⟨q, -, rfl⟩ := List.mem_map.1 (hop heap _ _ i hi)
    exact List.get_mem _ _
  · exact hop heap _ _ i hi

/-- A generation with permutations meets the hypotheses of `C159_permutation` and changes the parents. -/
example : oxRows (fun _ _ => true) (fun _ _ => (1, 2)) false [[[0, 1, 2, 3], [3, 2, 1, 0]]] = [[0, 2, 1, 3], [3, 1, 2, 0]] ∧
    inversionRows (fun i => i = 0) (fun _ => (0, 1)) [[0, 2, 1, 3], [3, 1, 2, 0]] = [[2, 0, 1, 3], [3, 1, 2, 0]] := by decide

/-- There are generations as in `C159_real`. -/
example : ∃ g : GaGen (Fin 1 → ℝ) Unit ℝ, RealGen (fun _ => 0) (fun _ => 1) g :=
  ⟨⟨fun _ => ⟨fun _ pop _ => [pop.take 2], some (sbxRows _ _ fun r => ⟨fun _ => true, fun _ => 15, fun _ => 1, fun _ => 1, fun _ => 1, 0, fun _ => 0, fun _ _ => 0, fun _ _ => 1 / 2, fun _ _ => 0⟩),
    pmRows (fun _ => 0) (fun _ => 1) (fun _ _ => 20) (fun _ _ _ => true) (fun _ _ _ => 1 / 2), [true, true], id⟩, fun _ l => l.take 3⟩,
    ⟨fun k heap pop m M hM i hi => by
        simp only [List.mem_singleton] at hM
        subst hM
        exact List.mem_of_mem_take hi,
      fun k => ⟨_, fun r => ⟨fun i => by norm_num, le_refl _, fun i j => by norm_num⟩, rfl⟩,
      fun k => ⟨fun _ _ => 20, fun _ _ _ => true, fun _ _ _ => 1 / 2, fun r i => by norm_num, fun r i j => by norm_num, rfl⟩, fun k => rfl, fun heap l i hi => List.mem_of_mem_take hi⟩⟩

end
end Props
