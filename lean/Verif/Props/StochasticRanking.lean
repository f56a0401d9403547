import Verif.Model.StochasticRanking
import Verif.Props.SingleObjective
import Verif.Props.Sorting
import Mathlib.Tactic.Linarith
import Mathlib.Tactic.NormNum
import Mathlib.Data.List.Induction

/-! # C90: stochastic ranking, SRES and ISRES -/

set_option linter.unusedSimpArgs false
set_option linter.unusedVariables false
set_option linter.unusedSectionVars false

namespace Props
open Model Spec Lemmas

section Bubble
variable {ι : Type*}

/-- Two elements that are never swapped when they meet in this order keep their order. -/
theorem srPass_keeps (w : ℕ → ι → ι → Bool) (a b : ι) (hw : ∀ j, w j a b = false) (j : ℕ) (L : List ι) (h : [a, b].Sublist L) : [a, b].Sublist (srPass w j L).1 := by
  fun_induction srPass w j L with
  | case1 j x y L hs r ih =>
    rcases List.sublist_cons_iff.1 h with h | ⟨r', hr, h⟩
    · rcases List.sublist_cons_iff.1 h with h | ⟨r', hr, h⟩
      · exact List.Sublist.cons _ (ih (List.Sublist.cons _ h))
      · injection hr with h1 h2
        subst h1; subst h2
        refine List.Sublist.cons₂ _ (List.singleton_sublist.2 ?_)
        exact (srPass_perm w (x :: L) (j + 1)).mem_iff.2 (List.mem_cons_of_mem _ (List.singleton_sublist.1 h))
    · injection hr with h1 h2
      subst h1; subst h2
      rcases List.mem_cons.1 (List.singleton_sublist.1 h) with h | h
      · subst h; rw [hw j] at hs; cases hs
      · exact List.Sublist.cons _ (ih (List.Sublist.cons₂ _ (List.singleton_sublist.2 h)))
  | case2 j x y L hs r ih =>
    rcases List.sublist_cons_iff.1 h with h | ⟨r', hr, h⟩
    · exact List.Sublist.cons _ (ih h)
    · injection hr with h1 h2
      subst h1; subst h2
      exact List.Sublist.cons₂ _ (List.singleton_sublist.2 ((srPass_perm w (y :: L) (j + 1)).mem_iff.2 (List.singleton_sublist.1 h)))
  | case3 j L hL => exact h

theorem srLoop_keeps (w : ℕ → ℕ → ι → ι → Bool) (a b : ι) (hw : ∀ i j, w i j a b = false) (k i : ℕ) (L : List ι) (h : [a, b].Sublist L) : [a, b].Sublist (srLoop w k i L) := by
  induction k generalizing i L with
  | zero => exact h
  | succ k ih =>
    unfold srLoop
    simp only []
    split_ifs
    · exact ih _ _ (srPass_keeps _ a b (hw i) _ _ h)
    · exact srPass_keeps _ a b (hw i) _ _ h

/-- A sweep moves an element that beats all others one place forward. -/
theorem srPass_forward (w : ℕ → ι → ι → Bool) (a : ι) (A B : List ι) (hA : A ≠ []) (hw : ∀ j, ∀ x ∈ A, w j x a = true) (j : ℕ) :
    ∃ A' B', (srPass w j (A ++ a :: B)).1 = A' ++ a :: B' ∧ A'.length + 1 = A.length ∧ (∀ x ∈ A', x ∈ A) ∧ (srPass w j (A ++ a :: B)).2 = true := by
  induction hn : A.length generalizing A j with
  | zero => exact absurd (List.length_eq_zero_iff.1 hn) hA
  | succ n ih =>
    match A, hA with
    | [x], _ =>
      refine ⟨[], (srPass w (j + 1) (x :: B)).1, ?_, by simpa using hn, by simp, ?_⟩ <;>
        rw [List.singleton_append, srPass, if_pos (hw j x (by simp))] <;> rfl
    | x :: y :: A, _ =>
      by_cases h : w j x y = true
      · obtain ⟨A', B', h1, h2, h3, h4⟩ := ih (x :: A) (by simp) (fun j z hz => hw j z (by rcases List.mem_cons.1 hz with h | h <;> simp [h])) (j + 1) (by simpa using hn)
        refine ⟨y :: A', B', ?_, by simp [h2], ?_, ?_⟩
        · rw [List.cons_append, List.cons_append, srPass, if_pos h]
          simp only []
          rw [← List.cons_append, h1, List.cons_append]
        · intro z hz
          rcases List.mem_cons.1 hz with h | h
          · simp [h]
          · have := h3 z h; simp at this ⊢; tauto
        · rw [List.cons_append, List.cons_append, srPass, if_pos h]
      · obtain ⟨A', B', h1, h2, h3, h4⟩ := ih (y :: A) (by simp) (fun j z hz => hw j z (by rcases List.mem_cons.1 hz with h | h <;> simp [h])) (j + 1) (by simpa using hn)
        refine ⟨x :: A', B', ?_, by simp [h2], ?_, ?_⟩
        · rw [List.cons_append, List.cons_append, srPass, if_neg h]
          simp only []
          rw [← List.cons_append, h1, List.cons_append]
        · intro z hz
          rcases List.mem_cons.1 hz with h | h
          · simp [h]
          · have := h3 z h; simp at this ⊢; tauto
        · rw [List.cons_append, List.cons_append, srPass, if_neg h]
          simp only []
          rw [← List.cons_append, h4]

theorem srPass_first (w : ℕ → ι → ι → Bool) (a : ι) (B : List ι) (hw : ∀ j, ∀ x ∈ B, w j a x = false) (j : ℕ) : ∃ B', (srPass w j (a :: B)).1 = a :: B' ∧ B'.Perm B := by
  cases B with
  | nil => exact ⟨[], by rw [srPass]; simp, List.Perm.refl _⟩
  | cons b B =>
    refine ⟨(srPass w (j + 1) (b :: B)).1, ?_, srPass_perm _ _ _⟩
    rw [srPass, if_neg (by rw [hw j b (by simp)]; simp)]

theorem srLoop_first (w : ℕ → ℕ → ι → ι → Bool) (a : ι) (k i : ℕ) (A B : List ι) (hk : A.length ≤ k) (hw : ∀ i j, ∀ x ∈ A ++ B, w i j x a = true ∧ w i j a x = false) :
    ∃ B', srLoop w k i (A ++ a :: B) = a :: B' := by
  induction k generalizing i A B with
  | zero =>
    rw [List.length_eq_zero_iff.1 (Nat.le_zero.1 hk)]
    exact ⟨B, rfl⟩
  | succ k ih =>
    unfold srLoop
    simp only []
    by_cases hA : A = []
    · subst hA
      obtain ⟨B', h1, h2⟩ := srPass_first (w i) a B (fun j x hx => (hw i j x (by simpa using hx)).2) 0
      rw [List.nil_append, h1]
      split_ifs
      · exact ih (i + 1) [] B' (by simp) (fun i j x hx => hw i j x (by simpa using h2.mem_iff.1 (by simpa using hx)))
      · exact ⟨B', rfl⟩
    · obtain ⟨A', B', h1, h2, h3, h4⟩ := srPass_forward (w i) a A B hA (fun j x hx => (hw i j x (by simp [hx])).1) 0
      rw [if_pos h4, h1]
      refine ih (i + 1) A' B' (by omega) fun i' j x hx => hw i' j x ?_
      have hp : (A' ++ B').Perm (A ++ B) := by
        have := (h1 ▸ srPass_perm (w i) (A ++ a :: B) 0 : (A' ++ a :: B').Perm (A ++ a :: B))
        exact (List.Perm.cons_inv ((List.perm_middle.symm.trans this).trans List.perm_middle))
      exact hp.mem_iff.1 hx

end Bubble

section Ranking
variable {ι α β : Type*} [LinearOrder α] [LinearOrder β] [Zero β] (f : ι → α) (phi : ι → β) (coin : ℕ → ℕ → Bool)

/-- C90. Two elements of which the first is at least as good in both the objective and the violation, and comes first, keep their order, for every probability and all random numbers. -/
theorem C90_order_kept (I : List ι) (a b : ι) (hf : f a ≤ f b) (hp : phi a ≤ phi b) (h : [a, b].Sublist I) : [a, b].Sublist (stochasticRanking f phi coin I) := by
  refine srLoop_keeps _ a b (fun i j => ?_) _ _ _ h
  unfold srSwap
  split_ifs
  · simpa using hf
  · simpa using hp

/-- C90. An element that has a smaller objective than all others, and less violation than they have (or none, like them), is ranked first, for every probability and all random numbers. -/
theorem C90_first (A B : List ι) (a : ι) (h : ∀ x ∈ A ++ B, f a < f x ∧ (phi a < phi x ∨ (phi a = 0 ∧ phi x = 0))) : ∃ rest, stochasticRanking f phi coin (A ++ a :: B) = a :: rest := by
  refine srLoop_first _ a _ _ A B (by simp) fun i j x hx => ?_
  obtain ⟨h1, h2⟩ := h x hx
  unfold srSwap
  constructor
  · split_ifs with hc
    · simpa using h1
    · rcases h2 with h2 | ⟨h2, h3⟩
      · simpa using h2
      · exact absurd (Or.inr ⟨h3, h2⟩) hc
  · split_ifs with hc
    · simpa using h1.le
    · rcases h2 with h2 | ⟨h2, h3⟩
      · simpa using h2.le
      · exact absurd (Or.inr ⟨h2, h3⟩) hc

/-- C90. If nobody has a violation, the result is sorted by the objective, for all random numbers. -/
theorem C90_by_objective (I : List ι) (h : ∀ x, phi x = 0) : (stochasticRanking f phi coin I).Pairwise fun a b => f a ≤ f b := by
  have := srLoop_sorted (fun i j => srSwap f phi (coin i j)) (fun a b => f a ≤ f b) (fun a b => le_total _ _) (fun a b c => le_trans) (fun i j a b => by
    unfold srSwap
    rw [if_pos (Or.inr ⟨h a, h b⟩)]
    simp) I.length 0 I [] le_rfl List.Pairwise.nil (by simp)
  rwa [List.append_nil] at this

/-- C90, refuted: a feasible element is not always ranked before a feasible one with a greater objective: an infeasible element between them can separate them. -/
theorem C90_feasible_order_refuted : ∃ (f phi : Fin 3 → ℤ) (coin : ℕ → ℕ → Bool), stochasticRanking f phi coin [0, 1, 2] = [0, 1, 2] ∧ phi 0 = 0 ∧ phi 2 = 0 ∧ f 2 < f 0 :=
  ⟨fun i => if i = 0 then 5 else if i = 1 then 1 else 2, fun i => if i = 1 then 3 else 0, fun _ j => decide (j = 1), by decide +kernel, by decide, by decide, by decide⟩

end Ranking


section SRES
variable {ι α β : Type*} [LinearOrder α] [LinearOrder β] [AddCommGroup α] [IsOrderedAddMonoid α] [Zero β] (pf : ∀ n, (Fin n → Fin 1 → α) → Fin n → ℕ) (at' : Attrs ι α β 1)
  (argsort : (ι → α) → List ι → List ι) (hs : ∀ g L, (argsort g L).Perm L ∧ (argsort g L).Pairwise fun a b => g a ≤ g b) (hasConstr : Bool)
include hs

/-- C90. The survival of SRES keeps as many individuals as asked for (or all there are), each at most as often as it was given. -/
theorem C90_survival (u : ℕ → ℕ → Bool) (n : ℕ) (pop : List ι) :
    (srSurvival argsort hasConstr u at' n pop).length = min n pop.length ∧ ∃ rest, (srSurvival argsort hasConstr u at' n pop ++ rest).Perm pop := by
  unfold srSurvival
  have hp : (if hasConstr = true then stochasticRanking (fun x => at'.F x 0) at'.cv u pop else argsort (fun x => at'.F x 0) pop).Perm pop := by
    split_ifs
    · exact C27_permutation _ _ _ _
    · exact (hs _ _).1
  refine ⟨by rw [List.length_take, hp.length_eq], (if hasConstr = true then stochasticRanking (fun x => at'.F x 0) at'.cv u pop else argsort (fun x => at'.F x 0) pop).drop n, ?_⟩
  rw [List.take_append_drop]; exact hp

theorem srSurvival_mem (u : ℕ → ℕ → Bool) (n : ℕ) (pop : List ι) (x : ι) (hx : x ∈ srSurvival argsort hasConstr u at' n pop) : x ∈ pop := by
  obtain ⟨-, rest, h⟩ := C90_survival at' argsort hs hasConstr u n pop
  exact h.mem_iff.1 (List.mem_append_left _ hx)

theorem srSurvival_ne (u : ℕ → ℕ → Bool) (n : ℕ) (hn : 0 < n) (pop : List ι) (hp : pop ≠ []) : srSurvival argsort hasConstr u at' n pop ≠ [] := by
  intro h
  have := (C90_survival at' argsort hs hasConstr u n pop).1
  rw [h] at this
  have := List.length_pos_of_ne_nil hp
  simp at *
  omega

/-- The outcome of one generation. -/
theorem sresAdvance_ok (k : ℕ) (hk : 0 < k) (pop : List ι) (o : ι) (old : List ι) (ho : BestOf at' o old) (g : (ℕ → ℕ → Bool) × List ι) (hg : g.2 ≠ []) :
    ∃ x, sresAdvance pf argsort hasConstr at' k ⟨pop, some [o]⟩ g =
        some ⟨srSurvival argsort hasConstr g.1 at' k (if g.2.length < k then g.2 ++ pop else g.2), some [x]⟩ ∧
      BestOf at' x (old ++ srSurvival argsort hasConstr g.1 at' k (if g.2.length < k then g.2 ++ pop else g.2)) := by
  unfold sresAdvance esSetOptimum
  simp only []
  obtain ⟨x, h1, h2⟩ := filterOptimum_best pf at' ([o] ++ srSurvival argsort hasConstr g.1 at' k (if g.2.length < k then g.2 ++ pop else g.2)) (by simp)
  exact ⟨x, by rw [h1]; rfl, BestOf.merge at' o x old _ _ ho h2 (by simp)⟩

/-- C90. SRES, any number of generations, any offspring and random numbers: the reported optimum is one individual, a best one of all that were ever in the population — so it never gets worse — and
everything in the population was evaluated. -/
theorem C90_optimum (k : ℕ) (hk : 0 < k) (u0 : ℕ → ℕ → Bool) (init : List ι) (hinit : init ≠ []) (gens : List ((ℕ → ℕ → Bool) × List ι)) (hg : ∀ g ∈ gens, g.2 ≠ []) :
    ∃ pop x all, sresRun pf argsort hasConstr at' k u0 init gens = some ⟨pop, some [x]⟩ ∧ BestOf at' x all ∧ (∀ p ∈ all, p ∈ init ++ (gens.map Prod.snd).flatten) ∧
      (∀ t ≤ gens.length, ∃ s, sresRun pf argsort hasConstr at' k u0 init (gens.take t) = some s ∧ s.pop ≠ [] ∧ ∀ p ∈ s.pop, p ∈ all) ∧ (init.length = k → pop.length = k) := by
  induction gens using List.reverseRecOn with
  | nil =>
    obtain ⟨x, h1, h2⟩ := filterOptimum_best pf at' (srSurvival argsort hasConstr u0 at' init.length init)
      (srSurvival_ne at' argsort hs hasConstr u0 _ (List.length_pos_of_ne_nil hinit) init hinit)
    have hr : sresRun pf argsort hasConstr at' k u0 init [] = some ⟨srSurvival argsort hasConstr u0 at' init.length init, some [x]⟩ := by
      simp [sresRun, esSetOptimum, h1]
    refine ⟨_, x, _, hr, h2, fun p hp => by simpa using srSurvival_mem at' argsort hs hasConstr u0 _ _ p hp, ?_, ?_⟩
    · intro t ht
      simp at ht
      subst ht
      exact ⟨_, hr, srSurvival_ne at' argsort hs hasConstr u0 _ (List.length_pos_of_ne_nil hinit) init hinit, fun p hp => hp⟩
    · intro h
      rw [(C90_survival at' argsort hs hasConstr u0 _ _).1]; simp [h]
  | append_singleton gens g ih =>
    obtain ⟨pop, x, all, h1, h2, h3, h4, h5⟩ := ih fun g' hg' => hg g' (by simp [hg'])
    have hgne := hg g (by simp)
    obtain ⟨y, e1, e2⟩ := sresAdvance_ok pf at' argsort hs hasConstr k hk pop x all h2 g hgne
    have hr : sresRun pf argsort hasConstr at' k u0 init (gens ++ [g]) =
        some ⟨srSurvival argsort hasConstr g.1 at' k (if g.2.length < k then g.2 ++ pop else g.2), some [y]⟩ := by
      have h1' := h1
      unfold sresRun at h1' ⊢
      cases hb : esSetOptimum pf at' { pop := srSurvival argsort hasConstr u0 at' init.length init, opt := none } with
      | none => rw [hb] at h1'; cases h1'
      | some s0 =>
        rw [hb] at h1'
        simp only [Option.bind_some] at h1' ⊢
        rw [List.foldlM_append, h1']
        simp [e1]
    have hpop : ∀ p ∈ pop, p ∈ all := by
      obtain ⟨s, a1, -, a2⟩ := h4 gens.length le_rfl
      rw [List.take_length, h1] at a1
      injection a1 with a1
      subst a1
      exact a2
    have hinf : (if g.2.length < k then g.2 ++ pop else g.2) ≠ [] := by split_ifs <;> simp [hgne]
    refine ⟨_, y, _, hr, e2, ?_, ?_, ?_⟩
    · intro p hp
      simp only [List.map_append, List.map_cons, List.map_nil, List.flatten_append, List.flatten_cons, List.flatten_nil, List.append_nil]
      rw [← List.append_assoc]
      rcases List.mem_append.1 hp with hp | hp
      · exact List.mem_append_left _ (h3 p hp)
      · have := srSurvival_mem at' argsort hs hasConstr _ _ _ p hp
        split_ifs at this with hc
        · rcases List.mem_append.1 this with h | h
          · exact List.mem_append_right _ h
          · exact List.mem_append_left _ (h3 p (hpop p h))
        · exact List.mem_append_right _ this
    · intro t ht
      rcases Nat.lt_or_ge t (gens.length + 1) with h | h
      · obtain ⟨s, a1, a2, a3⟩ := h4 t (by omega)
        refine ⟨s, ?_, a2, fun p hp => List.mem_append_left _ (a3 p hp)⟩
        rw [List.take_append_of_le_length (by omega)]; exact a1
      · have : t = (gens ++ [g]).length := by simp at ht ⊢; omega
        subst this
        rw [List.take_length]
        exact ⟨_, hr, srSurvival_ne at' argsort hs hasConstr _ _ hk _ hinf, fun p hp => List.mem_append_right _ hp⟩
    · intro h
      rw [(C90_survival at' argsort hs hasConstr _ _ _).1]
      have := h5 h
      split_ifs with hc
      · rw [List.length_append]; omega
      · omega

/-- C90. If the ranking is a plain sort — no constraints, or probability zero — then the reported optimum is a best one of all individuals that were evaluated. -/
theorem C90_optimum_sorted (k : ℕ) (hk : 0 < k) (u0 : ℕ → ℕ → Bool) (init : List ι) (hinit : init ≠ []) (gens : List ((ℕ → ℕ → Bool) × List ι)) (hg : ∀ g ∈ gens, g.2 ≠ [])
    (hcv : ∀ x, 0 ≤ at'.cv x) (hfeas : ∀ x, at'.feas x = true ↔ at'.cv x = 0)
    (hplain : (hasConstr = false ∧ ∀ x, at'.feas x = true) ∨ (hasConstr = true ∧ (∀ i j, u0 i j = false) ∧ ∀ g ∈ gens, ∀ i j, g.1 i j = false)) :
    ∃ pop x, sresRun pf argsort hasConstr at' k u0 init gens = some ⟨pop, some [x]⟩ ∧ BestOf at' x (init ++ (gens.map Prod.snd).flatten) := by
  -- a best individual survives
  have hbest : ∀ (u : ℕ → ℕ → Bool) (n : ℕ) (L : List ι), 0 < n → L ≠ [] → ((hasConstr = false ∧ ∀ x, at'.feas x = true) ∨ (hasConstr = true ∧ ∀ i j, u i j = false)) →
      ∃ b ∈ srSurvival argsort hasConstr u at' n L, BestOf at' b L := by
    intro u n L hn hL hpl
    unfold srSurvival
    rcases hpl with ⟨hc, hf⟩ | ⟨hc, hu⟩
    · subst hc
      obtain ⟨p1, p2⟩ := hs (fun x => at'.F x 0) L
      simp only [Bool.false_eq_true, if_false]
      cases hA : argsort (fun x => at'.F x 0) L with
      | nil => rw [hA] at p1; exact absurd p1.symm.eq_nil hL
      | cons b bs =>
        rw [hA] at p1 p2
        refine ⟨b, ?_, p1.mem_iff.1 (by simp), fun _ => ⟨hf b, fun y hy _ => ?_⟩, fun h => ?_⟩
        · obtain ⟨n', rfl⟩ := Nat.exists_eq_succ_of_ne_zero hn.ne'
          simp
        · rcases List.mem_cons.1 (p1.mem_iff.2 hy) with rfl | hy
          · exact le_rfl
          · exact (List.pairwise_cons.1 p2).1 y hy
        · have := h b (p1.mem_iff.1 (by simp))
          rw [hf b] at this; cases this
    · subst hc
      have p1 := C27_permutation (fun x => at'.F x 0) at'.cv u L
      have p2 := C27_pr_zero (fun x => at'.F x 0) at'.cv hcv u hu L
      simp only [if_true]
      cases hA : stochasticRanking (fun x => at'.F x 0) at'.cv u L with
      | nil => rw [hA] at p1; exact absurd p1.symm.eq_nil hL
      | cons b bs =>
        rw [hA] at p1 p2
        have hle : ∀ y ∈ L, y = b ∨ (at'.cv b ≤ at'.cv y ∧ (at'.cv b = 0 → at'.cv y = 0 → at'.F b 0 ≤ at'.F y 0)) := by
          intro y hy
          rcases List.mem_cons.1 (p1.mem_iff.2 hy) with h | h
          · exact Or.inl h
          · exact Or.inr ((List.pairwise_cons.1 p2).1 y h)
        refine ⟨b, ?_, p1.mem_iff.1 (by simp), ?_, ?_⟩
        · obtain ⟨n', rfl⟩ := Nat.exists_eq_succ_of_ne_zero hn.ne'
          simp
        · rintro ⟨y, hy, hyf⟩
          have hb0 : at'.cv b = 0 := by
            have hy0 := (hfeas y).1 hyf
            rcases hle y hy with h | h
            · exact h ▸ hy0
            · exact le_antisymm (h.1.trans hy0.le) (hcv b)
          refine ⟨(hfeas b).2 hb0, fun z hz hzf => ?_⟩
          rcases hle z hz with h | h
          · rw [h]
          · exact h.2 hb0 ((hfeas z).1 hzf)
        · intro _ z hz
          rcases hle z hz with h | h
          · rw [h]
          · exact h.1
  induction gens using List.reverseRecOn with
  | nil =>
    have hi := List.length_pos_of_ne_nil hinit
    obtain ⟨b, b1, b2⟩ := hbest u0 init.length init hi hinit (hplain.imp id fun h => ⟨h.1, h.2.1⟩)
    obtain ⟨x, h1, h2⟩ := filterOptimum_best pf at' (srSurvival argsort hasConstr u0 at' init.length init) (List.ne_nil_of_mem b1)
    refine ⟨_, x, by simp [sresRun, esSetOptimum, h1]; rfl, ?_⟩
    simp only [List.map_nil, List.flatten_nil, List.append_nil]
    exact BestOf.lift at' x b _ _ h2 (fun y hy => srSurvival_mem at' argsort hs hasConstr _ _ _ y hy) b2 b1
  | append_singleton gens g ih =>
    obtain ⟨pop, x, h1, h2⟩ := ih (fun g' hg' => hg g' (by simp [hg'])) (hplain.imp id fun h => ⟨h.1, h.2.1, fun g' hg' => h.2.2 g' (by simp [hg'])⟩)
    obtain ⟨pop', x', all, a1, -, a3, a4, -⟩ := C90_optimum pf at' argsort hs hasConstr k hk u0 init hinit gens (fun g' hg' => hg g' (by simp [hg']))
    rw [h1] at a1
    injection a1 with a1
    injection a1 with a1 a1'
    subst a1
    have hpop : ∀ p ∈ pop, p ∈ init ++ (gens.map Prod.snd).flatten := by
      obtain ⟨s, c1, -, c2⟩ := a4 gens.length le_rfl
      rw [List.take_length, h1] at c1
      injection c1 with c1
      subst c1
      exact fun p hp => a3 p (c2 p hp)
    have hgne := hg g (by simp)
    have hinf : (if g.2.length < k then g.2 ++ pop else g.2) ≠ [] := by split_ifs <;> simp [hgne]
    obtain ⟨b, b1, b2⟩ := hbest g.1 k _ hk hinf (hplain.imp id fun h => ⟨h.1, h.2.2 g (by simp)⟩)
    obtain ⟨y, e1, e2⟩ := sresAdvance_ok pf at' argsort hs hasConstr k hk pop x _ h2 g hgne
    refine ⟨srSurvival argsort hasConstr g.1 at' k (if g.2.length < k then g.2 ++ pop else g.2), y, ?_, ?_⟩
    · have h1' := h1
      unfold sresRun at h1' ⊢
      cases hb : esSetOptimum pf at' { pop := srSurvival argsort hasConstr u0 at' init.length init, opt := none } with
      | none => rw [hb] at h1'; cases h1'
      | some s0 =>
        rw [hb] at h1'
        simp only [Option.bind_some] at h1' ⊢
        rw [List.foldlM_append, h1']
        simp [e1]
    · -- best of the survivors and the old ones, hence of all
      have hall : ∀ z, z ∈ init ++ ((gens ++ [g]).map Prod.snd).flatten ↔ z ∈ init ++ (gens.map Prod.snd).flatten ∨ z ∈ g.2 := by
        intro z
        rw [List.map_append, List.flatten_append, ← List.append_assoc, List.mem_append]
        simp
      obtain ⟨e3, e4, e5⟩ := e2
      obtain ⟨-, b4, b5⟩ := b2
      have hginf : ∀ z ∈ g.2, z ∈ (if g.2.length < k then g.2 ++ pop else g.2) := by intro z hz; split_ifs <;> simp [hz]
      have hinfsub : ∀ z ∈ (if g.2.length < k then g.2 ++ pop else g.2), z ∈ init ++ ((gens ++ [g]).map Prod.snd).flatten := by
        intro z hz
        rw [hall]
        split_ifs at hz
        · rcases List.mem_append.1 hz with h | h
          · exact Or.inr h
          · exact Or.inl (hpop z h)
        · exact Or.inr hz
      refine ⟨?_, ?_, ?_⟩
      · rcases List.mem_append.1 e3 with h | h
        · exact (hall y).2 (Or.inl h)
        · exact hinfsub y (srSurvival_mem at' argsort hs hasConstr _ _ _ y h)
      · rintro ⟨z, hz, hzf⟩
        have hex : ∃ y ∈ (init ++ (gens.map Prod.snd).flatten) ++ srSurvival argsort hasConstr g.1 at' k (if g.2.length < k then g.2 ++ pop else g.2), at'.feas y = true := by
          rcases (hall z).1 hz with h | h
          · exact ⟨z, List.mem_append_left _ h, hzf⟩
          · exact ⟨b, List.mem_append_right _ b1, (b4 ⟨z, hginf z h, hzf⟩).1⟩
        obtain ⟨c1, c2⟩ := e4 hex
        refine ⟨c1, fun v hv hvf => ?_⟩
        rcases (hall v).1 hv with h | h
        · exact c2 v (List.mem_append_left _ h) hvf
        · obtain ⟨d1, d2⟩ := b4 ⟨v, hginf v h, hvf⟩
          exact (c2 b (List.mem_append_right _ b1) d1).trans (d2 v (hginf v h) hvf)
      · intro hno v hv
        have hno' : ∀ y ∈ (init ++ (gens.map Prod.snd).flatten) ++ srSurvival argsort hasConstr g.1 at' k (if g.2.length < k then g.2 ++ pop else g.2), at'.feas y = false := by
          intro y hy
          rcases List.mem_append.1 hy with h | h
          · exact hno y ((hall y).2 (Or.inl h))
          · exact hno y (hinfsub y (srSurvival_mem at' argsort hs hasConstr _ _ _ y h))
        rcases (hall v).1 hv with h | h
        · exact e5 hno' v (List.mem_append_left _ h)
        · exact (e5 hno' b (List.mem_append_right _ b1)).trans (b5 (fun y hy => hno y (hinfsub y hy)) v (hginf v h))

end SRES

/-- Values for the examples: objective `x / 10`, violation `x % 10`. -/
def exSr : Attrs ℤ ℤ ℤ 1 := ⟨fun x _ => x / 10, fun x => decide (x % 10 = 0), fun x => x % 10⟩

/-- C90, refuted: in general the reported optimum of SRES is not a best one of all evaluated individuals: a feasible offspring with objective 2 is evaluated and dropped, the reported optimum has objective 5. -/
theorem C90_best_evaluated_refuted : ∃ (u : ℕ → ℕ → Bool),
    (sresRun (fun _ _ _ => 0) (fun g L => L.insertionSort fun a b => g a ≤ g b) true exSr 1 u [60] [(u, [50, 13, 20])]).map (fun s => s.opt) = some (some [50]) ∧ exSr.feas 20 = true ∧ exSr.F 20 0 < exSr.F 50 0 :=
  ⟨fun _ j => decide (j = 1), by decide +kernel, by decide +kernel, by decide +kernel⟩

/-- Non-vacuity: with probability zero the best individual is found. -/
example : (sresRun (fun _ _ _ => 0) (fun g L => L.insertionSort fun a b => g a ≤ g b) true exSr 1 (fun _ _ => false) [60] [(fun _ _ => false, [50, 13, 20])]).map (fun s => s.opt) = some (some [20]) ∧
    (∀ x, 0 ≤ exSr.cv x) ∧ ∀ x, exSr.feas x = true ↔ exSr.cv x = 0 :=
  ⟨by decide +kernel, fun x => Int.emod_nonneg x (by decide), fun x => by simp [exSr]⟩

/-- Non-vacuity of `C90_first`: `20` comes first for all coins. -/
example (coin : ℕ → ℕ → Bool) : ∃ rest, stochasticRanking (fun x : ℤ => x / 10) (fun x : ℤ => x % 10) coin ([33, 50] ++ 20 :: [42]) = 20 :: rest :=
  C90_first _ _ coin [33, 50] [42] 20 (by decide)

section ISRES
variable {K : Type*} [Field K] [LinearOrder K] [IsStrictOrderedRing K]

/-- C90. The parents of the offspring of ISRES exist, also if the population is smaller than `mu`. -/
theorem C90_isres_parents (lambda mu n : ℕ) (hmu : 0 < mu) (hn : 0 < n) : (isresParents lambda mu n).length = lambda ∧ ∀ p ∈ isresParents lambda mu n, p < n ∧ p < mu := by
  unfold isresParents
  refine ⟨by simp, fun p hp => ?_⟩
  obtain ⟨i, -, rfl⟩ := List.mem_map.1 hp
  have := Nat.mod_lt i (show 0 < min mu n by omega)
  omega

/-- C90. Every component of an offspring of ISRES is in the bounds and its step size stays in `(0, sigma_max]`, whatever random numbers are drawn. The differential variation is kept if it is in the bounds. -/
theorem C90_isres_offspring (gamma alpha smax xl xu : K) (mu i : ℕ) (x x0 xn s e z : K) (zs : List K) (hx : xl ≤ x ∧ x ≤ xu) (hs : 0 < s) (hsm : s ≤ smax) (he : 0 < e) (ha : 0 ≤ alpha)
    (ha1 : alpha ≤ 1) :
    let r := isresOff gamma alpha smax xl xu mu i x x0 xn s e z zs
    (xl ≤ r.1 ∧ r.1 ≤ xu) ∧ (0 < r.2 ∧ r.2 ≤ smax) ∧
      (i + 1 < mu → r.2 = s ∧ (xl ≤ x + gamma * (x0 - xn) → x + gamma * (x0 - xn) ≤ xu → r.1 = x + gamma * (x0 - xn))) ∧
      (mu ≤ i → r.2 = (1 - alpha) * s + alpha * min smax (s * e)) := by
  intro r
  obtain ⟨h1, h2, -⟩ := C69_repair x (isresSigma smax s e mu i) xl xu zs (isresMutate gamma mu i x x0 xn (isresSigma smax s e mu i) z) hx
  have hmin : 0 < min smax (s * e) ∧ min smax (s * e) ≤ smax := ⟨lt_min (hs.trans_le hsm) (mul_pos hs he), min_le_left _ _⟩
  refine ⟨h1, ?_, fun hi => ⟨?_, fun hl hu => ?_⟩, fun hi => ?_⟩
  · change 0 < isresStored alpha mu i s (isresSigma smax s e mu i) ∧ isresStored alpha mu i s (isresSigma smax s e mu i) ≤ smax
    unfold isresStored isresSigma
    split_ifs with c1 c2 c2
    · omega
    · have hc : s + alpha * (min smax (s * e) - s) = (1 - alpha) * s + alpha * min smax (s * e) := by ring
      rw [hc]
      constructor
      · rcases eq_or_lt_of_le ha with h | h
        · rw [← h]; simpa using hs
        · have := mul_pos h hmin.1
          have := mul_nonneg (sub_nonneg.2 ha1) hs.le
          linarith
      · have := mul_le_mul_of_nonneg_left hsm (sub_nonneg.2 ha1)
        have := mul_le_mul_of_nonneg_left hmin.2 ha
        linarith
    · exact ⟨hs, hsm⟩
    · exact hmin
  · change isresStored alpha mu i s (isresSigma smax s e mu i) = s
    unfold isresStored isresSigma
    rw [if_neg (by omega), if_pos hi]
  · have hm : isresMutate gamma mu i x x0 xn (isresSigma smax s e mu i) z = x + gamma * (x0 - xn) := by unfold isresMutate; rw [if_pos hi]
    rw [hm] at h2
    change esRepair x (isresSigma smax s e mu i) xl xu zs (isresMutate gamma mu i x x0 xn (isresSigma smax s e mu i) z) = _
    rw [hm]
    exact h2 hl hu
  · change isresStored alpha mu i s (isresSigma smax s e mu i) = _
    unfold isresStored isresSigma
    rw [if_pos hi, if_neg (by omega)]
    ring

example : isresOff (85 / 100) (1 / 5) (1 : ℚ) 0 1 3 4 (1 / 2) 0 0 (1 / 2) (1 / 2) 8 [1 / 2] = (5 / 8, 9 / 20) := by decide +kernel

end ISRES

end Props
