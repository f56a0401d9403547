import Verif.Model.SingleObjective
import Verif.Props.Optimum
import Mathlib.Tactic.Linarith
import Mathlib.Tactic.NormNum
import Mathlib.Tactic.Positivity
import Mathlib.Tactic.FieldSimp

/-!
# C68. Single-objective survival, genetic algorithm, random search: nothing good is ever lost
# C69. Evolution strategy
-/

set_option linter.unusedSimpArgs false
set_option linter.unusedVariables false
set_option linter.unusedSectionVars false

namespace Props
open Model

section
variable {ι α β : Type*} [LinearOrder α] [LinearOrder β] (at' : Attrs ι α β 1)

theorem soLe_total (x y : ι) : soLe at' x y ∨ soLe at' y x := by
  unfold soLe
  rcases lt_trichotomy (at'.cv x) (at'.cv y) with h | h | h
  · exact Or.inl (Or.inl h)
  · rcases le_total (at'.F x 0) (at'.F y 0) with h' | h'
    · exact Or.inl (Or.inr ⟨h, h'⟩)
    · exact Or.inr (Or.inr ⟨h.symm, h'⟩)
  · exact Or.inr (Or.inl h)

theorem soLe_trans (x y z : ι) (h1 : soLe at' x y) (h2 : soLe at' y z) : soLe at' x z := by
  unfold soLe at *
  rcases h1 with h1 | ⟨h1, h1'⟩ <;> rcases h2 with h2 | ⟨h2, h2'⟩
  · exact Or.inl (h1.trans h2)
  · exact Or.inl (h2 ▸ h1)
  · exact Or.inl (h1 ▸ h2)
  · exact Or.inr ⟨h1.trans h2, h1'.trans h2'⟩

theorem fitnessOrder_perm (pop : List ι) : (fitnessOrder at' pop).Perm (List.finRange pop.length) := List.perm_insertionSort _ _

theorem fitnessOrder_sorted (pop : List ι) : (fitnessOrder at' pop).Pairwise fun i j => soLe at' (pop.get i) (pop.get j) := by
  unfold fitnessOrder
  have : Std.Total (fun i j : Fin pop.length => soLe at' (pop.get i) (pop.get j)) := ⟨fun i j => soLe_total at' _ _⟩
  have : IsTrans (Fin pop.length) (fun i j => soLe at' (pop.get i) (pop.get j)) := ⟨fun i j k h1 h2 => soLe_trans at' _ _ _ h1 h2⟩
  exact List.pairwise_insertionSort _ _

theorem fitnessOrder_nodup (pop : List ι) : (fitnessOrder at' pop).Nodup :=
  (fitnessOrder_perm at' pop).nodup_iff.2 (List.nodup_finRange _)

theorem fitnessOrder_length (pop : List ι) : (fitnessOrder at' pop).length = pop.length := by
  rw [(fitnessOrder_perm at' pop).length_eq, List.length_finRange]

/-- C68. Survival: `min(n_survive, size)` members of the population (no individual used twice), sorted by violation and then objective, and nobody who is left out is
strictly better than a survivor. -/
theorem C68_survival (n : Option ℕ) (pop : List ι) :
    (fitnessSurvival at' n pop).length = min (n.getD pop.length) pop.length ∧
    (fitnessSurvival at' n pop).Pairwise (soLe at') ∧
    ∃ rest, ((fitnessSurvival at' n pop) ++ rest).Perm pop ∧ ∀ x ∈ fitnessSurvival at' n pop, ∀ y ∈ rest, soLe at' x y := by
  set k := min (n.getD pop.length) pop.length with hk
  have hmap : (fitnessOrder at' pop).map pop.get = (((fitnessOrder at' pop).take k).map pop.get) ++ (((fitnessOrder at' pop).drop k).map pop.get) := by
    rw [← List.map_append, List.take_append_drop]
  refine ⟨?_, ?_, ((fitnessOrder at' pop).drop k).map pop.get, ?_, ?_⟩
  · unfold fitnessSurvival
    rw [List.length_map, List.length_take, fitnessOrder_length, ← hk]
    omega
  · unfold fitnessSurvival
    rw [List.pairwise_map, ← hk]
    exact (fitnessOrder_sorted at' pop).sublist (List.take_sublist _ _)
  · unfold fitnessSurvival
    rw [← hk, ← hmap]
    have h1 := (fitnessOrder_perm at' pop).map pop.get
    have h2 : (List.finRange pop.length).map pop.get = pop := by
      apply List.ext_getElem <;> simp
    rw [h2] at h1
    exact h1
  · intro x hx y hy
    unfold fitnessSurvival at hx
    rw [← hk] at hx
    obtain ⟨i, hi, rfl⟩ := List.mem_map.1 hx
    obtain ⟨j, hj, rfl⟩ := List.mem_map.1 hy
    have hs := fitnessOrder_sorted at' pop
    rw [← List.take_append_drop k (fitnessOrder at' pop), List.pairwise_append] at hs
    exact hs.2.2 i hi j hj

theorem argsortNat_perm (S : List ℕ) : (argsortNat S).Perm (List.range S.length) := List.perm_insertionSort _ _

/-- `argsort` of a permutation is its inverse. -/
theorem argsortNat_inverse (S : List ℕ) (hS : S.Perm (List.range S.length)) (k i : ℕ) (h : S[k]? = some i) : (argsortNat S)[i]? = some k := by
  have hp := argsortNat_perm S
  have hlen : (argsortNat S).length = S.length := by rw [hp.length_eq, List.length_range]
  have hnd : S.Nodup := hS.nodup_iff.2 List.nodup_range
  have hkl := (List.getElem?_eq_some_iff.1 h).1
  have hil : i < S.length := by
    have := hS.mem_iff.1 (List.mem_of_getElem? h)
    simpa using this
  -- the sorted values are `range`
  have hval : (argsortNat S).map (fun a => S.getD a 0) = List.range S.length := by
    have hsort : ((argsortNat S).map fun a => S.getD a 0).Pairwise (· ≤ ·) := by
      rw [List.pairwise_map]
      unfold argsortNat
      have : Std.Total (fun i j : ℕ => S.getD i 0 ≤ S.getD j 0) := ⟨fun i j => le_total _ _⟩
      have : IsTrans ℕ (fun i j => S.getD i 0 ≤ S.getD j 0) := ⟨fun i j k h1 h2 => le_trans h1 h2⟩
      exact List.pairwise_insertionSort (fun i j : ℕ => S.getD i 0 ≤ S.getD j 0) _
    have hperm : ((argsortNat S).map fun a => S.getD a 0).Perm (List.range S.length) := by
      refine (hp.map _).trans ?_
      have : (List.range S.length).map (fun a => S.getD a 0) = S := by
        apply List.ext_getElem
        · simp
        · intro j h1 h2
          simp [h2]
      rw [this]
      exact hS
    exact List.Perm.eq_of_pairwise (le := (· ≤ ·)) (fun a b _ _ h1 h2 => le_antisymm h1 h2) hsort (List.pairwise_le_range (n := S.length)) hperm
  have hil' : i < (argsortNat S).length := by omega
  have e1 : S.getD ((argsortNat S)[i]) 0 = i := by
    have : ((argsortNat S).map fun a => S.getD a 0)[i]? = some i := by rw [hval]; simp [hil]
    rw [List.getElem?_map, List.getElem?_eq_getElem hil'] at this
    simpa using this
  have hal : (argsortNat S)[i] < S.length := by
    have := hp.mem_iff.1 (List.getElem_mem hil')
    simpa using this
  rw [List.getElem?_eq_getElem hil', Option.some.injEq]
  have e2 : S[(argsortNat S)[i]] = S[k] := by
    have e3 : S[k] = i := by rw [List.getElem?_eq_getElem hkl] at h; simpa using h
    rw [e3]
    rw [List.getD_eq_getElem?_getD, List.getElem?_eq_getElem hal, Option.getD_some] at e1
    exact e1
  exact (List.Nodup.getElem_inj_iff hnd).1 e2

/-- C68. The attribute `rank`: the survivor at position `k` has rank `k`, so ranks are `0, 1, 2, …` in order of fitness. -/
theorem C68_rank (n : Option ℕ) (pop : List ι) (k : ℕ) (x : ι) (h : (fitnessSurvival at' n pop)[k]? = some x) :
    ∃ i : ℕ, pop[i]? = some x ∧ (fitnessRank at' pop)[i]? = some k := by
  unfold fitnessSurvival at h
  rw [List.getElem?_map] at h
  obtain ⟨i, hi, rfl⟩ := Option.map_eq_some_iff.1 h
  have hk : (fitnessOrder at' pop)[k]? = some i := by
    rw [List.getElem?_take] at hi
    split_ifs at hi with hc
    exact hi
  refine ⟨i, by simp, ?_⟩
  unfold fitnessRank
  have hl : ((fitnessOrder at' pop).map Fin.val).length = pop.length := by rw [List.length_map, fitnessOrder_length]
  refine argsortNat_inverse _ ?_ k i (by rw [List.getElem?_map, hk]; rfl)
  rw [hl]
  have := (fitnessOrder_perm at' pop).map Fin.val
  have e : (List.finRange pop.length).map Fin.val = List.range pop.length := by
    apply List.ext_getElem <;> simp
  rwa [e] at this

/-! ### Genetic algorithm -/

theorem gaAdvance_keeps (k : ℕ) (pop off all : List ι) (hlen : pop.length ≤ k) (hmem : ∀ x ∈ pop, x ∈ all)
    (hbest : ∀ e ∈ all, e ∈ pop ∨ (pop.length = k ∧ ∀ p ∈ pop, soLe at' p e)) :
    (gaAdvance at' k pop (some off)).length ≤ k ∧ (∀ x ∈ gaAdvance at' k pop (some off), x ∈ all ++ off) ∧
    ∀ e ∈ all ++ off, e ∈ gaAdvance at' k pop (some off) ∨
      ((gaAdvance at' k pop (some off)).length = k ∧ ∀ p ∈ gaAdvance at' k pop (some off), soLe at' p e) := by
  have hadv : gaAdvance at' k pop (some off) = fitnessSurvival at' (some k) (pop ++ off) := rfl
  obtain ⟨s1, s2, rest, s3, s4⟩ := C68_survival at' (some k) (pop ++ off)
  rw [← hadv] at s1 s2 s3 s4
  set pop' := gaAdvance at' k pop (some off) with hp'
  simp only [Option.getD_some] at s1
  have hle : pop'.length ≤ k := by rw [s1]; exact Nat.min_le_left _ _
  -- whoever is left out of the merged population
  have hout : ∀ e ∈ pop ++ off, e ∈ pop' ∨ (pop'.length = k ∧ ∀ p ∈ pop', soLe at' p e) := by
    intro e he
    have := s3.mem_iff.2 he
    rw [List.mem_append] at this
    rcases this with h | h
    · exact Or.inl h
    · refine Or.inr ⟨?_, fun p hp => s4 p hp e h⟩
      have hl := s3.length_eq
      have hr : 0 < rest.length := List.length_pos_of_mem h
      rw [List.length_append, s1] at hl
      rw [s1]
      omega
  refine ⟨hle, ?_, ?_⟩
  · intro x hx
    have := s3.mem_iff.1 (List.mem_append_left rest hx)
    rw [List.mem_append] at this ⊢
    exact this.imp (hmem x) id
  · intro e he
    rw [List.mem_append] at he
    rcases he with he | he
    · rcases hbest e he with h | ⟨h1, h2⟩
      · exact hout e (List.mem_append_left _ h)
      · right
        refine ⟨by rw [s1, List.length_append]; omega, ?_⟩
        intro p hp
        -- positions: `p` sits at a chosen index
        have hpm : p ∈ fitnessSurvival at' (some k) (pop ++ off) := hadv ▸ hp
        unfold fitnessSurvival at hpm
        obtain ⟨i, hi, hpi⟩ := List.mem_map.1 hpm
        simp only [Option.getD_some] at hi
        by_cases hik : i.1 < pop.length
        · apply h2
          rw [← hpi]
          have : (pop ++ off).get i = pop[i.1] := by
            rw [List.get_eq_getElem, List.getElem_append_left hik]
          rw [this]
          exact List.getElem_mem _
        · -- some member of `pop` is not chosen
          have hnd : ((fitnessOrder at' (pop ++ off)).take (min k (pop ++ off).length)).Nodup :=
            (fitnessOrder_nodup at' _).sublist (List.take_sublist _ _)
          have hex : ∃ j : Fin (pop ++ off).length, j.1 < pop.length ∧ j ∉ (fitnessOrder at' (pop ++ off)).take (min k (pop ++ off).length) := by
            by_contra hno
            push Not at hno
            have hsub : ((List.finRange (pop ++ off).length).filter fun j => decide (j.1 < pop.length)) ++ [i] ⊆
                (fitnessOrder at' (pop ++ off)).take (min k (pop ++ off).length) := by
              intro j hj
              rw [List.mem_append, List.mem_singleton] at hj
              rcases hj with hj | rfl
              · exact hno j (by simpa using (List.mem_filter.1 hj).2)
              · exact hi
            have hnd2 : (((List.finRange (pop ++ off).length).filter fun j => decide (j.1 < pop.length)) ++ [i]).Nodup := by
              rw [List.nodup_append]
              refine ⟨(List.nodup_finRange _).filter _, List.nodup_singleton _, ?_⟩
              intro a ha b hb
              rw [List.mem_singleton] at hb
              subst hb
              rintro rfl
              exact hik (by simpa using (List.mem_filter.1 ha).2)
            have hl1 := (List.subperm_of_subset hnd2 hsub).length_le
            have hcount : ((List.finRange (pop ++ off).length).filter fun j => decide (j.1 < pop.length)).length = pop.length := by
              have e : ((List.finRange (pop ++ off).length).filter fun j => decide (j.1 < pop.length)).map Fin.val = List.range pop.length := by
                have e1 : ((List.finRange (pop ++ off).length).filter fun j => decide (j.1 < pop.length)).map Fin.val =
                    (List.range (pop ++ off).length).filter fun j => decide (j < pop.length) := by
                  have e0 : List.range (pop ++ off).length = (List.finRange (pop ++ off).length).map Fin.val := by
                    apply List.ext_getElem <;> simp
                  rw [e0, List.filter_map]
                  rfl
                rw [e1, List.length_append, List.range_add, List.filter_append]
                rw [List.filter_eq_self.2 (by intro a ha; simpa using ha), List.filter_eq_nil_iff.2 (by simp), List.append_nil]
              rw [← List.length_map Fin.val, e, List.length_range]
            rw [List.length_append, hcount, List.length_singleton, List.length_take, fitnessOrder_length] at hl1
            omega
          obtain ⟨j, hj1, hj2⟩ := hex
          have hjo : j ∈ fitnessOrder at' (pop ++ off) := (fitnessOrder_perm at' _).mem_iff.2 (List.mem_finRange j)
          rw [← List.take_append_drop (min k (pop ++ off).length) (fitnessOrder at' (pop ++ off)), List.mem_append] at hjo
          have hjd := hjo.resolve_left hj2
          have hs := fitnessOrder_sorted at' (pop ++ off)
          rw [← List.take_append_drop (min k (pop ++ off).length) (fitnessOrder at' (pop ++ off)), List.pairwise_append] at hs
          have hle1 := hs.2.2 i hi j hjd
          rw [hpi] at hle1
          refine soLe_trans at' _ _ _ hle1 (h2 _ ?_)
          have : (pop ++ off).get j = pop[j.1] := by
            rw [List.get_eq_getElem, List.getElem_append_left hj1]
          rw [this]
          exact List.getElem_mem _
    · exact hout e (List.mem_append_right _ he)

/-- C68. The genetic algorithm, over any number of generations and for any offspring: the population holds exactly the best `pop_size` of **all** individuals
ever evaluated (every individual left out is no better than anybody in it, and somebody is left out only if the population is full), in order of fitness. -/
theorem C68_best_of_all (k : ℕ) (pop : List ι) (hlen : pop.length ≤ k) (offs : List (Option (List ι))) :
    let all := pop ++ (offs.map fun o => o.getD []).flatten
    let final := gaRun at' k pop offs
    final.length ≤ k ∧ (∀ x ∈ final, x ∈ all) ∧ (offs ≠ [] → final.Pairwise (soLe at')) ∧
    ∀ e ∈ all, e ∈ final ∨ (final.length = k ∧ ∀ p ∈ final, soLe at' p e) := by
  have key : ∀ (offs : List (Option (List ι))) (pop all : List ι), pop.length ≤ k → (∀ x ∈ pop, x ∈ all) →
      (∀ e ∈ all, e ∈ pop ∨ (pop.length = k ∧ ∀ p ∈ pop, soLe at' p e)) →
      (gaRun at' k pop offs).length ≤ k ∧ (∀ x ∈ gaRun at' k pop offs, x ∈ all ++ (offs.map fun o => o.getD []).flatten) ∧
      (offs ≠ [] → (gaRun at' k pop offs).Pairwise (soLe at')) ∧
      ∀ e ∈ all ++ (offs.map fun o => o.getD []).flatten, e ∈ gaRun at' k pop offs ∨
        ((gaRun at' k pop offs).length = k ∧ ∀ p ∈ gaRun at' k pop offs, soLe at' p e) := by
    intro offs
    induction offs with
    | nil =>
      intro pop all h1 h2 h3
      simpa [gaRun] using ⟨h1, h2, h3⟩
    | cons o offs ih =>
      intro pop all h1 h2 h3
      have e : gaAdvance at' k pop o = gaAdvance at' k pop (some (o.getD [])) := by cases o <;> rfl
      obtain ⟨q1, q2, q3⟩ := gaAdvance_keeps at' k pop (o.getD []) all h1 h2 h3
      rw [← e] at q1 q2 q3
      obtain ⟨r1, r2, r3, r4⟩ := ih (gaAdvance at' k pop o) (all ++ o.getD []) q1 q2 q3
      refine ⟨r1, ?_, ?_, ?_⟩
      · intro x hx; simpa using r2 x hx
      · intro _
        rcases offs with _ | ⟨o', offs'⟩
        · exact (C68_survival at' (some k) (pop ++ o.getD [])).2.1
        · exact r3 (by simp)
      · intro x hx
        exact r4 x (by simpa using hx)
  simpa using key offs pop pop hlen (fun x h => h) (fun e he => Or.inl he)

/-- C68. In particular the best individual ever evaluated is never lost: the first member of the population is no worse than anybody evaluated so far. -/
theorem C68_elitist (k : ℕ) (hk : 0 < k) (pop : List ι) (hlen : pop.length ≤ k) (offs : List (Option (List ι))) (ho : offs ≠ [])
    (hne : pop ++ (offs.map fun o => o.getD []).flatten ≠ []) :
    ∃ x, (gaRun at' k pop offs).head? = some x ∧ ∀ e ∈ pop ++ (offs.map fun o => o.getD []).flatten, soLe at' x e := by
  obtain ⟨h1, h2, h3, h4⟩ := C68_best_of_all at' k pop hlen offs
  have h3 := h3 ho
  cases hf : gaRun at' k pop offs with
  | nil =>
    exfalso
    obtain ⟨e, he⟩ := List.exists_mem_of_ne_nil _ hne
    rcases h4 e he with h | ⟨h, -⟩
    · simp only [hf] at h; simp at h
    · simp only [hf] at h; simp at h; omega
  | cons x l =>
    refine ⟨x, rfl, ?_⟩
    intro e he
    rw [hf] at h3
    rcases h4 e he with h | ⟨-, h⟩
    · simp only [hf, List.mem_cons] at h
      rcases h with rfl | h
      · exact (soLe_total at' e e).elim id id
      · exact (List.pairwise_cons.1 h3).1 e h
    · exact h x (by simp only [hf]; simp)

/-- Values that show the theorems at work: objective `x % 10`, violation `max 0 (x - 50)`. -/
example : gaRun (⟨fun x _ => x % 10, fun x => decide (x ≤ 50), fun x => x - 50⟩ : Attrs ℕ ℕ ℕ 1) 3 [13, 17, 99] [some [12, 42], none, some [60, 51, 41]] =
    [41, 12, 42] := by decide +kernel

example : fitnessRank (⟨fun x _ => x % 10, fun x => decide (x ≤ 50), fun x => x - 50⟩ : Attrs ℕ ℕ ℕ 1) [13, 17, 99, 11] = [1, 2, 3, 0] := by decide +kernel

end

/-! ### Random search and evolution strategy -/

section
variable {ι α β : Type*} [LinearOrder α] [LinearOrder β] [AddCommGroup α] [IsOrderedAddMonoid α] (pr : ∀ n, (Fin n → Fin 1 → α) → Fin n → ℕ) (at' : Attrs ι α β 1)

/-- `x` is a best individual of `all`: feasible if anybody is, with the smallest objective among the feasible ones; else with the smallest violation. -/
def BestOf (at' : Attrs ι α β 1) (x : ι) (all : List ι) : Prop :=
  x ∈ all ∧ ((∃ y ∈ all, at'.feas y = true) → at'.feas x = true ∧ ∀ y ∈ all, at'.feas y = true → at'.F x 0 ≤ at'.F y 0) ∧
  ((∀ y ∈ all, at'.feas y = false) → ∀ y ∈ all, at'.cv x ≤ at'.cv y)

theorem filterOptimum_best (pop : List ι) (hne : pop ≠ []) : ∃ x, filterOptimum pr at' true (some pop) = some (some [x]) ∧ BestOf at' x pop := by
  by_cases hf : ∃ y ∈ pop, at'.feas y = true
  · obtain ⟨x, h1, h2, h3, h4⟩ := C21_single_objective (leastInfeasible := true) at' pr pop hf
    refine ⟨x, h1, h2, fun _ => ⟨h3, h4⟩, fun h => ?_⟩
    obtain ⟨y, hy, hy'⟩ := hf
    rw [h y hy] at hy'
    simp at hy'
  · push Not at hf
    have hf' : ∀ x ∈ pop, at'.feas x = false := fun x hx => by simpa using hf x hx
    obtain ⟨-, x, h1, h2, h3⟩ := C21_no_feasible (paretoRank := pr) (at' := at') pop hne hf'
    refine ⟨x, h1, h2, fun ⟨y, hy, hy'⟩ => ?_, fun _ => h3⟩
    rw [hf' y hy] at hy'
    simp at hy'

/-- Best of old and new. -/
theorem BestOf.merge (o x : ι) (old new both : List ι) (ho : BestOf at' o old) (hx : BestOf at' x both) (hb : ∀ y, y ∈ both ↔ y = o ∨ y ∈ new) :
    BestOf at' x (old ++ new) := by
  obtain ⟨o1, o2, o3⟩ := ho
  obtain ⟨x1, x2, x3⟩ := hx
  have hob : o ∈ both := (hb o).2 (Or.inl rfl)
  refine ⟨?_, ?_, ?_⟩
  · rcases (hb x).1 x1 with rfl | h
    · exact List.mem_append_left _ o1
    · exact List.mem_append_right _ h
  · rintro ⟨y, hy, hyf⟩
    have hexb : ∃ y ∈ both, at'.feas y = true := by
      rw [List.mem_append] at hy
      rcases hy with hy | hy
      · exact ⟨o, hob, (o2 ⟨y, hy, hyf⟩).1⟩
      · exact ⟨y, (hb y).2 (Or.inr hy), hyf⟩
    obtain ⟨g1, g2⟩ := x2 hexb
    refine ⟨g1, fun z hz hzf => ?_⟩
    rw [List.mem_append] at hz
    rcases hz with hz | hz
    · obtain ⟨q1, q2⟩ := o2 ⟨z, hz, hzf⟩
      exact (g2 o hob q1).trans (q2 z hz hzf)
    · exact g2 z ((hb z).2 (Or.inr hz)) hzf
  · intro hall z hz
    have hbf : ∀ y ∈ both, at'.feas y = false := by
      intro y hy
      rcases (hb y).1 hy with rfl | h
      · exact hall y (List.mem_append_left _ o1)
      · exact hall y (List.mem_append_right _ h)
    rw [List.mem_append] at hz
    rcases hz with hz | hz
    · exact (x3 hbf o hob).trans (o3 (fun y hy => hall y (List.mem_append_left _ hy)) z hz)
    · exact x3 hbf z ((hb z).2 (Or.inr hz))

/-- C68. Random search: after any number of samples the optimum is one individual, a best one of all that were evaluated. -/
theorem C68_random_search (batches : List (List ι)) (hb : batches ≠ []) (hne : ∀ b ∈ batches, b ≠ []) :
    ∃ x, rsRun pr at' batches = some (some [x]) ∧ BestOf at' x batches.flatten := by
  have key : ∀ (bs : List (List ι)) (o : ι) (old : List ι), BestOf at' o old →
      ∃ x, bs.foldlM (fun opt b => rsAdvance pr at' opt b) (some [o]) = some (some [x]) ∧ BestOf at' x (old ++ bs.flatten) := by
    intro bs
    induction bs with
    | nil => intro o old h; exact ⟨o, rfl, by simpa using h⟩
    | cons b bs ih =>
      intro o old h
      obtain ⟨x, h1, h2⟩ := filterOptimum_best pr at' (b ++ [o]) (by simp)
      have h3 : BestOf at' x (old ++ b) := BestOf.merge at' o x old b (b ++ [o]) h h2 (by intro y; simp [or_comm])
      obtain ⟨y, g1, g2⟩ := ih x (old ++ b) h3
      refine ⟨y, ?_, by simpa using g2⟩
      rw [List.foldlM_cons]
      show (rsAdvance pr at' (some [o]) b).bind _ = _
      rw [show rsAdvance pr at' (some [o]) b = some (some [x]) from h1]
      exact g1
  rcases batches with _ | ⟨b, bs⟩
  · exact absurd rfl hb
  · obtain ⟨x, h1, h2⟩ := filterOptimum_best pr at' b (hne b (by simp))
    obtain ⟨y, g1, g2⟩ := key bs x b h2
    refine ⟨y, ?_, by simpa using g2⟩
    unfold rsRun
    rw [List.foldlM_cons]
    show (rsAdvance pr at' none b).bind _ = _
    rw [show rsAdvance pr at' none b = some (some [x]) from h1]
    exact g1

/-- The best individual by violation and objective is a best one in the sense of the optimum, if feasible means no violation. -/
theorem bestOf_of_soLe (hcv : ∀ x y, at'.feas x = true → at'.cv x ≤ at'.cv y) (hcv' : ∀ x y, at'.feas x = true → at'.cv y ≤ at'.cv x → at'.feas y = true)
    (x : ι) (all : List ι) (hx : x ∈ all) (h : ∀ y ∈ all, soLe at' x y) : BestOf at' x all := by
  refine ⟨hx, ?_, ?_⟩
  · rintro ⟨y, hy, hyf⟩
    have hxy : at'.cv x ≤ at'.cv y := by
      rcases h y hy with h | h
      · exact h.le
      · exact h.1.le
    have hxf := hcv' y x hyf hxy
    refine ⟨hxf, fun z hz hzf => ?_⟩
    rcases h z hz with h | h
    · exact absurd (hcv z x hzf) (not_le.2 h)
    · exact h.2
  · intro hall y hy
    rcases h y hy with h | h
    · exact h.le
    · exact h.1.le

/-- A best individual survives. -/
theorem survivor_best (hcv : ∀ x y, at'.feas x = true → at'.cv x ≤ at'.cv y) (hcv' : ∀ x y, at'.feas x = true → at'.cv y ≤ at'.cv x → at'.feas y = true)
    (k : ℕ) (hk : 0 < k) (inf : List ι) (hne : inf ≠ []) : fitnessSurvival at' (some k) inf ≠ [] ∧
      (∀ x ∈ fitnessSurvival at' (some k) inf, x ∈ inf) ∧ ∃ x ∈ fitnessSurvival at' (some k) inf, BestOf at' x inf := by
  obtain ⟨s1, s2, rest, s3, s4⟩ := C68_survival at' (some k) inf
  have hpos : 0 < inf.length := List.length_pos_iff.2 hne
  simp only [Option.getD_some] at s1
  have hne' : fitnessSurvival at' (some k) inf ≠ [] := by
    intro h
    rw [h] at s1
    simp at s1
    omega
  refine ⟨hne', fun x hx => s3.mem_iff.1 (List.mem_append_left _ hx), ?_⟩
  rcases hl : fitnessSurvival at' (some k) inf with _ | ⟨x, l⟩
  · exact absurd hl hne'
  refine ⟨x, by simp, ?_⟩
  rw [hl] at s2 s3 s4
  apply bestOf_of_soLe at' hcv hcv' x inf (s3.mem_iff.1 (by simp))
  intro y hy
  have := s3.mem_iff.2 hy
  rw [List.mem_append, List.mem_cons] at this
  rcases this with (rfl | h) | h
  · exact (soLe_total at' y y).elim id id
  · exact (List.pairwise_cons.1 s2).1 y h
  · exact s4 x (by simp) y h

/-- Transitivity over a subset that contains a best one. -/
theorem BestOf.lift (x b : ι) (sub all : List ι) (hx : BestOf at' x sub) (hsub : ∀ y ∈ sub, y ∈ all) (hb : BestOf at' b all) (hbs : b ∈ sub) :
    BestOf at' x all := by
  obtain ⟨x1, x2, x3⟩ := hx
  obtain ⟨b1, b2, b3⟩ := hb
  refine ⟨hsub x x1, ?_, ?_⟩
  · intro hex
    obtain ⟨q1, q2⟩ := b2 hex
    obtain ⟨g1, g2⟩ := x2 ⟨b, hbs, q1⟩
    exact ⟨g1, fun z hz hzf => (g2 b hbs q1).trans (q2 z hz hzf)⟩
  · intro hall z hz
    exact (x3 (fun y hy => hall y (hsub y hy)) b hbs).trans (b3 hall z hz)

/-- C69. Evolution strategy, any number of generations and any offspring: the population has `pop_size` members (once there are as many), and although the population itself may forget
good solutions, the reported optimum is always one individual that is a best one of all that were evaluated. -/
theorem C69_optimum (hcv : ∀ x y, at'.feas x = true → at'.cv x ≤ at'.cv y) (hcv' : ∀ x y, at'.feas x = true → at'.cv y ≤ at'.cv x → at'.feas y = true)
    (k : ℕ) (hk : 0 < k) (init : List ι) (hinit : init ≠ []) (offs : List (List ι)) (hoffs : ∀ o ∈ offs, o ≠ []) :
    ∃ pop x, esRun pr at' k init offs = some ⟨pop, some [x]⟩ ∧ BestOf at' x (init ++ offs.flatten) ∧
      (∀ p ∈ pop, p ∈ init ++ offs.flatten) ∧ pop ≠ [] ∧ (init.length = k → pop.length = k) := by
  have key : ∀ (offs : List (List ι)), (∀ o ∈ offs, o ≠ []) → ∀ (pop : List ι) (o : ι) (old : List ι), pop ≠ [] → (∀ p ∈ pop, p ∈ old) → BestOf at' o old →
      ∃ pop' x, offs.foldlM (fun s o => esAdvance pr at' k s o) ⟨pop, some [o]⟩ = some ⟨pop', some [x]⟩ ∧ BestOf at' x (old ++ offs.flatten) ∧
        (∀ p ∈ pop', p ∈ old ++ offs.flatten) ∧ pop' ≠ [] ∧ (pop.length = k → pop'.length = k) := by
    intro offs
    induction offs with
    | nil =>
      intro _ pop o old h0 h1 h2
      exact ⟨pop, o, rfl, by simpa using h2, by simpa using h1, h0, fun h => h⟩
    | cons b offs ih =>
      intro hoffs pop o old h0 h1 h2
      have hbne := hoffs b (by simp)
      set inf := if b.length < k then b ++ pop else b with hinf
      have hsubinf : ∀ y ∈ inf, y ∈ b ∨ y ∈ pop := by
        intro y hy
        rw [hinf] at hy
        split_ifs at hy
        · simpa using hy
        · exact Or.inl hy
      have hbinf : ∀ y ∈ b, y ∈ inf := by
        intro y hy
        rw [hinf]
        split_ifs
        · simp [hy]
        · exact hy
      have hinfne : inf ≠ [] := by
        obtain ⟨y, hy⟩ := List.exists_mem_of_ne_nil _ hbne
        exact List.ne_nil_of_mem (hbinf y hy)
      obtain ⟨g1, g2, w, g3, g4⟩ := survivor_best at' hcv hcv' k hk inf hinfne
      set pop' := fitnessSurvival at' (some k) inf with hpop'
      obtain ⟨x, f1, f2⟩ := filterOptimum_best pr at' (o :: pop') (by simp)
      have hstep : esAdvance pr at' k ⟨pop, some [o]⟩ b = some ⟨pop', some [x]⟩ := by
        unfold esAdvance esSetOptimum
        simp only [← hinf, ← hpop', List.singleton_append, f1, Option.map_some]
      -- `x` is best of `old ++ inf`
      have hx1 : BestOf at' x (o :: inf) := by
        have hw : BestOf at' w inf := g4
        obtain ⟨y, -, y2⟩ := filterOptimum_best pr at' (o :: inf) (by simp)
        have hyin : BestOf at' x (o :: inf) := by
          obtain ⟨x1, x2, x3⟩ := f2
          obtain ⟨w1, w2, w3⟩ := hw
          have hwp : w ∈ o :: pop' := by simp [g3]
          refine ⟨?_, ?_, ?_⟩
          · rw [List.mem_cons] at x1 ⊢
            exact x1.imp id (g2 x)
          · rintro ⟨z, hz, hzf⟩
            rw [List.mem_cons] at hz
            have hex : ∃ y ∈ o :: pop', at'.feas y = true := by
              rcases hz with rfl | hz
              · exact ⟨z, by simp, hzf⟩
              · exact ⟨w, hwp, (w2 ⟨z, hz, hzf⟩).1⟩
            obtain ⟨q1, q2⟩ := x2 hex
            refine ⟨q1, fun v hv hvf => ?_⟩
            rw [List.mem_cons] at hv
            rcases hv with rfl | hv
            · exact q2 v (by simp) hvf
            · obtain ⟨r1, r2⟩ := w2 ⟨v, hv, hvf⟩
              exact (q2 w hwp r1).trans (r2 v hv hvf)
          · intro hall v hv
            have hpf : ∀ y ∈ o :: pop', at'.feas y = false := by
              intro y hy
              rw [List.mem_cons] at hy
              rcases hy with rfl | hy
              · exact hall y (by simp)
              · exact hall y (by simp [g2 y hy])
            rw [List.mem_cons] at hv
            rcases hv with rfl | hv
            · exact x3 hpf v (by simp)
            · exact (x3 hpf w hwp).trans (w3 (fun y hy => hall y (by simp [hy])) v hv)
        exact hyin
      have hx2 : BestOf at' x (old ++ inf) := BestOf.merge at' o x old inf (o :: inf) h2 hx1 (by intro y; simp)
      have hx3 : BestOf at' x (old ++ b) := by
        obtain ⟨x1, x2, x3⟩ := hx2
        have hm1 : ∀ y ∈ old ++ inf, y ∈ old ++ b := by
          intro y hy
          rw [List.mem_append] at hy ⊢
          rcases hy with hy | hy
          · exact Or.inl hy
          · rcases hsubinf y hy with h | h
            · exact Or.inr h
            · exact Or.inl (h1 y h)
        have hm2 : ∀ y ∈ old ++ b, y ∈ old ++ inf := by
          intro y hy
          rw [List.mem_append] at hy ⊢
          exact hy.imp id (hbinf y)
        refine ⟨hm1 x x1, ?_, ?_⟩
        · rintro ⟨z, hz, hzf⟩
          obtain ⟨q1, q2⟩ := x2 ⟨z, hm2 z hz, hzf⟩
          exact ⟨q1, fun v hv => q2 v (hm2 v hv)⟩
        · intro hall v hv
          exact x3 (fun y hy => hall y (hm1 y hy)) v (hm2 v hv)
      obtain ⟨pop2, x2, r1, r2, r3, r4, r5⟩ := ih (fun o ho => hoffs o (by simp [ho])) pop' x (old ++ b) g1 (by
        intro p hp
        rw [List.mem_append]
        rcases hsubinf p (g2 p hp) with h | h
        · exact Or.inr h
        · exact Or.inl (h1 p h)) hx3
      refine ⟨pop2, x2, ?_, by simpa using r2, by simpa using r3, r4, ?_⟩
      · rw [List.foldlM_cons]
        show (esAdvance pr at' k ⟨pop, some [o]⟩ b).bind _ = _
        rw [hstep]
        exact r1
      · intro hlen
        apply r5
        have := (C68_survival at' (some k) inf).1
        rw [← hpop'] at this
        rw [this, Option.getD_some, hinf]
        split_ifs with hc
        · rw [List.length_append]; omega
        · omega
  have hpos : 0 < init.length := List.length_pos_iff.2 hinit
  obtain ⟨g1, g2, w, g3, g4⟩ := survivor_best at' hcv hcv' init.length hpos init hinit
  obtain ⟨x, f1, f2⟩ := filterOptimum_best pr at' (fitnessSurvival at' (some init.length) init) g1
  have hx : BestOf at' x init := BestOf.lift at' x w _ init f2 g2 g4 g3
  obtain ⟨pop', x', r1, r2, r3, r4, r5⟩ := key offs hoffs (fitnessSurvival at' (some init.length) init) x init g1 g2 hx
  refine ⟨pop', x', ?_, r2, r3, r4, ?_⟩
  · unfold esRun esInit esSetOptimum
    simp only [f1, Option.map_some, Option.bind_some]
    exact r1
  · intro h
    apply r5
    rw [(C68_survival at' (some init.length) init).1]
    simpa using h

end

/-- C69. The population of an evolution strategy forgets: the best individual is not in it any more, but still the optimum. -/
theorem C69_population_forgets : ∃ pop, esRun (fun _ _ _ => 0) (⟨fun x _ => x, fun _ => true, fun _ => 0⟩ : Attrs ℤ ℤ ℤ 1) 2 [1, 5] [[7, 3, 9, 4]] =
    some ⟨pop, some [1]⟩ ∧ pop = [3, 4] := ⟨_, rfl, by decide +kernel⟩

example : ∀ x y : ℤ, (⟨fun x _ => x, fun x => decide (x ≤ 5), fun x => max 0 (x - 5)⟩ : Attrs ℤ ℤ ℤ 1).feas x = true →
    (⟨fun x _ => x, fun x => decide (x ≤ 5), fun x => max 0 (x - 5)⟩ : Attrs ℤ ℤ ℤ 1).cv x ≤
      (⟨fun x _ => x, fun x => decide (x ≤ 5), fun x => max 0 (x - 5)⟩ : Attrs ℤ ℤ ℤ 1).cv y := by
  intro x y h
  simp only [decide_eq_true_eq] at h
  simp only
  omega

/-! ### Sizes -/

/-- C69. The sizes: an accepted configuration creates at least twice as many offspring as survive; the values given are used; if the rule is at most a half a given population size is always accepted. -/
theorem C69_sizes (nOff popSize : Option ℕ) (rule : ℚ) :
    (∀ r, esSizes nOff popSize rule = some r → 2 * r.2 ≤ r.1 ∧ (∀ n, nOff = some n → r.1 = n) ∧ (∀ p, popSize = some p → r.2 = p)) ∧
    (∀ p, 0 < rule → rule ≤ 1 / 2 → ∃ r, esSizes none (some p) rule = some r ∧ (r.1 : ℚ) ≤ p / rule ∧ p / rule < r.1 + 1) ∧
    esSizes none none (1 / 7) = some (200, 29) := by
  refine ⟨?_, ?_, by decide +kernel⟩
  · intro r hr
    unfold esSizes at hr
    simp only [] at hr
    split_ifs at hr with h
    rw [Option.some.injEq] at hr
    subst hr
    refine ⟨h, ?_, ?_⟩
    · rintro n rfl
      cases popSize <;> rfl
    · rintro p rfl
      cases nOff <;> rfl
  · intro p h0 h1
    have hp : (0 : ℚ) ≤ p := Nat.cast_nonneg p
    have hdiv : (2 * p : ℚ) ≤ p / rule := by
      rw [le_div_iff₀ h0]
      nlinarith
    have hfl : (2 * p : ℤ) ≤ ⌊(p : ℚ) / rule⌋ := by
      rw [Int.le_floor]
      push_cast
      exact hdiv
    have hnn : (0 : ℤ) ≤ ⌊(p : ℚ) / rule⌋ := le_trans (by positivity) hfl
    have hcast : ((⌊(p : ℚ) / rule⌋.toNat : ℕ) : ℚ) = (⌊(p : ℚ) / rule⌋ : ℤ) := by
      rw [← Int.cast_natCast, Int.toNat_of_nonneg hnn]
    refine ⟨((⌊(p : ℚ) / rule⌋).toNat, p), ?_, ?_, ?_⟩
    · unfold esSizes
      simp only []
      rw [if_pos]
      omega
    · simp only []
      rw [hcast]
      exact Int.floor_le _
    · simp only []
      rw [hcast]
      exact Int.lt_floor_add_one _

/-! ### Operators -/

section
variable {K : Type*} [Field K] [LinearOrder K] [IsStrictOrderedRing K]

/-- C69. Every parent is used about equally often: offspring `i` comes from parent `i mod pop_size`. -/
theorem C69_parents (lambda mu : ℕ) (hmu : 0 < mu) : (esParents lambda mu).length = lambda ∧ (∀ p ∈ esParents lambda mu, p < mu) ∧
    ∀ p < mu, (p < lambda → p ∈ esParents lambda mu) := by
  refine ⟨by simp [esParents], ?_, ?_⟩
  · intro p hp
    obtain ⟨i, -, rfl⟩ := List.mem_map.1 hp
    exact Nat.mod_lt _ hmu
  · intro p hp hl
    exact List.mem_map.2 ⟨p, by simpa using hl, Nat.mod_eq_of_lt hp⟩

/-- C69. Step sizes stay positive and never exceed the maximum, for all draws. -/
theorem C69_sigma (gamma : Option K) (mu i : ℕ) (smax s s' e : K) (hs : 0 < s) (hs' : 0 < s') (he : 0 < e) (hm : 0 < smax) (hle : s ≤ smax) :
    0 < esOffSigma gamma mu i s (esSigma smax s s' e) ∧ esOffSigma gamma mu i s (esSigma smax s s' e) ≤ smax := by
  have h1 : 0 < esSigma smax s s' e := by
    unfold esSigma
    rw [lt_min_iff]
    exact ⟨hm, by positivity⟩
  have h2 : esSigma smax s s' e ≤ smax := min_le_left _ _
  unfold esOffSigma
  cases gamma with
  | none => exact ⟨h1, h2⟩
  | some g =>
    simp only []
    split_ifs
    · exact ⟨hs, hle⟩
    · exact ⟨h1, h2⟩

/-- C69. The differential variation is used for the first `pop_size - 1` offspring exactly; they keep the step size of their parent. -/
theorem C69_variation (g : K) (mu i : ℕ) (x x0 xn sigma snew z : K) :
    (i + 1 < mu → esMutate (some g) mu i x x0 xn sigma z = x + g * (x0 - xn) ∧ esOffSigma (some g) mu i sigma snew = sigma) ∧
    (¬ i + 1 < mu → esMutate (some g) mu i x x0 xn sigma z = x + sigma * z ∧ esOffSigma (some g) mu i sigma snew = snew) ∧
    esMutate none mu i x x0 xn sigma z = x + sigma * z ∧ esOffSigma (none : Option K) mu i sigma snew = snew := by
  refine ⟨?_, ?_, rfl, rfl⟩
  · intro h
    have : i < mu - 1 := by omega
    simp [esMutate, esOffSigma, this]
  · intro h
    have : ¬ i < mu - 1 := by omega
    simp [esMutate, esOffSigma, this]

/-- C69. Repaired offspring lie within the bounds if their parents do, for all draws and any number of trials; values already inside stay; a value that is moved becomes a new mutation of the parent or the parent's value. -/
theorem C69_repair (x sigma xl xu : K) (zs : List K) (xp : K) (hx : xl ≤ x ∧ x ≤ xu) :
    (xl ≤ esRepair x sigma xl xu zs xp ∧ esRepair x sigma xl xu zs xp ≤ xu) ∧
    (xl ≤ xp → xp ≤ xu → esRepair x sigma xl xu zs xp = xp) ∧
    (esRepair x sigma xl xu zs xp = xp ∨ esRepair x sigma xl xu zs xp = x ∨ ∃ z ∈ zs, esRepair x sigma xl xu zs xp = x + sigma * z) := by
  induction zs generalizing xp with
  | nil =>
    unfold esRepair
    split_ifs with h
    · refine ⟨hx, ?_, Or.inr (Or.inl rfl)⟩
      intro h1 h2
      rcases h with h | h
      · exact absurd h1 (not_le.2 h)
      · exact absurd h2 (not_le.2 h)
    · push Not at h
      exact ⟨h, fun _ _ => rfl, Or.inl rfl⟩
  | cons z zs ih =>
    rw [esRepair]
    split_ifs with h
    · obtain ⟨i1, i2, i3⟩ := ih (x + sigma * z)
      refine ⟨i1, ?_, ?_⟩
      · intro h1 h2
        rcases h with h | h
        · exact absurd h1 (not_le.2 h)
        · exact absurd h2 (not_le.2 h)
      · rcases i3 with i3 | i3 | ⟨z', hz', i3⟩
        · exact Or.inr (Or.inr ⟨z, by simp, i3⟩)
        · exact Or.inr (Or.inl i3)
        · exact Or.inr (Or.inr ⟨z', by simp [hz'], i3⟩)
    · push Not at h
      exact ⟨h, fun _ _ => rfl, Or.inl rfl⟩

example : esRepair (1 : ℚ) 2 0 3 [5, -1, 1 / 2] 9 = 2 ∧ esRepair (1 : ℚ) 2 0 3 [5, -1] 9 = 1 := by constructor <;> decide +kernel

end
end Props
