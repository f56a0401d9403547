import Verif.Model.Mating
import Verif.Props.Population
import Mathlib.Data.Fin.VecNotation

/-! # C47: crossover, mutation and mating at the level of populations -/

set_option linter.unusedSectionVars false
set_option linter.unusedSimpArgs false

namespace Props
open Model

variable {κ V : Type*} [DecidableEq κ]

theorem getElem?_flatMap_block {α β : Type*} (f : α → List β) (m : ℕ) : ∀ (l : List α) (_ : ∀ a ∈ l, (f a).length = m)
    (i k : ℕ) (_ : k < m), (l.flatMap f)[i * m + k]? = l[i]?.bind fun a => (f a)[k]? := by
  intro l
  induction l with
  | nil => intro _ i k _; simp
  | cons a l ih =>
    intro hl i k hk
    have ha : (f a).length = m := hl a (List.mem_cons_self ..)
    rw [List.flatMap_cons]
    cases i with
    | zero => simp [List.getElem?_append_left, ha, hk]
    | succ i =>
      rw [List.getElem?_append_right (by rw [ha, Nat.succ_mul]; omega)]
      have : (i + 1) * m + k - (f a).length = i * m + k := by
        rw [ha, Nat.succ_mul]; omega
      rw [this, ih (fun b hb => hl b (List.mem_cons_of_mem _ hb)) i k hk]
      simp

theorem mapM_id_map_some {α : Type*} : ∀ l : List α, (l.map some).mapM id = (some l : Option (List α)) := by
  intro l
  induction l with
  | nil => rfl
  | cons a l ih => simp [List.mapM_cons, ih]

theorem extendLoop_spec {nPar : ℕ} (hp : 0 < nPar) (perms : ℕ → List (Fin nPar))
    (hperm : ∀ j, (perms j).Perm (List.finRange nPar)) (nOff : ℕ) : ∀ (fuel j : ℕ) (s : List (Fin nPar)),
    nOff ≤ s.length + fuel → ∃ t, extendLoop perms nOff fuel j s = some (s ++ t) ∧ nOff ≤ (s ++ t).length ∧
      (t = [] ∨ ∃ u, t = perms j ++ u) ∧ (s.length < nOff → t ≠ []) := by
  intro fuel
  induction fuel with
  | zero =>
    intro j s h
    have : ¬ s.length < nOff := by omega
    exact ⟨[], by simp [extendLoop, this], by simpa using h, Or.inl rfl, fun h => absurd h this⟩
  | succ fuel ih =>
    intro j s h
    by_cases hlt : s.length < nOff
    · have hl : (perms j).length = nPar := by rw [(hperm j).length_eq]; simp
      obtain ⟨t, h1, h2, h3, h4⟩ := ih (j + 1) (s ++ perms j) (by simp only [List.length_append, hl]; omega)
      refine ⟨perms j ++ t, by rw [extendLoop, if_pos hlt, h1, List.append_assoc], by rw [← List.append_assoc]; exact h2,
        Or.inr ⟨t, rfl⟩, ?_⟩
      intro _ h0
      have : (perms j ++ t).length = 0 := by rw [h0]; rfl
      rw [List.length_append, hl] at this
      omega
    · exact ⟨[], by simp [extendLoop, hlt], by simpa using hlt, Or.inl rfl, fun h => absurd h hlt⟩

/-- The random draws are what the generator can deliver: a choice without replacement, and permutations. -/
structure Draws {nPar : ℕ} (nOff : ℕ) (choice : List (Fin nPar)) (perms : ℕ → List (Fin nPar)) : Prop where
  choice_nodup : choice.Nodup
  choice_length : nOff < nPar → choice.length = nOff
  perm : ∀ j, (perms j).Perm (List.finRange nPar)

/-- C47. A mating that is not crossed copies parents: as many as there are offspring; with as many offspring as parents
the parents in order; with fewer, different parents; with more, every parent at least once. -/
theorem C47_uncrossed_parents {nPar : ℕ} (hp : 0 < nPar) (nOff fuel : ℕ) (hf : nOff ≤ fuel) (choice : List (Fin nPar))
    (perms : ℕ → List (Fin nPar)) (hd : Draws nOff choice perms) :
    ∃ sel, noCrossParents nOff fuel choice perms = some sel ∧ sel.length = nOff ∧
      (nOff = nPar → sel = List.finRange nPar) ∧ (nOff < nPar → sel.Nodup) ∧ (nPar ≤ nOff → ∀ p, p ∈ sel) := by
  unfold noCrossParents
  by_cases h1 : nOff < nPar
  · exact ⟨choice, by rw [if_pos h1], hd.choice_length h1, by omega, fun _ => hd.choice_nodup, by omega⟩
  · rw [if_neg h1]
    by_cases h2 : nOff = nPar
    · exact ⟨_, by rw [if_pos h2], by simp [h2], fun _ => rfl, by omega, fun _ p => List.mem_finRange p⟩
    · rw [if_neg h2]
      obtain ⟨t, e1, e2, e3, e4⟩ := extendLoop_spec hp perms hd.perm nOff fuel 0 [] (by simpa using hf)
      refine ⟨t.take nOff, by rw [e1]; simp, ?_, by omega, by omega, ?_⟩
      · simp only [List.nil_append] at e2; simp [e2]
      · intro _ p
        rcases e3 with e3 | ⟨u, e3⟩
        · exact absurd e3 (e4 (by simp; omega))
        · have hl : (perms 0).length = nPar := by rw [(hd.perm 0).length_eq]; simp
          rw [e3, List.take_append, List.take_of_length_le (by omega)]
          exact List.mem_append_left _ ((hd.perm 0).mem_iff.2 (List.mem_finRange p))

example : Draws (nPar := 3) 2 [2, 0] (fun _ => [1, 2, 0]) ∧
    noCrossParents (nPar := 3) 2 2 [2, 0] (fun _ => [1, 2, 0]) = some [2, 0] ∧
    noCrossParents (nPar := 3) 5 5 [] (fun _ => [1, 2, 0]) = some [1, 2, 0, 1, 2] := by
  refine ⟨⟨by decide, fun _ => rfl, fun _ => by decide⟩, by decide, by decide⟩

/-- C47. `Crossover.do` on matings whose individuals all have design vectors (`P p k` is that of parent `p` of mating `k`):
it returns `n_offsprings * n_matings` new individuals; number `o * n_matings + k` is offspring `o` of mating `k`; if mating
`k` was crossed its vector is that computed by the operator, otherwise that of a parent of the same mating, chosen as in
`C47_uncrossed_parents`; all other attributes are those of a new individual; no existing individual is changed. -/
theorem C47_crossover {nPar nMat : ℕ} (hp : 0 < nPar) (ind0 : κ → Option V) (xkey : κ) (nOff fuel : ℕ) (hf : nOff ≤ fuel)
    (body : (Fin nPar → Fin nMat → Option V) → Fin nOff → Fin nMat → V) (cross : Fin nMat → Bool)
    (choice : Fin nMat → List (Fin nPar)) (perms : Fin nMat → ℕ → List (Fin nPar))
    (hd : ∀ k, Draws nOff (choice k) (perms k)) (matings : Fin nMat → Fin nPar → ℕ) (s : PState κ V)
    (P : Fin nPar → Fin nMat → V) (hP : ∀ p k, s.heap (matings k p) xkey = some (P p k)) :
    ∃ s' off, crossoverDo ind0 xkey nOff fuel body cross choice perms matings s = some (s', off) ∧
      off.length = nOff * nMat ∧ off.Nodup ∧ (∀ i ∈ off, s.next ≤ i ∧ i < s'.next) ∧
      (∀ i, i < s.next → s'.heap i = s.heap i) ∧
      (∀ i ∈ off, ∀ key, key ≠ xkey → s'.heap i key = ind0 key) ∧
      (∀ (o : Fin nOff) (k : Fin nMat), ∃ i, off[o.1 * nMat + k.1]? = some i ∧
        (cross k = true → s'.heap i xkey = some (body (fun p k => some (P p k)) o k)) ∧
        (cross k = false → ∃ sel, noCrossParents nOff fuel (choice k) (perms k) = some sel ∧ ∃ p, sel[o.1]? = some p ∧
          s'.heap i xkey = some (P p k))) := by
  choose sel hsel hlen _ _ _ using fun k => C47_uncrossed_parents hp nOff fuel hf (choice k) (perms k) (hd k)
  set Q := body (fun p k => some (P p k)) with hQ
  let val (o : Fin nOff) (k : Fin nMat) : V := if cross k then Q o k else P ((sel k)[o.1]'(by rw [hlen]; exact o.2)) k
  have hX : (fun p k => s.heap (matings k p) xkey) = fun p k => some (P p k) := by funext p k; exact hP p k
  let rows := (List.finRange nOff).flatMap fun o => (List.finRange nMat).map fun k => val o k
  have hrows : rows.length = nOff * nMat := by simp [rows, List.length_flatMap]
  have hdo : crossoverDo ind0 xkey nOff fuel body cross choice perms matings s = popNew ind0 [(xkey, rows)] s := by
    unfold crossoverDo
    simp only [hX, hP]
    have : ((List.finRange nOff).flatMap fun o => (List.finRange nMat).map fun k =>
        if cross k = true then some (body (fun p k => some (P p k)) o k) else
          (noCrossParents nOff fuel (choice k) (perms k)).bind fun sel => sel[o.1]?.bind fun p => some (P p k)) =
          rows.map some := by
      simp only [rows, List.map_flatMap, List.map_map]
      congr 1
      funext o
      apply List.map_congr_left
      intro k _
      simp only [Function.comp, val]
      by_cases hc : cross k = true
      · simp [hc, hQ]
      · simp only [hc, Bool.false_eq_true, if_false, hsel]
        rw [Option.bind_some, List.getElem?_eq_getElem (by rw [hlen]; exact o.2), Option.bind_some]
    rw [this, mapM_id_map_some]
  obtain ⟨s', off, h1, h2, h3, h4, _, h6, h7, h8⟩ := C35_new ind0 [(xkey, rows)] (by simp) (by simp) (nOff * nMat)
    (by simpa using hrows) s
  refine ⟨s', off, hdo.trans h1, h2, h3, h4, h8, fun i hi key hk => h7 i hi key (by simpa using hk), ?_⟩
  intro o k
  have hrow : rows[o.1 * nMat + k.1]? = some (val o k) := by
    rw [getElem?_flatMap_block _ nMat _ (by intro a _; simp) o.1 k.1 k.2]
    simp
  have h6' := congrArg (fun l => l[o.1 * nMat + k.1]?) (h6 (xkey, rows) (by simp))
  simp only [popGet, List.getElem?_map, hrow, Option.map_some] at h6'
  obtain ⟨i, hi, he⟩ := Option.map_eq_some_iff.1 h6'
  refine ⟨i, hi, fun hc => ?_, fun hc => ⟨sel k, hsel k, (sel k)[o.1]'(by rw [hlen]; exact o.2),
    List.getElem?_eq_getElem _, ?_⟩⟩
  · rw [he]; simp [val, hc]
  · rw [he]; simp [val, hc]

/-- Two matings of two parents, the first crossed. -/
def exHeap47 : PState String ℕ := ⟨fun i k => if k = "X" then some (10 * (i + 1)) else some i, 4⟩

example : (∀ _ : Fin 2, Draws (nPar := 2) 2 ([] : List (Fin 2)) (fun _ => [0, 1])) ∧
    (∀ p k : Fin 2, exHeap47.heap ((![![0, 1], ![2, 3]] : Fin 2 → Fin 2 → ℕ) k p) "X" =
      some (10 * ((![![0, 1], ![2, 3]] : Fin 2 → Fin 2 → ℕ) k p + 1))) ∧
    (crossoverDo (nPar := 2) (nMat := 2) (fun _ => none) "X" 2 2 (fun X o k => (X o k).getD 0 + 5) ![true, false]
      (fun _ => []) (fun _ _ => [0, 1]) ![![0, 1], ![2, 3]] exHeap47).map (fun r => (r.2, popGet r.1.heap r.2 "X")) =
      some ([4, 5, 6, 7], [some 15, some 30, some 25, some 40]) := by
  refine ⟨fun _ => ⟨by decide, by decide, fun _ => by decide⟩, by decide, by decide⟩

/-- C47. If no mating is crossed, the operator's own computation plays no role. -/
theorem C47_no_cross {nPar nMat : ℕ} (ind0 : κ → Option V) (xkey : κ) (nOff fuel : ℕ)
    (body body' : (Fin nPar → Fin nMat → Option V) → Fin nOff → Fin nMat → V) (cross : Fin nMat → Bool)
    (hc : ∀ k, cross k = false) (choice : Fin nMat → List (Fin nPar)) (perms : Fin nMat → ℕ → List (Fin nPar))
    (matings : Fin nMat → Fin nPar → ℕ) (s : PState κ V) :
    crossoverDo ind0 xkey nOff fuel body cross choice perms matings s =
      crossoverDo ind0 xkey nOff fuel body' cross choice perms matings s := by
  simp only [crossoverDo, hc, Bool.false_eq_true, if_false]

example : (crossoverDo (nPar := 2) (nMat := 1) (fun _ => none) "X" 2 2 (fun _ _ _ => 99) ![false] (fun _ => [])
    (fun _ _ => [0, 1]) ![![0, 1]] exHeap47).map (fun r => popGet r.1.heap r.2 "X") = some [some 10, some 20] := by decide

/-- C47. `Mutation.do(inplace=True)` on distinct individuals returns the same population; the accepted positions get
exactly the vector computed for them, the others keep theirs; no other attribute and no other individual changes. -/
theorem C47_mutation_inplace (xkey : κ) (body : List (Option V) → List V) (accept : List Bool) (pop : List ℕ)
    (hnd : pop.Nodup) (s : PState κ V) (hb : (body (popGet s.heap pop xkey)).length = pop.length)
    (ha : accept.length = pop.length) :
    (mutationDo xkey true body accept pop s).2 = pop ∧
    (mutationDo xkey true body accept pop s).1.next = s.next ∧
    (∀ p (hp : p < pop.length), (mutationDo xkey true body accept pop s).1.heap pop[p] xkey =
      if accept[p] = true then some ((body (popGet s.heap pop xkey))[p]) else s.heap pop[p] xkey) ∧
    (∀ i k, (i ∉ pop ∨ k ≠ xkey) → (mutationDo xkey true body accept pop s).1.heap i k = s.heap i k) := by
  set Xp := body (popGet s.heap pop xkey) with hXp
  set sel := ((pop.zip Xp).zip accept).filter (·.2) with hsel
  have hheap : (mutationDo xkey true body accept pop s).1.heap =
      setColumnP xkey (sel.map (·.1.1)) (sel.map (·.1.2)) s.heap := by
    simp [mutationDo, hsel, hXp]
  have hsub : (sel.map (·.1.1)).Sublist pop := by
    have h1 : (sel.map (·.1.1)).Sublist (((pop.zip Xp).zip accept).map (·.1.1)) := List.filter_sublist.map _
    have h2 : (((pop.zip Xp).zip accept).map (·.1.1)) = pop := by
      have : (fun x : (ℕ × V) × Bool => x.1.1) = Prod.fst ∘ Prod.fst := rfl
      rw [this, ← List.map_map, List.map_fst_zip (by simp [hb, ha]), List.map_fst_zip (by omega)]
    rwa [h2] at h1
  refine ⟨by simp [mutationDo], by simp [mutationDo], ?_, ?_⟩
  · intro p hp
    rw [hheap]
    by_cases hac : accept[p] = true
    · rw [if_pos hac]
      have hm : ((pop[p], Xp[p]), true) ∈ sel := by
        rw [hsel, List.mem_filter]
        refine ⟨?_, rfl⟩
        rw [List.mem_iff_getElem]
        refine ⟨p, by simp [hb, ha, hp], ?_⟩
        rw [List.getElem_zip, List.getElem_zip, hac]
      obtain ⟨q, hq, he⟩ := List.getElem_of_mem hm
      have hnd' : (sel.map (·.1.1)).Nodup := hsub.nodup hnd
      have := setColumnP_last xkey (sel.map (·.1.1)) (sel.map (·.1.2)) s.heap (by simp) q (by simpa using hq)
        (by simpa using hq) (fun r hr hqr h => by
          have := (hnd'.getElem_inj_iff).1 h
          omega)
      simp only [List.getElem_map, he] at this
      exact this
    · rw [if_neg hac, setColumnP_other]
      left
      intro hm
      obtain ⟨e, he, hep⟩ := List.mem_map.1 hm
      rw [hsel, List.mem_filter] at he
      obtain ⟨q, hq, hqe⟩ := List.getElem_of_mem he.1
      rw [List.getElem_zip, List.getElem_zip] at hqe
      have hq' : q < pop.length := by simp at hq; omega
      rw [← hqe] at hep he
      have : q = p := (hnd.getElem_inj_iff (hi := hq') (hj := hp)).1 hep
      subst this
      exact hac he.2
  · intro i k hik
    rw [hheap, setColumnP_other]
    rcases hik with h | h
    · exact Or.inl fun hm => h (hsub.subset hm)
    · exact Or.inr h

example : popGet (mutationDo "X" true (fun l => l.map fun x => x.getD 0 + 1) [true, false, true] [2, 0, 1]
    exHeap47).1.heap [0, 1, 2, 3] "X" = [some 10, some 21, some 31, some 40] := by decide

/-- C47. `Mutation.do(inplace=False)` leaves every existing individual as it is; the returned individuals are new, and
apart from their design vectors they have the attributes of the individuals they were copied from. -/
theorem C47_mutation_copy (xkey : κ) (body : List (Option V) → List V) (accept : List Bool) (pop : List ℕ)
    (s : PState κ V) :
    (∀ i, i < s.next → (mutationDo xkey false body accept pop s).1.heap i = s.heap i) ∧
    (mutationDo xkey false body accept pop s).2.length = pop.length ∧
    (∀ p (hp : p < pop.length) (hp' : p < (mutationDo xkey false body accept pop s).2.length),
      s.next ≤ (mutationDo xkey false body accept pop s).2[p] ∧
      (∀ k, k ≠ xkey → (mutationDo xkey false body accept pop s).1.heap ((mutationDo xkey false body accept pop s).2[p]) k =
        s.heap pop[p] k)) := by
  have hpop : (mutationDo xkey false body accept pop s).2 = pop.map fun i => s.next + pop.idxOf i := by
    simp [mutationDo, deepcopyPop]
  have hheap : ∀ i k, (i < s.next ∨ k ≠ xkey) →
      (mutationDo xkey false body accept pop s).1.heap i k = (deepcopyPop pop s).1.heap i k := by
    intro i k hik
    simp only [mutationDo, Bool.false_eq_true, if_false]
    rw [setColumnP_other]
    rcases hik with hik | hik
    · left
      intro hm
      obtain ⟨e, he, rfl⟩ := List.mem_map.1 hm
      have h1 := (List.mem_filter.1 he).1
      obtain ⟨⟨a, b⟩, c⟩ := e
      have h2 := (List.of_mem_zip (List.of_mem_zip h1).1).1
      simp only [deepcopyPop] at h2
      obtain ⟨j, _, rfl⟩ := List.mem_map.1 h2
      simp only at hik
      omega
    · exact Or.inr hik
  refine ⟨?_, by simp [hpop], ?_⟩
  · intro i hi
    funext k
    rw [hheap i k (Or.inl hi)]
    simp [deepcopyPop, Nat.not_le.2 hi]
  · intro p hp hp'
    have hel : (mutationDo xkey false body accept pop s).2[p] = s.next + pop.idxOf pop[p] := by
      simp [hpop]
    rw [hel]
    refine ⟨by omega, fun k hk => ?_⟩
    rw [hheap _ k (Or.inr hk)]
    have hlt : pop.idxOf pop[p] < pop.length := List.idxOf_lt_length_iff.2 (List.getElem_mem hp)
    simp only [deepcopyPop]
    rw [if_pos ⟨by omega, by omega⟩]
    simp [hlt]

example : popGet (mutationDo "X" false (fun l => l.map fun x => x.getD 0 + 1) [true, false] [2, 0]
    exHeap47).1.heap [0, 2, 4, 5] "X" = [some 10, some 30, some 31, some 10] ∧
    (mutationDo "X" false (fun l => l.map fun x => x.getD 0 + 1) [true, false] [2, 0] exHeap47).2 = [4, 5] := by decide

/-- C47. Mating with a crossover that creates its offspring (`Crossover.do`): whatever the operators compute, the
individuals that exist before, in particular the current population, keep all their attributes, and every offspring
is new. -/
theorem C47_mating {nPar nMat : ℕ} (ind0 : κ → Option V) (xkey : κ) (nOff fuel : ℕ)
    (body : (Fin nPar → Fin nMat → Option V) → Fin nOff → Fin nMat → V) (cross : Fin nMat → Bool)
    (choice : Fin nMat → List (Fin nPar)) (perms : Fin nMat → ℕ → List (Fin nPar))
    (mbody : List (Option V) → List V) (accept : List Bool) (matings : Fin nMat → Fin nPar → ℕ) (s s' : PState κ V)
    (off : List ℕ)
    (h : matingDo ind0 xkey nOff fuel body cross choice perms mbody accept matings s = some (s', off)) :
    (∀ i, i < s.next → s'.heap i = s.heap i) ∧ off.Nodup ∧ (∀ i ∈ off, s.next ≤ i) := by
  unfold matingDo at h
  obtain ⟨⟨s1, off1⟩, h1, h2⟩ := Option.map_eq_some_iff.1 h
  have hnew : ∃ rows, popNew ind0 [(xkey, rows)] s = some (s1, off1) := by
    simp only [crossoverDo] at h1
    split at h1
    · cases h1
    · exact ⟨_, h1⟩
  obtain ⟨rows, hnew⟩ := hnew
  obtain ⟨s2, pop, e1, e2, e3, e4, _, _, _, e8⟩ := C35_new ind0 [(xkey, rows)] (by simp) (by simp) rows.length (by simp) s
  rw [hnew] at e1
  obtain ⟨rfl, rfl⟩ : s1 = s2 ∧ off1 = pop := by simpa using e1
  have ho : off = off1 := by
    have := congrArg Prod.snd h2
    simpa [mutationDo] using this.symm
  subst ho
  refine ⟨?_, e3, fun i hi => (e4 i hi).1⟩
  intro i hi
  have hs' : (mutationDo xkey true mbody accept off s1).1 = s' := congrArg Prod.fst h2
  rw [← e8 i hi, ← hs']
  funext k
  simp only [mutationDo, if_true]
  rw [setColumnP_other]
  left
  intro hm
  obtain ⟨e, he, rfl⟩ := List.mem_map.1 hm
  obtain ⟨⟨a, b⟩, c⟩ := e
  have h3 := (List.of_mem_zip (List.of_mem_zip (List.mem_filter.1 he).1).1).1
  have := (e4 a h3).1
  simp only at hi
  omega

example : (matingDo (nPar := 2) (nMat := 2) (fun _ => none) "X" 2 2 (fun X o k => (X o k).getD 0 + 5) ![true, false]
      (fun _ => []) (fun _ _ => [0, 1]) (fun l => l.map fun x => x.getD 0 + 1) [true, false, true, true]
      ![![0, 1], ![2, 3]] exHeap47).map (fun r => (r.2, popGet r.1.heap ([0, 1, 2, 3] ++ r.2) "X")) =
      some ([4, 5, 6, 7], [some 10, some 20, some 30, some 40, some 16, some 30, some 26, some 41]) := by decide

/-- C47 is false with `NoCrossover`: the "offspring" are the parents themselves, so the mutation of the mating changes
design vectors of the current population while the stored objective values stay as they were. -/
theorem C47_nox_corrupts : ∃ (s : PState String ℕ) (matings : Fin 2 → Fin 1 → ℕ),
    (∀ k p, matings k p < s.next) ∧
    (matingNoCrossover "X" (fun l => l.map fun x => x.getD 0 + 1) [true, true] matings s).2 = [0, 1] ∧
    popGet s.heap [0, 1] "X" = [some 10, some 20] ∧
    popGet (matingNoCrossover "X" (fun l => l.map fun x => x.getD 0 + 1) [true, true] matings s).1.heap [0, 1] "X" =
      [some 11, some 21] ∧
    popGet (matingNoCrossover "X" (fun l => l.map fun x => x.getD 0 + 1) [true, true] matings s).1.heap [0, 1] "F" =
      popGet s.heap [0, 1] "F" :=
  ⟨exHeap47, ![![0], ![1]], by decide, by decide, by decide, by decide, by decide⟩

end Props
