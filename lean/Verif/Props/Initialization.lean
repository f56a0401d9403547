import Verif.Model.Initialization
import Verif.Props.Duplicate
import Verif.Props.Evaluator

/-!
# C111: the initial population
-/

set_option linter.unusedSimpArgs false
set_option linter.unusedVariables false

namespace Props

open Model

variable {X κ V : Type*}

theorem foldl_x (l : List (ℕ × X)) (heap : ℕ → EvInd X κ V) (i : ℕ) :
    (l.foldl (fun (h : ℕ → EvInd X κ V) e => Function.update h e.1 { h e.1 with x := e.2 }) heap i).evaluated = (heap i).evaluated ∧
    (l.foldl (fun (h : ℕ → EvInd X κ V) e => Function.update h e.1 { h e.1 with x := e.2 }) heap i).vals = (heap i).vals ∧
    ((∀ e ∈ l, e.1 ≠ i) → l.foldl (fun (h : ℕ → EvInd X κ V) e => Function.update h e.1 { h e.1 with x := e.2 }) heap i = heap i) ∧
    ((∃ e ∈ l, e.1 = i) → ∃ e ∈ l, e.1 = i ∧ (l.foldl (fun (h : ℕ → EvInd X κ V) e => Function.update h e.1 { h e.1 with x := e.2 }) heap i).x = e.2) ∧
    (∀ e ∈ l, e.1 = i → (∀ e' ∈ l, e'.1 = i → e' = e) →
      (l.foldl (fun (h : ℕ → EvInd X κ V) e => Function.update h e.1 { h e.1 with x := e.2 }) heap i).x = e.2) := by
  induction l generalizing heap with
  | nil => exact ⟨rfl, rfl, fun _ => rfl, by simp, by simp⟩
  | cons a l ih =>
    obtain ⟨h1, h2, h3, h4, h5⟩ := ih (Function.update heap a.1 { heap a.1 with x := a.2 })
    simp only [List.foldl_cons]
    have hstep : (Function.update heap a.1 { heap a.1 with x := a.2 } i).evaluated = (heap i).evaluated ∧
        (Function.update heap a.1 { heap a.1 with x := a.2 } i).vals = (heap i).vals := by
      by_cases h : i = a.1
      · subst h; simp
      · simp [Function.update_of_ne h]
    refine ⟨h1.trans hstep.1, h2.trans hstep.2, ?_, ?_, ?_⟩
    · intro hne
      rw [h3 fun e he => hne e (List.mem_cons_of_mem _ he)]
      rw [Function.update_of_ne (hne a (List.mem_cons_self ..)).symm]
    · intro _
      by_cases hl : ∃ e ∈ l, e.1 = i
      · obtain ⟨e, he, hi, hx⟩ := h4 hl
        exact ⟨e, List.mem_cons_of_mem _ he, hi, hx⟩
      · push Not at hl
        rename_i hex
        obtain ⟨e, he, hi⟩ := hex
        rcases List.mem_cons.1 he with rfl | he
        · refine ⟨e, List.mem_cons_self .., hi, ?_⟩
          rw [h3 hl, ← hi]; simp
        · exact absurd hi (hl e he)
    · intro e he hi huniq
      by_cases hl : ∃ e ∈ l, e.1 = i
      · obtain ⟨e', he', hi', hx'⟩ := h4 hl
        rw [hx', huniq e' (List.mem_cons_of_mem _ he') hi']
      · push Not at hl
        rcases List.mem_cons.1 he with rfl | he
        · rw [h3 hl, ← hi]; simp
        · exact absurd hi (hl e he)

/-- The population before repair and duplicate elimination, with its heap: the user's population, or new individuals for the points. -/
def drawn (heap : ℕ → EvInd X κ V) (next nSamples : ℕ) : InitSampling X → (ℕ → EvInd X κ V) × List ℕ
  | .pop ids => (heap, ids)
  | .array rows => newInds heap next rows
  | .op draw => newInds heap next (draw nSamples)

/-- New individuals are created for the points, in their order, without values, and no other object is touched. -/
theorem newInds_spec (heap : ℕ → EvInd X κ V) (next : ℕ) (rows : List X) :
    (newInds heap next rows).2.Nodup ∧ (newInds heap next rows).2.map (fun i => ((newInds heap next rows).1 i).x) = rows ∧
    (∀ i ∈ (newInds heap next rows).2, next ≤ i ∧ ((newInds heap next rows).1 i).evaluated = []) ∧
    ∀ i < next, (newInds heap next rows).1 i = heap i := by
  refine ⟨?_, ?_, ?_, ?_⟩
  · exact List.Nodup.map (fun a b h => by simpa using h) List.nodup_range
  · apply List.ext_getElem
    · simp [newInds]
    · intro k h1 h2
      simp only [newInds, List.getElem_map, List.getElem_range, Nat.add_sub_cancel_left, List.getElem?_eq_getElem h2, Nat.le_add_right, if_true]
  · intro i hi
    simp only [newInds, List.mem_map, List.mem_range] at hi
    obtain ⟨k, hk, rfl⟩ := hi
    refine ⟨Nat.le_add_right _ _, ?_⟩
    simp only [newInds, Nat.add_sub_cancel_left, List.getElem?_eq_getElem hk, Nat.le_add_right, if_true]
  · intro i hi
    simp only [newInds]
    split
    · rw [if_neg (by omega)]
    · rfl

variable (repair : List X → List X) (masks : (ℕ → EvInd X κ V) → DupMasks ℕ) (heap : ℕ → EvInd X κ V) (next nSamples : ℕ) (s : InitSampling X)

theorem initDo_spec (heap' : ℕ → EvInd X κ V) (pop : List ℕ) (h : initDo repair masks heap next nSamples s = some (heap', pop)) :
    pop = dedup (masks heap') true (drawn heap next nSamples s).2 [] ∧
    let d := drawn heap next nSamples s
    let todo := d.2.filter fun i => (d.1 i).evaluated.isEmpty
    (todo = [] ∧ heap' = d.1) ∨ (todo ≠ [] ∧ (repair (todo.map fun i => (d.1 i).x)).length = todo.length ∧
      heap' = (todo.zip (repair (todo.map fun i => (d.1 i).x))).foldl (fun (h : ℕ → EvInd X κ V) e => Function.update h e.1 { h e.1 with x := e.2 }) d.1) := by
  have hd : initDo repair masks heap next nSamples s =
      (if ((drawn heap next nSamples s).2.filter fun i => ((drawn heap next nSamples s).1 i).evaluated.isEmpty).length > 0 then
        repairInds repair (drawn heap next nSamples s).1 ((drawn heap next nSamples s).2.filter fun i => ((drawn heap next nSamples s).1 i).evaluated.isEmpty)
        else some (drawn heap next nSamples s).1).map fun h => (h, dedup (masks h) true (drawn heap next nSamples s).2 []) := by
    cases s <;> rfl
  rw [hd] at h
  obtain ⟨h1, h2, h3⟩ := Option.map_eq_some_iff.1 h
  simp only [Prod.mk.injEq] at h3
  obtain ⟨rfl, rfl⟩ := h3
  refine ⟨rfl, ?_⟩
  intro d todo
  split_ifs at h2 with hlen
  · right
    unfold repairInds at h2
    simp only at h2
    rw [if_neg (by omega)] at h2
    split_ifs at h2 with h4
    refine ⟨List.length_pos_iff.1 hlen, by simpa using h4, (Option.some.inj h2).symm⟩
  · left
    exact ⟨List.length_eq_zero_iff.1 (Nat.eq_zero_of_not_pos hlen), (Option.some.inj h2).symm⟩

/-- **C111 (evaluated individuals).** Individuals that have been evaluated before are left exactly as they are: variables, values and
the record of what has been evaluated. -/
theorem C111_evaluated (heap' : ℕ → EvInd X κ V) (pop : List ℕ) (h : initDo repair masks heap next nSamples s = some (heap', pop)) (i : ℕ)
    (hi : ((drawn heap next nSamples s).1 i).evaluated ≠ []) : heap' i = (drawn heap next nSamples s).1 i := by
  obtain ⟨-, h1 | ⟨h1, h2, h3⟩⟩ := initDo_spec repair masks heap next nSamples s heap' pop h
  · rw [h1.2]
  · rw [h3]
    refine (foldl_x _ _ i).2.2.1 ?_
    intro e he hei
    have := (List.of_mem_zip he).1
    rw [List.mem_filter, hei] at this
    exact hi (by simpa using this.2)

/-- **C111 (repaired individuals).** Everyone else is given the point the repair returns for it: the points of the individuals not yet
evaluated are repaired together, in the order of the population; values are not touched. -/
theorem C111_repaired (heap' : ℕ → EvInd X κ V) (pop : List ℕ) (h : initDo repair masks heap next nSamples s = some (heap', pop))
    (hnd : (drawn heap next nSamples s).2.Nodup) :
    let d := drawn heap next nSamples s
    let todo := d.2.filter fun i => (d.1 i).evaluated.isEmpty
    (todo ≠ [] → todo.map (fun i => (heap' i).x) = repair (todo.map fun i => (d.1 i).x)) ∧
      ∀ i, (heap' i).vals = (d.1 i).vals ∧ (heap' i).evaluated = (d.1 i).evaluated := by
  intro d todo
  obtain ⟨-, h1 | ⟨h1, h2, h3⟩⟩ := initDo_spec repair masks heap next nSamples s heap' pop h
  · exact ⟨fun hne => absurd h1.1 hne, fun i => by rw [h1.2]; exact ⟨rfl, rfl⟩⟩
  · constructor
    · intro _
      have hnd' : todo.Nodup := hnd.filter _
      apply List.ext_getElem
      · rw [List.length_map]; exact h2.symm
      · intro k hk1 hk2
        have hk : k < todo.length := by simpa using hk1
        rw [List.getElem_map]
        have h3' := congrFun h3 todo[k]
        refine (congrArg EvInd.x h3').trans ?_
        set Xp := repair (todo.map fun i => (d.1 i).x) with hXp
        have hz : k < (todo.zip Xp).length := by
          rw [List.length_zip]
          exact lt_min hk hk2
        have hmem : (todo[k], Xp[k]) ∈ todo.zip Xp := by
          rw [List.mem_iff_getElem]
          exact ⟨k, hz, by rw [List.getElem_zip]⟩
        refine (foldl_x _ _ todo[k]).2.2.2.2 (todo[k], Xp[k]) hmem rfl ?_
        intro e he hei
        obtain ⟨j, hj, rfl⟩ := List.mem_iff_getElem.1 he
        rw [List.getElem_zip] at hei ⊢
        have hjt : j < todo.length := lt_of_lt_of_le hj (by rw [List.length_zip]; exact min_le_left _ _)
        have : j = k := (List.Nodup.getElem_inj_iff hnd').1 hei
        subst this
        rfl
    · intro i
      rw [h3]
      exact ⟨(foldl_x _ _ i).2.1, (foldl_x _ _ i).1⟩

/-- **C111 (within the domain).** If all points returned by the repair satisfy a condition (to lie within the bounds, say), every
individual of the initial population satisfies it or had already been evaluated. -/
theorem C111_domain (Q : X → Prop) (hQ : ∀ rows, ∀ x ∈ repair rows, Q x) (heap' : ℕ → EvInd X κ V) (pop : List ℕ)
    (h : initDo repair masks heap next nSamples s = some (heap', pop)) (hsub : pop ⊆ (drawn heap next nSamples s).2) (i : ℕ) (hi : i ∈ pop) :
    Q (heap' i).x ∨ ((drawn heap next nSamples s).1 i).evaluated ≠ [] := by
  by_cases he : ((drawn heap next nSamples s).1 i).evaluated = []
  · left
    have hmem : i ∈ (drawn heap next nSamples s).2.filter fun i => ((drawn heap next nSamples s).1 i).evaluated.isEmpty :=
      List.mem_filter.2 ⟨hsub hi, by simp [he]⟩
    obtain ⟨-, h1 | ⟨h1, h2, h3⟩⟩ := initDo_spec repair masks heap next nSamples s heap' pop h
    · rw [h1.1] at hmem; cases hmem
    · obtain ⟨k, hk, hki⟩ := List.mem_iff_getElem.1 hmem
      have hz : k < (((drawn heap next nSamples s).2.filter fun i => ((drawn heap next nSamples s).1 i).evaluated.isEmpty).zip
          (repair (((drawn heap next nSamples s).2.filter fun i => ((drawn heap next nSamples s).1 i).evaluated.isEmpty).map fun i =>
            ((drawn heap next nSamples s).1 i).x))).length := by
        rw [List.length_zip, h2, min_self]; exact hk
      obtain ⟨e, he', hei, hx⟩ := (foldl_x (((drawn heap next nSamples s).2.filter fun i => ((drawn heap next nSamples s).1 i).evaluated.isEmpty).zip
          (repair (((drawn heap next nSamples s).2.filter fun i => ((drawn heap next nSamples s).1 i).evaluated.isEmpty).map fun i =>
            ((drawn heap next nSamples s).1 i).x))) (drawn heap next nSamples s).1 i).2.2.2.1
        ⟨_, List.getElem_mem hz, by rw [List.getElem_zip]; exact hki⟩
      rw [h3, hx]
      exact hQ _ _ (List.of_mem_zip he').2
  · exact .inr he

/-- **C111 (duplicates).** With the default elimination (two individuals are duplicates if their points are near each other), the initial
population is a subsequence of the drawn one, no member is near an earlier one, and whoever is missing is near an earlier one. -/
theorem C111_duplicates (near : X → X → Bool) (heap' : ℕ → EvInd X κ V) (pop : List ℕ)
    (h : initDo repair (fun h => defaultMasks fun i j => near (h i).x (h j).x) heap next nSamples s = some (heap', pop)) :
    pop.Sublist (drawn heap next nSamples s).2 ∧ pop.Pairwise (fun a b => near (heap' b).x (heap' a).x = false) ∧
    ∀ i ∈ (drawn heap next nSamples s).2, i ∉ pop → ∃ l r, (drawn heap next nSamples s).2 = l ++ i :: r ∧ ∃ j ∈ l, near (heap' i).x (heap' j).x = true := by
  obtain ⟨h1, -⟩ := initDo_spec repair _ heap next nSamples s heap' pop h
  obtain ⟨k1, k2, -, k4⟩ := C14_default_elimination (fun i j => near (heap' i).x (heap' j).x) (drawn heap next nSamples s).2 []
  rw [h1]
  refine ⟨k1, k2, fun i hi hni => ?_⟩
  rcases k4 i hi hni with h | ⟨o, ho, -⟩
  · exact h
  · cases ho

/-- **C111 (size).** An operator is asked for `n_samples` points; if it returns that many and there is no elimination, the population has
`n_samples` individuals. -/
theorem C111_size (draw : ℕ → List X) (hdraw : (draw nSamples).length = nSamples) (heap' : ℕ → EvInd X κ V) (pop : List ℕ)
    (h : initDo repair (fun _ => ⟨fun p => p.map fun _ => false, fun p _ => p.map fun _ => false⟩) heap next nSamples (.op draw) = some (heap', pop)) :
    pop.length = nSamples := by
  obtain ⟨h1, -⟩ := initDo_spec repair _ heap next nSamples _ heap' pop h
  rw [h1, C14_no_elimination]
  simp [drawn, newInds, hdraw]

/-- **C111 (size, refuted).** If points or a population are given, the requested number of individuals plays no role at all. -/
theorem C111_size_refuted (rows : List X) (ids : List ℕ) (n n' : ℕ) :
    initDo repair masks heap next n (.array rows) = initDo repair masks heap next n' (.array rows) ∧
    initDo repair masks heap next n (.pop ids) = initDo repair masks heap next n' (.pop ids) := ⟨rfl, rfl⟩

/-- **C111 (evaluations).** Evaluating the initial population leaves the individuals that already have all requested values alone: they
are not among the points handed to the problem. -/
theorem C111_not_reevaluated [DecidableEq κ] (heap' : ℕ → EvInd X κ V) (pop : List ℕ) (h : initDo repair masks heap next nSamples s = some (heap', pop))
    (problem : List X → List κ → Option (List (κ × List V))) (req : List κ) (hreq : req ≠ []) (count : Bool) (n : ℕ) (i : ℕ)
    (hi : ∀ e ∈ req, e ∈ ((drawn heap next nSamples s).1 i).evaluated) :
    let r := evEval problem true req count pop ⟨heap', n, []⟩
    r.1.heap i = (drawn heap next nSamples s).1 i ∧ ∀ c ∈ r.1.log, i ∉ c.2 := by
  have hne : ((drawn heap next nSamples s).1 i).evaluated ≠ [] := by
    obtain ⟨e, he⟩ := List.exists_mem_of_ne_nil req hreq
    exact List.ne_nil_of_mem (hi e he)
  have he := C111_evaluated repair masks heap next nSamples s heap' pop h i hne
  obtain ⟨h1, log, h2, h3⟩ := C16_skips_evaluated problem req count pop ⟨heap', n, []⟩ i (by simp only; rw [he]; exact hi)
  refine ⟨h1.trans he, ?_⟩
  rw [h2]
  simpa using h3

/-- **C111 (in place, refuted).** A population given by the user is not left alone: individuals not yet evaluated get the repaired points
themselves. Here `1` is repaired to `0`. -/
theorem C111_in_place_refuted :
    ∃ (repair : List ℤ → List ℤ) (heap heap' : ℕ → EvInd ℤ Unit ℤ) (pop : List ℕ),
      initDo repair (fun _ => ⟨fun p => p.map fun _ => false, fun p _ => p.map fun _ => false⟩) heap 2 2 (.pop [0, 1]) = some (heap', pop) ∧
      (heap 0).x = 1 ∧ (heap' 0).x = 0 := by
  refine ⟨fun l => l.map fun _ => 0, fun _ => ⟨1, fun _ => none, []⟩, _, _, rfl, rfl, rfl⟩

/-- Two evaluated individuals, one that is not; `5` is repaired to `3`, which is a duplicate. -/
example : (initDo (κ := Bool) (V := ℕ) (fun l => l.map fun x => min x 3) (fun h => defaultMasks fun i j => (h i).x == (h j).x)
    (fun i => if i = 2 then ⟨5, fun _ => none, []⟩ else ⟨i + 3, fun _ => some i, [true]⟩) 3 100 (.pop [0, 1, 2])).map
      (fun r => (r.2, r.2.map fun i => (r.1 i).x)) = some ([0, 1], [3, 4]) := by decide

end Props
