import Verif.Model.Replacement
import Verif.Lemmas.Optimum
import Verif.Props.Optimum
import Mathlib.Algebra.Order.Group.Int
import Mathlib.Data.List.MinMax
import Mathlib.Algebra.Order.Group.Unbundled.Basic

/-! # C23 (replacement) and C45 (parameter-less penalty) -/

set_option linter.unusedSectionVars false
set_option linter.unusedSimpArgs false

namespace Props
open Model Lemmas Spec

variable {ι α β : Type*} [LinearOrder β] [LinearOrder α]

/-- C23. `is_better(new, old)` with tolerance 0 is exactly the feasibility-first comparison; with tolerance `eps` an
improvement of the violation or the objective counts only if it exceeds `eps`. -/
theorem C23_is_better [AddCommGroup α] [IsOrderedAddMonoid α] (at' : Attrs ι α α 1) (new old : ι) :
    (isBetter at' new old 0 = true ↔
      Beats (at'.F new) (at'.feas new) (at'.cv new) (at'.F old) (at'.feas old) (at'.cv old)) ∧
    ∀ eps, isBetter at' new old eps = true ↔
      (at'.feas new = true ∧ at'.feas old = false) ∨
      (at'.feas new = false ∧ at'.feas old = false ∧ at'.cv new + eps < at'.cv old) ∨
      (at'.feas new = true ∧ at'.feas old = true ∧ at'.F new 0 + eps < at'.F old 0) := by
  have key : ∀ eps, isBetter at' new old eps = true ↔
      (at'.feas new = true ∧ at'.feas old = false) ∨
      (at'.feas new = false ∧ at'.feas old = false ∧ at'.cv new + eps < at'.cv old) ∨
      (at'.feas new = true ∧ at'.feas old = true ∧ at'.F new 0 + eps < at'.F old 0) := by
    intro eps
    unfold isBetter
    rcases at'.feas new <;> rcases at'.feas old <;> simp [lt_sub_iff_add_lt, add_comm]
  refine ⟨?_, key⟩
  rw [key 0]
  unfold Beats
  have hd : Dominates (at'.F new) (at'.F old) ↔ at'.F new 0 < at'.F old 0 := dominates_one _ _
  simp only [add_zero, hd]
  tauto

example : let at' : Attrs ℤ ℤ ℤ 1 := ⟨fun x _ => x, fun x => decide (0 ≤ x), fun x => -x⟩
    isBetter at' 3 7 0 = true ∧ isBetter at' 3 7 4 = false ∧ isBetter at' (-2) (-9) 3 = true ∧
    isBetter at' (-2) 7 0 = false := by decide

theorem mask_spec [DecidableEq ι] (near : ι → ι → Bool) (at' : Attrs ι α β 1) (hc : Bool) (pop off : List ι)
    (hlen : pop.length = off.length) (k : ℕ) (hk : k < pop.length) :
    (improvementMask near at' hc pop off)[k]? = some
      (improves at' hc pop[k] off[k] && decide (off[k] ∈ dedup (defaultMasks near) true off [pop])) := by
  have hne : off ≠ [] := by
    rintro rfl
    simp at hlen; subst hlen; simp at hk
  obtain ⟨h1, -, -, -, h5⟩ := C14_return_indices (defaultMasks near) true off hne [pop]
  have hz : (pop.zip off)[k]? = some (pop[k], off[k]) := by
    rw [List.getElem?_eq_getElem (by rw [List.length_zip]; omega), List.getElem_zip]
  unfold improvementMask
  simp only [List.getElem?_map, List.getElem?_zipIdx, hz, Option.map_some, Nat.zero_add]
  congr 2
  rw [← decide_not]
  congr 1
  rw [h5 k, ← h1, List.getElem?_eq_getElem (by omega : k < off.length)]
  simp

section
variable [DecidableEq ι] (near : ι → ι → Bool) (at' : Attrs ι α β 1)

/-- C23, which offspring are accepted (populations of equal size, problems with constraints, offspring are distinct
objects): position `k` is replaced iff the offspring beats the parent (feasible against infeasible, both infeasible with
smaller violation, both feasible with smaller objective value) and is a duplicate neither of a member of the population nor
of an earlier offspring; otherwise the parent stays. -/
theorem C23_accept_iff (pop off : List ι) (hlen : pop.length = off.length) (hne : off ≠ []) (hnd : off.Nodup) :
    ∃ res, replacementDo (improvementMask near at' true) pop off = some res ∧ res.length = pop.length ∧
      ∀ k (hk : k < pop.length) (hr : k < res.length),
        let accepted := Beats (at'.F off[k]) (at'.feas off[k]) (at'.cv off[k])
            (at'.F pop[k]) (at'.feas pop[k]) (at'.cv pop[k]) ∧
          (∀ p ∈ pop, near off[k] p = false) ∧ ∀ j (hj : j < k), near off[k] off[j] = false
        (accepted → res[k] = off[k]) ∧ (¬ accepted → res[k] = pop[k]) := by
  have hmlen : (improvementMask near at' true pop off).length = pop.length := by
    simp [improvementMask, List.length_zipIdx, List.length_zip, hlen]
  refine ⟨((pop.zip off).zip (improvementMask near at' true pop off)).map (fun ((p, o), b) => if b then o else p),
    ?_, ?_, ?_⟩
  · have : ¬ off.length = 0 := fun h => hne (List.length_eq_zero_iff.1 h)
    simp [replacementDo, this, hlen]
  · simp [List.length_zip, hmlen, hlen]
  · intro k hk hr accepted
    have hm := mask_spec near at' true pop off hlen k hk
    rw [List.getElem?_eq_getElem (by omega), Option.some.injEq] at hm
    have hval : (((pop.zip off).zip (improvementMask near at' true pop off)).map
        (fun ((p, o), b) => if b then o else p))[k] =
        if (improves at' true pop[k] off[k] && decide (off[k] ∈ dedup (defaultMasks near) true off [pop])) = true
          then off[k] else pop[k] := by
      simp only [List.getElem_map, List.getElem_zip, hm]
    rw [hval]
    have hacc : (improves at' true pop[k] off[k] && decide (off[k] ∈ dedup (defaultMasks near) true off [pop])) = true ↔
        accepted := by
      rw [Bool.and_eq_true, decide_eq_true_iff]
      have himp : improves at' true pop[k] off[k] = true ↔ Beats (at'.F off[k]) (at'.feas off[k]) (at'.cv off[k])
            (at'.F pop[k]) (at'.feas pop[k]) (at'.cv pop[k]) := by
        have hd : Dominates (at'.F off[k]) (at'.F pop[k]) ↔ at'.F off[k] 0 < at'.F pop[k] 0 := dominates_one _ _
        unfold improves Beats
        rw [hd]
        rcases at'.feas off[k] <;> rcases at'.feas pop[k] <;> simp
      rw [himp]
      refine and_congr_right fun _ => ?_
      rw [dedup_default_eq, List.mem_filter]
      have hk' : k < off.length := by omega
      constructor
      · rintro ⟨h1, h2⟩
        refine ⟨fun p hp => ?_, fun j hj => ?_⟩
        · simp at h2; exact h2 p hp
        · -- kept, and an earlier offspring was near: contradiction
          exact ((dfl_mem_iff near off [] hnd k hk').1 h1).2 j hj
      · rintro ⟨h1, h2⟩
        exact ⟨dfl_mem_iff near off [] hnd k hk' |>.2 ⟨by simp, h2⟩, by simpa using h1⟩
    constructor
    · intro h; rw [if_pos (hacc.2 h)]
    · intro h; rw [if_neg (fun h' => h (hacc.1 h'))]

/-- C23, problems without constraints: only the objective decides. -/
theorem C23_accept_unconstrained (pop off : List ι) (hlen : pop.length = off.length) (hne : off ≠ []) :
    ∃ res, replacementDo (improvementMask near at' false) pop off = some res ∧ res.length = pop.length ∧
      ∀ k (hk : k < pop.length) (hr : k < res.length),
        at'.F res[k] 0 ≤ at'.F pop[k] 0 ∧ (res[k] = pop[k] ∨ res[k] = off[k] ∧ at'.F off[k] 0 < at'.F pop[k] 0) ∧
        (at'.F off[k] 0 < at'.F pop[k] 0 → (∀ p ∈ pop, near off[k] p = false) →
          (∀ j (hj : j < k), near off[k] off[j] = false) → off.Nodup → res[k] = off[k]) := by
  have hmlen : (improvementMask near at' false pop off).length = pop.length := by
    simp [improvementMask, List.length_zipIdx, List.length_zip, hlen]
  refine ⟨((pop.zip off).zip (improvementMask near at' false pop off)).map (fun ((p, o), b) => if b then o else p),
    ?_, ?_, ?_⟩
  · have : ¬ off.length = 0 := fun h => hne (List.length_eq_zero_iff.1 h)
    simp [replacementDo, this, hlen]
  · simp [List.length_zip, hmlen, hlen]
  · intro k hk hr
    have hm := mask_spec near at' false pop off hlen k hk
    rw [List.getElem?_eq_getElem (by omega), Option.some.injEq] at hm
    have hval : (((pop.zip off).zip (improvementMask near at' false pop off)).map
        (fun ((p, o), b) => if b then o else p))[k] =
        if (improves at' false pop[k] off[k] && decide (off[k] ∈ dedup (defaultMasks near) true off [pop])) = true
          then off[k] else pop[k] := by
      simp only [List.getElem_map, List.getElem_zip, hm]
    rw [hval]
    split_ifs with h
    · rw [Bool.and_eq_true] at h
      have h := h.1
      simp only [improves, Bool.false_eq_true, if_false, decide_eq_true_eq] at h
      exact ⟨h.le, Or.inr ⟨rfl, h⟩, fun _ _ _ _ => rfl⟩
    · refine ⟨le_refl _, Or.inl rfl, fun h1 h2 h3 hnd => absurd ?_ h⟩
      rw [Bool.and_eq_true, decide_eq_true_iff, dedup_default_eq, List.mem_filter]
      refine ⟨by simpa [improves] using h1, ?_, by simpa using h2⟩
      exact (dfl_mem_iff near off [] hnd k (by omega)).2 ⟨by simp, h3⟩

/-- C23. Sizes that differ raise; no offspring leaves the population as it is. -/
theorem C23_sizes (mask : List ι → List ι → List Bool) (pop off : List ι) :
    (off ≠ [] → pop.length ≠ off.length → replacementDo mask pop off = none) ∧ replacementDo mask pop [] = some pop := by
  refine ⟨fun h1 h2 => ?_, by simp [replacementDo]⟩
  have : ¬ off.length = 0 := fun h => h1 (List.length_eq_zero_iff.1 h)
  simp [replacementDo, this, h2]

theorem replacement_step (hc : Bool) (pop off res : List ι)
    (h : replacementDo (improvementMask near at' hc) pop off = some res) :
    res.length = pop.length ∧ ∀ k (hk : k < pop.length) (hr : k < res.length),
      res[k] = pop[k] ∨ (res[k] ∈ off ∧ improves at' hc pop[k] res[k] = true) := by
  unfold replacementDo at h
  split_ifs at h with h1 h2
  · rw [Option.some.injEq] at h; subst h; exact ⟨rfl, fun k hk hr => Or.inl rfl⟩
  · rw [Option.some.injEq] at h
    have hlen : pop.length = off.length := not_not.1 h2
    have hmlen : (improvementMask near at' hc pop off).length = pop.length := by
      simp [improvementMask, List.length_zipIdx, List.length_zip, hlen]
    subst h
    refine ⟨by simp [List.length_zip, hmlen, hlen], fun k hk hr => ?_⟩
    have hm := mask_spec near at' hc pop off hlen k hk
    rw [List.getElem?_eq_getElem (by omega), Option.some.injEq] at hm
    simp only [List.getElem_map, List.getElem_zip, hm]
    split_ifs with hb
    · exact Or.inr ⟨List.getElem_mem _, (Bool.and_eq_true _ _ ▸ hb).1⟩
    · exact Or.inl rfl

theorem improves_beats (p o : ι) : improves at' true p o = true ↔
    Beats (at'.F o) (at'.feas o) (at'.cv o) (at'.F p) (at'.feas p) (at'.cv p) := by
  have hd : Dominates (at'.F o) (at'.F p) ↔ at'.F o 0 < at'.F p 0 := dominates_one _ _
  unfold improves Beats
  rw [hd]
  rcases at'.feas o <;> rcases at'.feas p <;> simp

/-- C23, over any number of generations: the population keeps its size, and at every position the final individual is the
initial one or beats it (so it is never worse, and once feasible it stays feasible); whatever the duplicates, the
offspring, and the repetition of objects. -/
theorem C23_monotone_history [AddCommGroup α] [IsOrderedAddMonoid α] (offs : List (List ι)) : ∀ (pop res : List ι),
    replacementRun (improvementMask near at' true) pop offs = some res →
    res.length = pop.length ∧ ∀ k (hk : k < pop.length) (hr : k < res.length),
      (res[k] = pop[k] ∨ Beats (at'.F res[k]) (at'.feas res[k]) (at'.cv res[k])
        (at'.F pop[k]) (at'.feas pop[k]) (at'.cv pop[k])) ∧
      (res[k] = pop[k] ∨ ∃ off ∈ offs, res[k] ∈ off) ∧
      (at'.feas pop[k] = true → at'.feas res[k] = true ∧ at'.F res[k] 0 ≤ at'.F pop[k] 0) := by
  have main : ∀ (pop res : List ι), replacementRun (improvementMask near at' true) pop offs = some res →
    res.length = pop.length ∧ ∀ k (hk : k < pop.length) (hr : k < res.length),
      (res[k] = pop[k] ∨ beats at' res[k] pop[k]) ∧ (res[k] = pop[k] ∨ ∃ off ∈ offs, res[k] ∈ off) := by
    induction offs with
    | nil =>
      intro pop res h
      simp only [replacementRun, Option.some.injEq] at h; subst h
      exact ⟨rfl, fun k _ _ => ⟨Or.inl rfl, Or.inl rfl⟩⟩
    | cons off offs ih =>
      intro pop res h
      rw [replacementRun, Option.bind_eq_some_iff] at h
      obtain ⟨mid, h1, h2⟩ := h
      obtain ⟨a1, a2⟩ := replacement_step near at' true pop off mid h1
      obtain ⟨b1, b2⟩ := ih mid res h2
      refine ⟨b1.trans a1, fun k hk hr => ?_⟩
      obtain ⟨c1, c2⟩ := b2 k (by omega) hr
      constructor
      · rcases a2 k hk (by omega) with e | ⟨-, e⟩
        · rwa [← e]
        · rw [improves_beats] at e
          rcases c1 with c1 | c1
          · exact Or.inr (by rw [c1]; exact e)
          · exact Or.inr ((beats_po at').trans _ _ _ c1 e)
      · rcases c2 with c2 | ⟨o, ho, c2⟩
        · rcases a2 k hk (by omega) with e | ⟨e, -⟩
          · exact Or.inl (c2.trans e)
          · exact Or.inr ⟨off, List.mem_cons_self .., c2 ▸ e⟩
        · exact Or.inr ⟨o, List.mem_cons_of_mem _ ho, c2⟩
  intro pop res h
  obtain ⟨h1, h2⟩ := main pop res h
  refine ⟨h1, fun k hk hr => ⟨(h2 k hk hr).1, (h2 k hk hr).2, fun hf => ?_⟩⟩
  rcases (h2 k hk hr).1 with e | e
  · rw [e]; exact ⟨hf, le_refl _⟩
  · rcases e with ⟨a, b⟩ | ⟨a, b, c⟩ | ⟨a, b, c⟩
    · exact ⟨a, absurd b (by simp [hf])⟩
    · exact ⟨a, ((dominates_one _ _).1 c).le⟩
    · exact absurd b (by simp [hf])

/-- C23, no duplicates come in: if no two members of the population are duplicates of each other (and the duplicate test is
symmetric), the same holds after the replacement. -/
theorem C23_keeps_duplicate_free (hsym : ∀ x y, near x y = near y x) (hc : Bool) (pop off res : List ι)
    (hnd : off.Nodup) (hp : pop.Pairwise (fun a b => near a b = false))
    (h : replacementDo (improvementMask near at' hc) pop off = some res) :
    res.Pairwise (fun a b => near a b = false) := by
  unfold replacementDo at h
  split_ifs at h with h1 h2
  · rw [Option.some.injEq] at h; subst h; exact hp
  · rw [Option.some.injEq] at h
    have hlen : pop.length = off.length := not_not.1 h2
    have hmlen : (improvementMask near at' hc pop off).length = pop.length := by
      simp [improvementMask, List.length_zipIdx, List.length_zip, hlen]
    subst h
    rw [List.pairwise_iff_getElem]
    intro i j hi hj hij
    simp only [List.length_map, List.length_zip, hmlen] at hi hj
    have hi' : i < pop.length := by omega
    have hj' : j < pop.length := by omega
    have hmi := mask_spec near at' hc pop off hlen i hi'
    have hmj := mask_spec near at' hc pop off hlen j hj'
    rw [List.getElem?_eq_getElem (by omega), Option.some.injEq] at hmi hmj
    simp only [List.getElem_map, List.getElem_zip, hmi, hmj]
    have kept : ∀ k (hk : k < pop.length), off[k] ∈ dedup (defaultMasks near) true off [pop] →
        (∀ p ∈ pop, near off[k] p = false) ∧ ∀ j (hj : j < k), near off[k] off[j] = false := by
      intro k hk hm
      rw [dedup_default_eq, List.mem_filter] at hm
      exact ⟨by simpa using hm.2, ((dfl_mem_iff near off [] hnd k (by omega)).1 hm.1).2⟩
    split_ifs with hbi hbj hbj
    · rw [Bool.and_eq_true, decide_eq_true_iff] at hbi hbj
      rw [hsym]; exact (kept j hj' hbj.2).2 i hij
    · rw [Bool.and_eq_true, decide_eq_true_iff] at hbi
      exact (kept i hi' hbi.2).1 _ (List.getElem_mem _)
    · rw [Bool.and_eq_true, decide_eq_true_iff] at hbj
      rw [hsym]; exact (kept j hj' hbj.2).1 _ (List.getElem_mem _)
    · exact List.pairwise_iff_getElem.1 hp i j hi' hj' hij

end

/-- Three positions: an improvement, a duplicate of a member, and a worse offspring. -/
example : let at' : Attrs ℤ ℤ ℤ 1 := ⟨fun x _ => x, fun x => decide (0 ≤ x), fun x => -x⟩
    replacementRun (improvementMask (fun x y => decide (x = y)) at' true) [9, -4, 5] [[7, 5, 6], [8, -1, 2]]
      = some [7, -1, 2] := by decide
example : let near : ℤ → ℤ → Bool := fun x y => decide (x = y)
    (∀ x y, near x y = near y x) ∧ [9, -4, 5].Pairwise (fun a b => near a b = false) ∧ [7, 5, 6].Nodup :=
  ⟨fun x y => by simp [eq_comm], by decide, by decide⟩

/-! ## C45: parameter-less penalty -/

/-- C45. `parameter_less(F, CV)` (with the default `fmax`, or a given one that is at least every value): the values are
ordered exactly like the individuals in the feasibility-first order, where feasible means violation `<= 0`: the one of
position `i` is smaller than the one of position `j` iff individual `i` beats individual `j`; feasible values are
unchanged. -/
theorem C45_parameter_less_order [AddCommGroup α] [IsOrderedAddMonoid α] (f cv : List α)
    (hlen : f.length = cv.length) (hne : f ≠ []) (fmax : Option α) (hmax : ∀ m, fmax = some m → ∀ v ∈ f, v ≤ m) :
    ∃ res, parameterLess f cv fmax = some res ∧ res.length = f.length ∧
      (∀ i (hi : i < f.length) (hr : i < res.length), cv[i] ≤ 0 → res[i] = f[i]) ∧
      ∀ i j (hi : i < f.length) (hj : j < f.length) (hri : i < res.length) (hrj : j < res.length),
        res[i] < res[j] ↔ Beats (fun _ : Fin 1 => f[i]) (decide (cv[i] ≤ 0)) cv[i]
          (fun _ => f[j]) (decide (cv[j] ≤ 0)) cv[j] := by
  obtain ⟨M, hM, hMm⟩ : ∃ M, (match fmax with | some m => some m | none => f.max?) = some M ∧ ∀ v ∈ f, v ≤ M := by
    cases fmax with
    | some m => exact ⟨m, rfl, hmax m rfl⟩
    | none =>
      cases hx : f.max? with
      | none => exact absurd (List.max?_eq_none_iff.1 hx) hne
      | some m => exact ⟨m, by simp, fun v hv => (List.max?_eq_some_iff.1 hx).2 v hv⟩
  refine ⟨(f.zip cv).map fun (v, c) => if 0 < c then M + c else v, ?_,
    by simp [hlen], ?_, ?_⟩
  · unfold parameterLess
    cases fmax <;> (simp only at hM ⊢; rw [hM]; rfl)
  · intro i hi hr hc
    simp only [List.getElem_map, List.getElem_zip]
    rw [if_neg (not_lt.2 hc)]
  · intro i j hi hj hri hrj
    simp only [List.getElem_map, List.getElem_zip]
    have hd : Dominates (fun _ : Fin 1 => f[i]) (fun _ => f[j]) ↔ f[i] < f[j] := dominates_one _ _
    unfold Beats
    rw [hd]
    by_cases h1 : 0 < cv[i] <;> by_cases h2 : 0 < cv[j] <;>
      simp only [h1, h2, if_true, if_false, decide_eq_true_eq, decide_eq_false_iff_not]
    · rw [add_lt_add_iff_left]
      have h1' := not_le.2 h1
      have h2' := not_le.2 h2
      tauto
    · have h1' := not_le.2 h1
      have h2' := not_lt.1 h2
      have hle : f[j] ≤ M := hMm _ (List.getElem_mem _)
      have : ¬ M + cv[i] < f[j] := not_lt.2 (hle.trans (le_add_of_nonneg_right h1.le))
      tauto
    · have h1' := not_lt.1 h1
      have h2' := not_le.2 h2
      have hle : f[i] ≤ M := hMm _ (List.getElem_mem _)
      have : f[i] < M + cv[j] := hle.trans_lt (lt_add_of_pos_right _ h2)
      tauto
    · have h1' := not_lt.1 h1
      have h2' := not_lt.1 h2
      tauto

/-- Without the condition on a given `fmax` the order can be wrong: an infeasible individual comes before a feasible one. -/
theorem C45_small_fmax_refuted : parameterLess [(5 : ℤ), 1] [0, 2] (some 1) = some [5, 3] := by decide

example : parameterLess [(5 : ℤ), 1, 2, 0] [0, 2, -1, 1] none = some [5, 7, 2, 6] := by decide

end Props
