import Verif.Lemmas.Duplicate
import Mathlib.Data.List.Sort
import Mathlib.Algebra.Order.Ring.Defs
import Mathlib.Algebra.Order.Group.Int
import Mathlib.Algebra.Order.Group.Unbundled.Abs
import Mathlib.Algebra.Order.Ring.Int
import Mathlib.Tactic.FinCases

/-! # C14 (duplicate elimination), C15 (infill loop), C39 (duplicate index helpers) -/

set_option linter.unusedSimpArgs false
set_option linter.unusedSectionVars false

namespace Props
open Model Lemmas

variable {ι : Type*}

/-- Every list is either empty or kept apart: `do` on the empty population. -/
theorem dedup_default_eq (near : ι → ι → Bool) (pop : List ι) (others : List (List ι)) :
    dedup (defaultMasks near) true pop others =
      (dfl near [] pop).filter (fun x => others.all fun a => !a.any (near x)) := by
  unfold dedup
  by_cases h : pop.length = 0
  · rw [List.length_eq_zero_iff.1 h]; simp [dfl]
  · rw [if_neg h, if_pos rfl, keep_default', dedupArgs_filter _ near (fun _ _ => rfl)]

/-- C14, `DefaultDuplicateElimination.do(pop, *others)`. For every distance test `near` (no symmetry or
transitivity assumed, NaN distances count as "not near"): the result is a subsequence of `pop`; no member is near an
earlier one; no member is near a member of one of the other populations; and whoever is removed is near an
individual before it in `pop` or near a member of another population. -/
theorem C14_default_elimination (near : ι → ι → Bool) (pop : List ι) (others : List (List ι)) :
    let res := dedup (defaultMasks near) true pop others
    res.Sublist pop ∧
    res.Pairwise (fun earlier later => near later earlier = false) ∧
    (∀ x ∈ res, ∀ o ∈ others, ∀ y ∈ o, near x y = false) ∧
    (∀ x ∈ pop, x ∉ res → (∃ l r, pop = l ++ x :: r ∧ ∃ y ∈ l, near x y = true) ∨
      ∃ o ∈ others, ∃ y ∈ o, near x y = true) := by
  intro res
  have hres : res = (dfl near [] pop).filter (fun x => others.all fun a => !a.any (near x)) :=
    dedup_default_eq near pop others
  refine ⟨?_, ?_, ?_, ?_⟩
  · rw [hres]; exact List.filter_sublist.trans (dfl_sublist near pop [])
  · rw [hres]; exact (dfl_not_near near pop []).2.sublist List.filter_sublist
  · intro x hx o ho y hy
    rw [hres, List.mem_filter] at hx
    have := List.all_eq_true.1 hx.2 o ho
    simp only [Bool.not_eq_true', List.any_eq_false] at this
    simpa using this y hy
  · intro x hx hnx
    by_cases hd : x ∈ dfl near [] pop
    · right
      have : ¬ (others.all fun a => !a.any (near x)) = true := by
        intro h; exact hnx (by rw [hres]; exact List.mem_filter.2 ⟨hd, h⟩)
      simp only [List.all_eq_true, Bool.not_eq_true', List.any_eq_false, not_forall] at this
      obtain ⟨o, ho, y, hy, h⟩ := this
      exact ⟨o, ho, y, hy, by simpa using h⟩
    · left
      obtain ⟨l, r, he, y, hy, h⟩ := dfl_removed near pop [] x hx hd
      exact ⟨l, r, he, y, by simpa using hy, h⟩

/-- C14. If "being near" is transitive (for instance a zero tolerance), every removed individual is near a
surviving one or near a member of the other populations. -/
theorem C14_default_elimination_covers (near : ι → ι → Bool)
    (htr : ∀ x y z, near x y = true → near y z = true → near x z = true)
    (pop : List ι) (others : List (List ι)) :
    let res := dedup (defaultMasks near) true pop others
    ∀ x ∈ pop, x ∈ res ∨ (∃ y ∈ res, near x y = true) ∨ ∃ o ∈ others, ∃ y ∈ o, near x y = true := by
  intro res x hx
  have hres : res = (dfl near [] pop).filter (fun x => others.all fun a => !a.any (near x)) :=
    dedup_default_eq near pop others
  have key : ∀ z ∈ dfl near [] pop, z ∈ res ∨ ∃ o ∈ others, ∃ y ∈ o, near z y = true := by
    intro z hz
    by_cases hm : z ∈ res
    · exact Or.inl hm
    · right
      have : ¬ (others.all fun a => !a.any (near z)) = true := by
        intro h; exact hm (by rw [hres]; exact List.mem_filter.2 ⟨hz, h⟩)
      simp only [List.all_eq_true, Bool.not_eq_true', List.any_eq_false, not_forall] at this
      obtain ⟨o, ho, y, hy, h⟩ := this
      exact ⟨o, ho, y, hy, by simpa using h⟩
  rcases dfl_cover near htr pop [] x hx with h | ⟨z, hz, hxz⟩ | ⟨y, hy, _⟩
  · rcases key x h with h | h
    · exact Or.inl h
    · exact Or.inr (Or.inr h)
  · rcases key z hz with h | ⟨o, ho, y, hy, h⟩
    · exact Or.inr (Or.inl ⟨z, h, hxz⟩)
    · exact Or.inr (Or.inr ⟨o, ho, y, hy, htr _ _ _ hxz h⟩)
  · simp at hy

/-- C14, negative part. Without transitivity (a positive tolerance) the survivors need not cover the input: with
the points 0, 1, 2 on a line and tolerance 1 only 0 survives although 2 is not within the tolerance of any
survivor. -/
theorem C14_default_elimination_cover_refuted :
    ∃ (pop : List ℤ) (near : ℤ → ℤ → Bool), (∀ x y, near x y = decide (|x - y| ≤ 1)) ∧
      ∃ x ∈ pop, x ∉ dedup (defaultMasks near) true pop [] ∧
        ∀ y ∈ dedup (defaultMasks near) true pop [], near x y = false :=
  ⟨[0, 1, 2], fun x y => decide (|x - y| ≤ 1), fun _ _ => rfl, 2, by decide, by decide, by decide⟩

/-- C14, `ElementwiseDuplicateElimination.do(pop, *others)` (`eps` and the comparison are the user's; `True`
counts as distance 0 and `False` as distance 1): the result is a subsequence of `pop` without two members whose
comparison value is below `eps`, none of them below `eps` to a member of another population, and whoever is
removed compares below `eps` to an individual after it in `pop` or to a member of another population. -/
theorem C14_elementwise_elimination {α : Type*} [Zero α] [One α] [LT α] [DecidableLT α]
    (cmp : ι → ι → Bool ⊕ α) (eps : α) (pop : List ι) (others : List (List ι)) :
    let res := dedup (elementwiseMasks cmp eps) true pop others
    res.Sublist pop ∧
    res.Pairwise (fun earlier later => ¬ toFloat (cmp earlier later) < eps) ∧
    (∀ x ∈ res, ∀ o ∈ others, ∀ y ∈ o, ¬ toFloat (cmp x y) < eps) ∧
    (∀ x ∈ pop, x ∉ res → (∃ l r, pop = l ++ x :: r ∧ ∃ y ∈ r, toFloat (cmp x y) < eps) ∨
      ∃ o ∈ others, ∃ y ∈ o, toFloat (cmp x y) < eps) := by
  intro res
  set close : ι → ι → Bool := fun x y => decide (toFloat (cmp x y) < eps) with hclose
  have hres : res = (elw close pop).filter (fun x => others.all fun a => !a.any (close x)) := by
    show dedup _ _ _ _ = _
    unfold dedup
    by_cases h : pop.length = 0
    · rw [List.length_eq_zero_iff.1 h]; simp [elw]
    · rw [if_neg h, if_pos rfl, dedupArgs_filter _ close (fun _ _ => rfl)]
      congr 1
      have := keep_elementwise close pop []
      simpa [elementwiseMasks, hclose] using this
  refine ⟨?_, ?_, ?_, ?_⟩
  · rw [hres]; exact List.filter_sublist.trans (elw_sublist close pop)
  · rw [hres]
    refine ((elw_pairwise close pop).imp ?_).sublist List.filter_sublist
    intro a b h; simpa [hclose] using h
  · intro x hx o ho y hy
    rw [hres, List.mem_filter] at hx
    have := List.all_eq_true.1 hx.2 o ho
    simp only [Bool.not_eq_true', List.any_eq_false] at this
    simpa [hclose] using this y hy
  · intro x hx hnx
    by_cases hd : x ∈ elw close pop
    · right
      have : ¬ (others.all fun a => !a.any (close x)) = true := by
        intro h; exact hnx (by rw [hres]; exact List.mem_filter.2 ⟨hd, h⟩)
      simp only [List.all_eq_true, Bool.not_eq_true', List.any_eq_false, not_forall] at this
      obtain ⟨o, ho, y, hy, h⟩ := this
      exact ⟨o, ho, y, hy, by simpa [hclose] using h⟩
    · left
      obtain ⟨l, r, he, y, hy, h⟩ := elw_removed close pop x hx hd
      exact ⟨l, r, he, y, hy, by simpa [hclose] using h⟩

/-- C14, element-wise elimination with a boolean comparison `eq` that is transitive, and a tolerance in
`(0, 1]`: every individual of `pop` has an equal one among the survivors or in one of the other populations, and
the survivors are pairwise different and different from the others (exactly one representative per class). -/
theorem C14_elementwise_representatives {α : Type*} [Ring α] [LinearOrder α] [IsStrictOrderedRing α]
    (eq : ι → ι → Bool) (htr : ∀ x y z, eq x y = true → eq y z = true → eq x z = true)
    (eps : α) (h0 : 0 < eps) (h1 : eps ≤ 1) (pop : List ι) (others : List (List ι)) :
    let res := dedup (elementwiseMasks (fun x y => (Sum.inl (eq x y) : Bool ⊕ α)) eps) true pop others
    res.Sublist pop ∧
    res.Pairwise (fun earlier later => eq earlier later = false) ∧
    (∀ x ∈ res, ∀ o ∈ others, ∀ y ∈ o, eq x y = false) ∧
    (∀ x ∈ pop, x ∈ res ∨ (∃ y ∈ res, eq x y = true) ∨ ∃ o ∈ others, ∃ y ∈ o, eq x y = true) := by
  intro res
  have hc : ∀ x y, (toFloat (Sum.inl (eq x y) : Bool ⊕ α) < eps) ↔ eq x y = true := by
    intro x y
    cases h : eq x y
    · simp [toFloat, h1]
    · simp [toFloat, h0]
  obtain ⟨p1, p2, p3, _⟩ := C14_elementwise_elimination (fun x y => (Sum.inl (eq x y) : Bool ⊕ α)) eps pop others
  refine ⟨p1, ?_, ?_, ?_⟩
  · refine p2.imp ?_
    intro a b h; rw [hc] at h; simpa using h
  · intro x hx o ho y hy
    have := p3 x hx o ho y hy
    rw [hc] at this; simpa using this
  · have hres : res = (elw eq pop).filter (fun x => others.all fun a => !a.any (eq x)) := by
      show dedup _ _ _ _ = _
      unfold dedup
      by_cases h : pop.length = 0
      · rw [List.length_eq_zero_iff.1 h]; simp [elw]
      · rw [if_neg h, if_pos rfl, dedupArgs_filter _ eq
          (fun a b => by simp [elementwiseMasks, hc])]
        congr 1
        have := keep_elementwise eq pop []
        simpa [elementwiseMasks, hc] using this
    intro x hx
    have key : ∀ z ∈ elw eq pop, z ∈ res ∨ ∃ o ∈ others, ∃ y ∈ o, eq z y = true := by
      intro z hz
      by_cases hm : z ∈ res
      · exact Or.inl hm
      · right
        have : ¬ (others.all fun a => !a.any (eq z)) = true := by
          intro h; exact hm (by rw [hres]; exact List.mem_filter.2 ⟨hz, h⟩)
        simp only [List.all_eq_true, Bool.not_eq_true', List.any_eq_false, not_forall] at this
        obtain ⟨o, ho, y, hy, h⟩ := this
        exact ⟨o, ho, y, hy, by simpa using h⟩
    rcases elw_cover eq htr pop x hx with h | ⟨z, hz, hxz⟩
    · rcases key x h with h | h
      · exact Or.inl h
      · exact Or.inr (Or.inr h)
    · rcases key z hz with h | ⟨o, ho, y, hy, h⟩
      · exact Or.inr (Or.inl ⟨z, h, hxz⟩)
      · exact Or.inr (Or.inr ⟨o, ho, y, hy, htr _ _ _ hxz h⟩)

/-- C14, `HashDuplicateElimination.do(pop, *others)`: the survivors are the first individuals of each hash class
of `pop`, minus the classes that occur in one of the other populations. -/
theorem C14_hash_elimination {η : Type*} [DecidableEq η] (hash2 : ι → η) (pop : List ι) (others : List (List ι)) :
    let res := dedup (hashMasks hash2) true pop others
    res.Sublist pop ∧
    res.Pairwise (fun a b => hash2 a ≠ hash2 b) ∧
    (∀ x ∈ res, ∀ o ∈ others, ∀ y ∈ o, hash2 y ≠ hash2 x) ∧
    (∀ x ∈ pop, (∃ y ∈ res, hash2 y = hash2 x) ∨ ∃ o ∈ others, ∃ y ∈ o, hash2 y = hash2 x) := by
  intro res
  obtain ⟨s1, _, s3, s4⟩ := hsh_spec hash2 pop []
  have hres : res = (hsh hash2 [] pop).filter (fun x => decide (∀ a ∈ others, ∀ y ∈ a, hash2 y ≠ hash2 x)) := by
    show dedup _ _ _ _ = _
    unfold dedup
    by_cases h : pop.length = 0
    · rw [List.length_eq_zero_iff.1 h]; simp [hsh]
    · rw [if_neg h, if_pos rfl]
      have : keepUnmarked pop ((hashMasks hash2).itself pop) = hsh hash2 [] pop := keep_hash hash2 pop []
      rw [this, dedupArgs_hash hash2 others _ s3]
  refine ⟨?_, ?_, ?_, ?_⟩
  · rw [hres]; exact List.filter_sublist.trans s1
  · rw [hres]; exact s3.sublist List.filter_sublist
  · intro x hx
    rw [hres, List.mem_filter] at hx
    simpa using hx.2
  · intro x hx
    rcases s4 x hx with h | ⟨y, hy, hyx⟩
    · simp at h
    · by_cases hm : ∀ a ∈ others, ∀ z ∈ a, hash2 z ≠ hash2 y
      · exact Or.inl ⟨y, by rw [hres]; exact List.mem_filter.2 ⟨hy, by simpa using hm⟩, hyx⟩
      · right
        push Not at hm
        obtain ⟨a, ha, z, hz, h⟩ := hm
        exact ⟨a, ha, z, hz, h.trans hyx⟩

/-- C14. The base class (`_do` marks nothing; also `NoDuplicateElimination`) returns the population unchanged. -/
theorem C14_no_elimination (pop : List ι) (others : List (List ι)) :
    dedup ⟨fun p => p.map fun _ => false, fun p _ => p.map fun _ => false⟩ true pop others = pop := by
  have hk : ∀ p : List ι, keepUnmarked p (p.map fun _ => false) = p := by
    intro p; rw [keepUnmarked_map]; simp
  have ha : ∀ args : List (List ι), ∀ p, dedupArgs
      ⟨fun p => p.map fun _ => false, fun p _ => p.map fun _ => false⟩ p args = p := by
    intro args
    induction args with
    | nil => intro p; rfl
    | cons a as ih =>
      intro p
      rw [dedupArgs]
      split_ifs <;> simp only [hk, ih]
  unfold dedup
  split_ifs <;> simp only [hk, ha]

/-- C14, `return_indices=True` on a population of distinct objects: the two index lists are increasing, together
they contain every position exactly once, and a position is listed as "no duplicate" iff its individual survives. -/
theorem C14_return_indices [DecidableEq ι] (d : DupMasks ι) (toItself : Bool) (pop : List ι) (hne : pop ≠ [])
    (others : List (List ι)) :
    let r := dedupIndices d toItself pop others
    r.1 = dedup d toItself pop others ∧
    r.2.1.Pairwise (· < ·) ∧ r.2.2.Pairwise (· < ·) ∧
    (∀ i, i ∈ r.2.1 ↔ ∃ x, pop[i]? = some x ∧ x ∈ r.1) ∧
    (∀ i, i ∈ r.2.2 ↔ ∃ x, pop[i]? = some x ∧ x ∉ r.1) := by
  have hfold : ∀ (res L : List ι) (k : ℕ) (A B : List ℕ),
      (L.zipIdx k).foldl (fun (acc : List ℕ × List ℕ) (p : ι × ℕ) =>
        if p.1 ∈ res then (acc.1 ++ [p.2], acc.2) else (acc.1, acc.2 ++ [p.2])) (A, B) =
      (A ++ ((L.zipIdx k).filter (fun p => decide (p.1 ∈ res))).map Prod.snd,
       B ++ ((L.zipIdx k).filter (fun p => decide (p.1 ∉ res))).map Prod.snd) := by
    intro res L
    induction L with
    | nil => intro k A B; simp
    | cons x xs ih =>
      intro k A B
      rw [List.zipIdx_cons, List.foldl_cons]
      by_cases hx : x ∈ res
      · simp only [hx, if_true]; rw [ih]; simp [hx]
      · simp only [hx, if_false]; rw [ih]; simp [hx]
  intro r
  have hl : ¬ pop.length = 0 := fun h => hne (List.length_eq_zero_iff.1 h)
  have hr : r = (dedup d toItself pop others,
      ((pop.zipIdx).filter (fun p => decide (p.1 ∈ dedup d toItself pop others))).map Prod.snd,
      ((pop.zipIdx).filter (fun p => decide (p.1 ∉ dedup d toItself pop others))).map Prod.snd) := by
    show dedupIndices _ _ _ _ = _
    unfold dedupIndices
    rw [if_neg hl]
    simp only [hfold, List.nil_append]
  have hsorted : ∀ f : ι × ℕ → Bool, ((pop.zipIdx.filter f).map Prod.snd).Pairwise (· < ·) := by
    intro f
    have : (pop.zipIdx.map Prod.snd).Pairwise (· < ·) := by
      have e : pop.zipIdx.map Prod.snd = List.range' 0 pop.length := by
        rw [List.zipIdx_map_snd]
      rw [e]; exact List.pairwise_lt_range'
    exact this.sublist (List.filter_sublist.map _)
  rw [hr]
  refine ⟨rfl, hsorted _, hsorted _, ?_, ?_⟩
  · intro i
    simp only [List.mem_map, List.mem_filter, decide_eq_true_eq, Prod.exists, exists_eq_right,
      List.mem_zipIdx_iff_getElem?]
  · intro i
    simp only [List.mem_map, List.mem_filter, decide_eq_true_eq, Prod.exists, exists_eq_right,
      List.mem_zipIdx_iff_getElem?]

example : dedup (defaultMasks fun x y : ℕ => x == y) true [3, 1, 3, 2, 1, 4] [[4], [], [7]] = [3, 1, 2] := by decide
example : dedup (elementwiseMasks (fun x y : ℕ => (.inl (x == y) : Bool ⊕ ℤ)) 1) true [3, 1, 3, 2, 1, 4] [[4]]
    = [3, 2, 1] := by decide
example : dedup (hashMasks fun x : ℕ => x % 10) true [3, 13, 2, 5, 12] [[15]] = [3, 2] := by decide
example : dedupIndices (defaultMasks fun x y : ℕ × ℕ => x.1 == y.1) true [(3,0), (1,1), (3,2), (2,3)] [[(2, 9)]]
    = ([(3,0), (1,1)], [0, 1], [2, 3]) := by decide

/-! ## C15 -/

section Infill
variable (elim : List ι → List ι → List ι → List ι) (gen : ℕ → ℕ → List ι) (pop : List ι) (n nMax : ℕ)

theorem infillLoop_invariant (Inv : List ι → Prop)
    (hstep : ∀ off k m, Inv off → Inv (off ++ (elim (gen k (n - off.length)) pop off).take m)) :
    ∀ fuel off k off' k', Inv off → infillLoop elim gen pop n nMax fuel off k = some (off', k') → Inv off' := by
  intro fuel
  induction fuel with
  | zero =>
    intro off k off' k' hi h
    rw [infillLoop] at h
    split_ifs at h
    simp only [Option.some.injEq, Prod.mk.injEq] at h
    exact h.1 ▸ hi
  | succ fuel ih =>
    intro off k off' k' hi h
    rw [infillLoop] at h
    by_cases h1 : off.length < n
    · rw [if_pos h1] at h
      dsimp only at h
      have hI : Inv (off ++ if off.length + (elim (gen k (n - off.length)) pop off).length > n then
          (elim (gen k (n - off.length)) pop off).take (n - off.length)
          else elim (gen k (n - off.length)) pop off) := by
        split_ifs with h2
        · exact hstep off k _ hi
        · have := hstep off k (elim (gen k (n - off.length)) pop off).length hi
          rwa [List.take_length] at this
      generalize (if off.length + (elim (gen k (n - off.length)) pop off).length > n then
          (elim (gen k (n - off.length)) pop off).take (n - off.length)
          else elim (gen k (n - off.length)) pop off) = new at h hI
      split_ifs at h with h3
      · simp only [Option.some.injEq, Prod.mk.injEq] at h
        exact h.1 ▸ hI
      · exact ih _ _ _ _ hI h
    · rw [if_neg h1] at h
      simp only [Option.some.injEq, Prod.mk.injEq] at h
      exact h.1 ▸ hi

theorem infillLoop_rounds : ∀ fuel off k, off.length ≤ n → max 1 (nMax - k) ≤ fuel →
    ∃ off' k', infillLoop elim gen pop n nMax fuel off k = some (off', k') ∧
      k ≤ k' ∧ k' ≤ k + max 1 (nMax - k) ∧ off'.length ≤ n ∧ (off'.length < n → nMax ≤ k' ∧ k < k') ∧
      off.length ≤ off'.length ∧
      ((∀ j off, off.length < n →
        1 ≤ (elim (gen j (n - off.length)) pop off).length) → min n (off.length + (k' - k)) ≤ off'.length) := by
  intro fuel
  induction fuel with
  | zero => intro off k _ h; omega
  | succ fuel ih =>
    intro off k hlen hf
    rw [infillLoop]
    by_cases h1 : off.length < n
    · rw [if_pos h1]
      dsimp only
      generalize hnew : elim (gen k (n - off.length)) pop off = new
      generalize hnew' : (if off.length + new.length > n then new.take (n - off.length) else new) = new'
      have hl' : (off ++ new').length ≤ n := by
        rw [List.length_append, ← hnew']
        split_ifs <;> (try simp only [List.length_take]) <;> omega
      have hge : (1 ≤ new.length) → 1 ≤ new'.length := by
        intro h; rw [← hnew']; split_ifs <;> (try simp only [List.length_take]) <;> omega
      by_cases h3 : k + 1 ≥ nMax
      · rw [if_pos h3]
        refine ⟨_, _, rfl, by omega, by omega, hl', fun _ => ⟨h3, by omega⟩, by simp, ?_⟩
        intro hp
        have := hge (by rw [← hnew]; exact hp k off h1)
        rw [List.length_append]; omega
      · rw [if_neg h3]
        obtain ⟨off', k', e, a1, a2, a3, a4, a6, a5⟩ := ih (off ++ new') (k + 1) hl' (by omega)
        refine ⟨off', k', e, by omega, by omega, a3, fun h => ⟨(a4 h).1, by omega⟩,
          by rw [List.length_append] at a6; omega, ?_⟩
        intro hp
        have := hge (by rw [← hnew]; exact hp k off h1)
        have := a5 hp
        rw [List.length_append] at this
        omega
    · rw [if_neg h1]
      exact ⟨off, k, rfl, by omega, by omega, hlen, fun h => absurd h h1, le_refl _, fun _ => by simp⟩

/-- C15. `InfillCriterion.do`, for arbitrary mating, repair and duplicate elimination (`gen`, `elim` are any
functions): the loop ends after at most `max 1 n_max_iterations` rounds, returns at most `n_offsprings`
individuals, and fewer only if the iteration limit was reached. -/
theorem C15_infill_bounded :
    ∃ off rounds, infillDo elim gen pop n nMax (max 1 nMax) = some (off, rounds) ∧
      rounds ≤ max 1 nMax ∧ off.length ≤ n ∧ (off.length < n → nMax ≤ rounds ∧ 0 < rounds) := by
  obtain ⟨off', k', e, _, a2, a3, a4, _, _⟩ := infillLoop_rounds elim gen pop n nMax (max 1 nMax) [] 0 (by simp) (by simp)
  exact ⟨off', k', e, by simpa using a2, a3, fun h => a4 h⟩

/-- C15. If every round yields at least one new individual, `n_offsprings` rounds suffice: exactly `n_offsprings`
individuals are returned whenever the iteration limit is at least `n_offsprings`. -/
theorem C15_infill_complete
    (hprog : ∀ j off, off.length < n → 1 ≤ (elim (gen j (n - off.length)) pop off).length) (hmax : n ≤ nMax) :
    ∃ off rounds, infillDo elim gen pop n nMax (max 1 nMax) = some (off, rounds) ∧ off.length = n := by
  obtain ⟨off', k', e, _, _, a3, a4, _, a5⟩ :=
    infillLoop_rounds elim gen pop n nMax (max 1 nMax) [] 0 (by simp) (by simp)
  refine ⟨off', k', e, ?_⟩
  have := a5 hprog
  by_contra hne
  have := a4 (by omega)
  simp at *
  omega

/-- C15. With the default duplicate elimination the returned individuals are, whatever mating and repair
produce, pairwise non-duplicates (no later one is near an earlier one) and none is near a member of the current
population; every one of them was generated. -/
theorem C15_infill_duplicate_free (near : ι → ι → Bool) (fuel : ℕ) (off : List ι) (rounds : ℕ)
    (h : infillDo (fun new pop off => dedup (defaultMasks near) true new [pop, off]) gen pop n nMax fuel
      = some (off, rounds)) :
    off.Pairwise (fun earlier later => near later earlier = false) ∧
    (∀ x ∈ off, ∀ y ∈ pop, near x y = false) ∧ (∀ x ∈ off, ∃ k m, x ∈ gen k m) := by
  refine infillLoop_invariant (fun new pop off => dedup (defaultMasks near) true new [pop, off]) gen pop n nMax
    (fun off => off.Pairwise (fun earlier later => near later earlier = false) ∧
      (∀ x ∈ off, ∀ y ∈ pop, near x y = false) ∧ (∀ x ∈ off, ∃ k m, x ∈ gen k m)) ?_ fuel [] 0 off rounds
    (by simp) h
  intro off k m ⟨i1, i2, i3⟩
  obtain ⟨d1, d2, d3, _⟩ := C14_default_elimination near (gen k (n - off.length)) [pop, off]
  have hsub : ∀ x ∈ (dedup (defaultMasks near) true (gen k (n - off.length)) [pop, off]).take m,
      x ∈ dedup (defaultMasks near) true (gen k (n - off.length)) [pop, off] :=
    fun x hx => List.mem_of_mem_take hx
  refine ⟨?_, ?_, ?_⟩
  · rw [List.pairwise_append]
    refine ⟨i1, d2.sublist (List.take_sublist _ _), ?_⟩
    intro a ha b hb
    exact d3 b (hsub b hb) off (by simp) a ha
  · intro x hx y hy
    rcases List.mem_append.1 hx with hx | hx
    · exact i2 x hx y hy
    · exact d3 x (hsub x hx) pop (by simp) y hy
  · intro x hx
    rcases List.mem_append.1 hx with hx | hx
    · exact i3 x hx
    · exact ⟨k, n - off.length, d1.subset (hsub x hx)⟩

end Infill

/-- Two rounds are needed here: the first round yields one new individual only. -/
example : infillDo (fun new pop off => dedup (defaultMasks fun x y : ℕ => x == y) true new [pop, off])
    (fun k m => List.replicate m (k + 5)) [5, 9] 2 100 100 = some ([6, 7], 3) := by decide
/-- A generator that only repeats the population: the limit is reached and nothing is returned. -/
example : infillDo (fun new pop off => dedup (defaultMasks fun x y : ℕ => x == y) true new [pop, off])
    (fun _ m => List.replicate m 5) [5, 9] 2 4 4 = some ([], 4) := by decide

/-! ## C39 -/

/-- C39. `find_duplicates(X, epsilon)` has one entry per row, and marks exactly the rows that are near an
earlier row. -/
theorem C39_find_duplicates (near : ι → ι → Bool) (X : List ι) :
    (findDuplicates near X).length = X.length ∧
    ∀ i (hi : i < X.length) (hi' : i < (findDuplicates near X).length), (findDuplicates near X)[i] = true ↔
      ∃ j, ∃ hj : j < i, near X[i] X[j] = true := by
  refine ⟨by simp [findDuplicates], ?_⟩
  intro i hi hi'
  simp only [findDuplicates, List.getElem_map, List.getElem_zipIdx, List.any_eq_true, Nat.zero_add]
  constructor
  · rintro ⟨y, hy, h⟩
    obtain ⟨j, hj, rfl⟩ := List.mem_iff_getElem.1 hy
    rw [List.length_take] at hj
    refine ⟨j, by omega, ?_⟩
    rw [List.getElem_take] at h
    exact h
  · rintro ⟨j, hj, h⟩
    refine ⟨X[j], List.mem_iff_getElem.2 ⟨j, by rw [List.length_take]; omega, ?_⟩, h⟩
    rw [List.getElem_take]

example : findDuplicates (fun x y : ℤ => decide (|x - y| ≤ 1)) [0, 5, 1, 2, 9, 6] =
    [false, false, true, true, false, true] := by decide

section GD
variable {ρ : Type*} [LinearOrder ρ]

/-- C39, as stated ("get_duplicates lists the groups of equal rows") the property fails: the code raises an
`IndexError` for every matrix whose two last rows in sorted order are equal. -/
theorem C39_get_duplicates_index_error (sorted : List (ρ × ι)) :
    getDuplicates sorted = none ↔ ∃ l c d, sorted = l ++ [c, d] ∧ c.1 = d.1 := gdOuter_none sorted

theorem C39_get_duplicates_refuted : ∃ M : List (ℕ × ℕ), M.Pairwise (fun a b => a.1 ≤ b.1) ∧
    getDuplicates M = none := ⟨[(1, 0), (2, 1), (2, 2)], by decide, by
      rw [C39_get_duplicates_index_error]; exact ⟨[(1, 0)], (2, 1), (2, 2), rfl, rfl⟩⟩

/-- C39, what holds: when the two last sorted rows differ, `get_duplicates` returns the groups of equal rows:
every group has at least two members and is the complete class of one row value, no index occurs twice, and two
indices with equal rows occur in a common group. -/
theorem C39_get_duplicates_partial (sorted : List (ρ × ι)) (hs : sorted.Pairwise (fun a b => a.1 ≤ b.1))
    (hlast : ¬ ∃ l c d, sorted = l ++ [c, d] ∧ c.1 = d.1) :
    ∃ res, getDuplicates sorted = some res ∧
      res.flatten.Sublist (sorted.map Prod.snd) ∧ (∀ g ∈ res, 2 ≤ g.length) ∧
      (∀ g ∈ res, ∃ row, g = (sorted.filter (fun x => decide (x.1 = row))).map Prod.snd) ∧
      (∀ l a m b r, sorted = l ++ a :: (m ++ b :: r) → a.1 = b.1 → ∃ g ∈ res, a.2 ∈ g ∧ b.2 ∈ g) := by
  cases h : getDuplicates sorted with
  | none => exact absurd ((C39_get_duplicates_index_error sorted).1 h) hlast
  | some res => exact ⟨res, rfl, gdOuter_some sorted hs res h⟩

example : getDuplicates [(1, 4), (1, 2), (2, 0), (3, 1), (3, 5), (3, 6), (4, 3)] = some [[4, 2], [1, 5, 6]] := by
  simp [getDuplicates, gdOuter, gdInner]

end GD

end Props
