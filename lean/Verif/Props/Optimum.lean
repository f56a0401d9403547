import Verif.Lemmas.Optimum
import Mathlib.Algebra.Order.Group.Int
import Mathlib.Data.Fin.VecNotation

/-! # C21 (`filter_optimum`) and C22 (archives) -/

set_option linter.unusedSectionVars false

namespace Props
open Model Lemmas Spec

variable {ι α β : Type*} {m : ℕ} [LinearOrder β] [LinearOrder α] [AddCommGroup α] [IsOrderedAddMonoid α]

/-- The contract of moocore's `pareto_rank` can be met: a rank function exists for all matrices with at least one
objective. -/
theorem C10_contract_satisfiable (hm : 0 < m) : ∃ paretoRank : ∀ n, (Fin n → Fin m → α) → Fin n → ℕ,
    ∀ n F, IsParetoRank (fun i j => Dominates (F i) (F j)) (paretoRank n F) := by
  have : ∀ n (F : Fin n → Fin m → α), ∃ r : Fin n → ℕ, IsParetoRank (fun i j => Dominates (F i) (F j)) r := by
    intro n F
    obtain ⟨fronts, -, h⟩ := C03_fast_sort F hm n (le_refl _)
    have hr := (C10_rank_from_fronts fronts h.nodup).1
    have hmem : ∀ i, ∃ k, ∃ hk : k < fronts.length, i ∈ fronts[k] := by
      intro i
      obtain ⟨f, hf, hi⟩ := List.mem_flatten.1 (h.complete i)
      obtain ⟨k, hk, rfl⟩ := List.mem_iff_getElem.1 hf
      exact ⟨k, hk, hi⟩
    refine ⟨rankFromFronts fronts, fun i j hd => ?_, fun i k hk => ?_⟩
    · obtain ⟨k, hk, hi⟩ := hmem i
      obtain ⟨l, hl, hj⟩ := hmem j
      rw [hr k hk i hi, hr l hl j hj]
      exact canonical_dom_lt h hk hl hi hj hd
    · obtain ⟨k', hk', hi⟩ := hmem i
      have := hr k' hk' i hi
      rw [hk] at this
      subst this
      obtain ⟨j, hj, hd⟩ := canonical_pred h hk' hi
      exact ⟨j, hd, hr k (by omega) j hj⟩
  choose r hr using this
  exact ⟨r, hr⟩

section C21
variable (paretoRank : ∀ n, (Fin n → Fin m → α) → Fin n → ℕ)
  (hpr : ∀ n F, IsParetoRank (fun i j => Dominates (F i) (F j)) (paretoRank n F))
  (at' : Attrs ι α β m) (leastInfeasible : Bool)

/-- C21. No population or an empty one: `None`. -/
theorem C21_empty : filterOptimum paretoRank at' leastInfeasible none = some none ∧
    filterOptimum paretoRank at' leastInfeasible (some []) = some none := ⟨rfl, rfl⟩

include hpr in
/-- C21, several objectives, a feasible individual present: exactly the feasible individuals that no feasible
individual Pareto-dominates, none repeated. -/
theorem C21_multi_objective (hm : 1 < m) (pop : List ι) (hf : ∃ x ∈ pop, at'.feas x = true) :
    ∃ res, filterOptimum paretoRank at' leastInfeasible (some pop) = some (some res) ∧ res ≠ [] ∧
      (pop.Nodup → res.Nodup) ∧
      ∀ x, x ∈ res ↔ (x ∈ pop ∧ at'.feas x = true) ∧
        ∀ y ∈ pop, at'.feas y = true → ¬ Dominates (at'.F y) (at'.F x) := by
  obtain ⟨z, hz, hzf⟩ := hf
  have hne : pop.length ≠ 0 := by
    intro h; rw [List.length_eq_zero_iff.1 h] at hz; simp at hz
  have hfil : z ∈ pop.filter at'.feas := List.mem_filter.2 ⟨hz, hzf⟩
  obtain ⟨res, h1, h2, h3⟩ := ndsPop_mem paretoRank hpr at'.F (pop.filter at'.feas)
  refine ⟨res, ?_, ?_, fun hn => h2 (hn.filter _), fun x => ?_⟩
  · unfold filterOptimum
    simp only [if_neg hne, if_pos hm, if_pos (List.length_pos_of_mem hfil), h1, Option.map_some]
  · obtain ⟨y, hy, -, hu⟩ := exists_unbeaten at' (pop.filter at'.feas) z hfil
    refine List.ne_nil_of_mem ((h3 y).2 ⟨hy, fun w hw hd => hu w hw (Or.inr (Or.inl ⟨?_, ?_, hd⟩))⟩)
    · exact (List.mem_filter.1 hw).2
    · exact (List.mem_filter.1 hy).2
  · rw [h3, List.mem_filter]
    simp only [List.mem_filter, and_imp]

/-- C21, one objective, a feasible individual present: one feasible individual, whose objective value is the smallest
among the feasible ones. -/
theorem C21_single_objective (at' : Attrs ι α β 1) (paretoRank : ∀ n, (Fin n → Fin 1 → α) → Fin n → ℕ) (pop : List ι)
    (hf : ∃ x ∈ pop, at'.feas x = true) :
    ∃ x, filterOptimum paretoRank at' leastInfeasible (some pop) = some (some [x]) ∧ x ∈ pop ∧ at'.feas x = true ∧
      ∀ y ∈ pop, at'.feas y = true → at'.F x 0 ≤ at'.F y 0 := by
  obtain ⟨z, hz, hzf⟩ := hf
  have hne : pop.length ≠ 0 := by
    intro h; rw [List.length_eq_zero_iff.1 h] at hz; simp at hz
  have hfil : z ∈ pop.filter at'.feas := List.mem_filter.2 ⟨hz, hzf⟩
  obtain ⟨h1, h2⟩ := npArgmin_spec (fun x => at'.F x 0) (pop.filter at'.feas)
  cases hx : npArgmin (fun x => at'.F x 0) (pop.filter at'.feas) with
  | none => rw [h1.1 hx] at hfil; simp at hfil
  | some x =>
    obtain ⟨a, b⟩ := h2 x hx
    rw [List.mem_filter] at a
    refine ⟨x, ?_, a.1, a.2, fun y hy hyf => b y (List.mem_filter.2 ⟨hy, hyf⟩)⟩
    unfold filterOptimum
    simp only [if_neg hne, if_pos (List.length_pos_of_mem hfil), gt_iff_lt, lt_irrefl, if_false]
    rw [dif_pos (by omega)]
    exact congrArg _ hx

/-- C21, no feasible individual: `None`, or with `least_infeasible=True` one individual of least violation. -/
theorem C21_no_feasible (pop : List ι) (hne : pop ≠ []) (hf : ∀ x ∈ pop, at'.feas x = false) :
    filterOptimum paretoRank at' false (some pop) = some none ∧
    ∃ x, filterOptimum paretoRank at' true (some pop) = some (some [x]) ∧ x ∈ pop ∧ ∀ y ∈ pop, at'.cv x ≤ at'.cv y := by
  have hfil : pop.filter at'.feas = [] := by
    rw [List.filter_eq_nil_iff]; intro x hx; simp [hf x hx]
  have hlen : pop.length ≠ 0 := fun h => hne (List.length_eq_zero_iff.1 h)
  obtain ⟨h1, h2⟩ := npArgmin_spec at'.cv pop
  refine ⟨by simp [filterOptimum, hne, hfil], ?_⟩
  cases hx : npArgmin at'.cv pop with
  | none => exact absurd (h1.1 hx) hne
  | some x =>
    obtain ⟨a, b⟩ := h2 x hx
    exact ⟨x, by simp [filterOptimum, hne, hfil, hx], a, b⟩

end C21

/-- Two objectives, four individuals, the third infeasible. -/
def exAttrs : Attrs (Fin 4) ℤ ℤ 2 :=
  ⟨![![1, 3], ![2, 2], ![0, 0], ![2, 4]], ![true, true, false, true], ![0, 0, 5, 0]⟩

example : (∃ x ∈ List.finRange 4, exAttrs.feas x = true) ∧
    Dominates (exAttrs.F 2) (exAttrs.F 0) ∧ Dominates (exAttrs.F 0) (exAttrs.F 3) := by decide
example : ∃ res, filterOptimum (fun _ _ _ => 0) exAttrs true (some [2]) = some (some res) ∧ res = [2] := ⟨_, rfl, rfl⟩

/-! ## C22 -/

section C22

/-- The limits of an archive created by the constructors, when they leave room for at least one individual. -/
theorem mkArchive_limits (maxSize truncateSize : Option ℕ) (near : Option (ι → ι → Bool)) (cfg : ArchiveCfg ι)
    (h : mkArchive maxSize truncateSize near = some cfg) (hk : maxSize ≠ some 0) (ht : truncateSize ≠ some 0) :
    LimitsOK cfg ∧ cfg.near = near ∧ (∀ k, maxSize = some k → ∃ t, cfg.limits = some (k, t)) ∧
      (maxSize = none → cfg.limits = none) := by
  unfold mkArchive at h
  rcases maxSize with _ | k <;> rcases truncateSize with _ | t <;> simp only [Option.some.injEq, reduceCtorEq] at h
  · subst h
    exact ⟨fun k t he => by simp at he, rfl, by simp, fun _ => rfl⟩
  · subst h
    have : k ≠ 0 := fun h => hk (by rw [h])
    refine ⟨fun k' t' he => ?_, rfl, fun k' he => ⟨k, by simp at he; simp [he]⟩, by simp⟩
    simp only [Option.some.injEq, Prod.mk.injEq] at he
    omega
  · subst h
    have : k ≠ 0 := fun h => hk (by rw [h])
    have : t ≠ 0 := fun h => ht (by rw [h])
    refine ⟨fun k' t' he => ?_, rfl, fun k' he => ⟨min k t, by simp at he; simp [he]⟩, by simp⟩
    simp only [Option.some.injEq, Prod.mk.injEq] at he
    omega

/-- Everything handed to `add`. -/
def added (calls : List (List ι × (List ι → ℕ → List ι))) : List ι := (calls.map Prod.fst).flatten

/-- Everything added, with an initial part: used for induction over the calls. -/
theorem archiveRun_invariant (cfg : ArchiveCfg ι) (findOpt : List ι → Option (List ι)) (Inv : List ι → List ι → Prop)
    (hstep : ∀ S self sols trunc res, TruncOK trunc → Inv S self → archiveAdd cfg findOpt trunc self sols = some res →
      Inv (S ++ sols) res)
    (calls : List (List ι × (List ι → ℕ → List ι))) (ht : ∀ c ∈ calls, TruncOK c.2) : ∀ S self arch,
    Inv S self → archiveRun cfg findOpt self calls = some arch → Inv (S ++ added calls) arch := by
  induction calls with
  | nil => intro S self arch h hr; simp only [archiveRun, Option.some.injEq] at hr; subst hr; simpa [added] using h
  | cons c cs ih =>
    intro S self arch h hr
    obtain ⟨sols, trunc⟩ := c
    rw [archiveRun, Option.bind_eq_some_iff] at hr
    obtain ⟨res, h1, h2⟩ := hr
    have := ih (fun c hc => ht c (List.mem_cons_of_mem _ hc)) (S ++ sols) res arch
      (hstep S self sols trunc res (ht _ (List.mem_cons_self ..)) h h1) h2
    simpa [added] using this

theorem archive_basic (cfg : ArchiveCfg ι) (hl : LimitsOK cfg) (at' : Attrs ι α β m)
    (findOpt : List ι → Option (List ι)) (hfo : FindsBest at' findOpt)
    (calls : List (List ι × (List ι → ℕ → List ι))) (ht : ∀ c ∈ calls, TruncOK c.2) (arch : List ι)
    (hr : archiveRun cfg findOpt [] calls = some arch) :
    (∀ x ∈ arch, x ∈ added calls) ∧ (∀ k t, cfg.limits = some (k, t) → arch.length ≤ k) ∧
    (added calls ≠ [] → arch ≠ []) ∧ (∀ x ∈ arch, ∀ y ∈ arch, ¬ beats at' y x) ∧
    ((∃ x ∈ added calls, at'.feas x = true) → ∀ x ∈ arch, at'.feas x = true) := by
  have := archiveRun_invariant cfg findOpt (fun S self => (∀ x ∈ self, x ∈ S) ∧
    (∀ k t, cfg.limits = some (k, t) → self.length ≤ k) ∧ (S ≠ [] → self ≠ []) ∧
    (∀ x ∈ self, ∀ y ∈ self, ¬ beats at' y x) ∧ ((∃ x ∈ S, at'.feas x = true) → ∀ x ∈ self, at'.feas x = true)) ?_
    calls ht [] [] arch (by simp) hr
  · simpa using this
  · rintro S self sols trunc res htr ⟨i1, i2, i3, i4, i5⟩ he
    obtain ⟨a1, a2⟩ := archiveAdd_some cfg at' findOpt hfo trunc htr hl self sols
    have hne : self ++ sols ≠ [] := fun h => by rw [a1 h] at he; simp at he
    obtain ⟨opt, res', b1, b2, b3, b4, b5, b6⟩ := a2 hne
    rw [b1, Option.some.injEq] at he
    subst he
    have hmem : ∀ x ∈ res', x ∈ opt := fun x hx => (archDedup_sub cfg.near opt).1.subset (b4 x hx)
    refine ⟨fun x hx => ?_, b6, fun _ => b3, fun x hx y hy => ?_, ?_⟩
    · rcases List.mem_append.1 ((b2 x).1 (hmem x hx)).1 with h | h
      · exact List.mem_append_left _ (i1 x h)
      · exact List.mem_append_right _ h
    · exact ((b2 x).1 (hmem x hx)).2 y ((b2 y).1 (hmem y hy)).1
    · rintro ⟨z, hz, hzf⟩ x hx
      have hex : ∃ w ∈ self ++ sols, at'.feas w = true := by
        rcases List.mem_append.1 hz with h | h
        · obtain ⟨w, hw⟩ := List.exists_mem_of_ne_nil _ (i3 (List.ne_nil_of_mem h))
          exact ⟨w, List.mem_append_left _ hw, i5 ⟨z, h, hzf⟩ w hw⟩
        · exact ⟨z, List.mem_append_right _ h, hzf⟩
      obtain ⟨w, hw, hwf⟩ := hex
      by_contra hxf
      exact ((b2 x).1 (hmem x hx)).2 w hw (Or.inl ⟨hwf, by simpa using hxf⟩)

variable (paretoRank : ∀ n, (Fin n → Fin m → α) → Fin n → ℕ)
  (hpr : ∀ n F, IsParetoRank (fun i j => Dominates (F i) (F j)) (paretoRank n F))

/-- C22, size limit and provenance. After any sequence of `add` calls on an archive created empty with
`max_size = k >= 1` (any `truncate_size >= 1`, any duplicate test, any truncation operator that returns as many members
as asked), single- or multi-objective: at most `k` members, all of them added by some call. -/
theorem C22_size_limit (k : ℕ) (hk : 1 ≤ k) (truncateSize : Option ℕ) (htr : truncateSize ≠ some 0)
    (near : Option (ι → ι → Bool)) (cfg : ArchiveCfg ι) (hc : mkArchive (some k) truncateSize near = some cfg)
    (calls : List (List ι × (List ι → ℕ → List ι))) (ht : ∀ c ∈ calls, TruncOK c.2) (arch : List ι) :
    (∀ at' : Attrs ι α β 1, archiveRun cfg (findOptSingle at') [] calls = some arch →
      arch.length ≤ k ∧ ∀ x ∈ arch, ∃ c ∈ calls, x ∈ c.1) ∧
    (∀ paretoRank : ∀ n, (Fin n → Fin m → α) → Fin n → ℕ,
      (∀ n F, IsParetoRank (fun i j => Dominates (F i) (F j)) (paretoRank n F)) → ∀ at' : Attrs ι α β m,
      archiveRun cfg (findOptMulti paretoRank at') [] calls = some arch →
      arch.length ≤ k ∧ ∀ x ∈ arch, ∃ c ∈ calls, x ∈ c.1) := by
  obtain ⟨h1, -, h3, -⟩ := mkArchive_limits (some k) truncateSize near cfg hc
    (fun h => by simp only [Option.some.injEq] at h; omega) htr
  obtain ⟨t, h3⟩ := h3 k rfl
  have hadd : ∀ x ∈ added calls, ∃ c ∈ calls, x ∈ c.1 := by
    intro x hx
    obtain ⟨l, hl, hxl⟩ := List.mem_flatten.1 hx
    obtain ⟨c, hc, rfl⟩ := List.mem_map.1 hl
    exact ⟨c, hc, hxl⟩
  refine ⟨fun at' hr => ?_, fun paretoRank hpr at' hr => ?_⟩
  · obtain ⟨a, b, -⟩ := archive_basic cfg h1 at' _ (findOptSingle_best at') calls ht arch hr
    exact ⟨b k t h3, fun x hx => hadd x (a x hx)⟩
  · obtain ⟨a, b, -⟩ := archive_basic cfg h1 at' _ (findOptMulti_best paretoRank hpr at') calls ht arch hr
    exact ⟨b k t h3, fun x hx => hadd x (a x hx)⟩

theorem beats_neg_trans (at' : Attrs ι α β 1) (x y z : ι) (h1 : ¬ beats at' x y) (h2 : ¬ beats at' y z) :
    ¬ beats at' x z := by
  unfold beats Beats at *
  simp only [dominates_one] at *
  intro h
  rcases hx : at'.feas x <;> rcases hy : at'.feas y <;> rcases hz : at'.feas z <;> simp_all
  · exact absurd h (not_lt.2 (h2.trans h1))
  · exact absurd h (not_lt.2 (h2.trans h1))

/-- C22, single objective. After any sequence of `add` calls (bounded with room for one, or unbounded): if anything was
added the archive is not empty, and every member is a best one of all individuals ever added: if a feasible one was
added, it is feasible with the smallest objective value of all feasible ones; otherwise it has the least violation. -/
theorem C22_single_objective_best (maxSize truncateSize : Option ℕ) (hk : maxSize ≠ some 0) (htr : truncateSize ≠ some 0)
    (near : Option (ι → ι → Bool)) (cfg : ArchiveCfg ι) (hc : mkArchive maxSize truncateSize near = some cfg)
    (at' : Attrs ι α β 1) (calls : List (List ι × (List ι → ℕ → List ι))) (ht : ∀ c ∈ calls, TruncOK c.2)
    (arch : List ι) (hr : archiveRun cfg (findOptSingle at') [] calls = some arch) :
    let all := (calls.map Prod.fst).flatten
    (all ≠ [] → arch ≠ []) ∧
    ∀ x ∈ arch, x ∈ all ∧
      ((∃ y ∈ all, at'.feas y = true) → at'.feas x = true ∧ ∀ y ∈ all, at'.feas y = true → at'.F x 0 ≤ at'.F y 0) ∧
      ((∀ y ∈ all, at'.feas y = false) → ∀ y ∈ all, at'.cv x ≤ at'.cv y) := by
  intro all
  obtain ⟨hl, -, -, -⟩ := mkArchive_limits maxSize truncateSize near cfg hc hk htr
  obtain ⟨h1, -, h3, -, h5⟩ := archive_basic cfg hl at' _ (findOptSingle_best at') calls ht arch hr
  have hub : ∀ x ∈ arch, ∀ y ∈ all, ¬ beats at' y x := by
    have := archiveRun_invariant cfg (findOptSingle at') (fun S self => (∀ x ∈ self, x ∈ S) ∧ (S ≠ [] → self ≠ []) ∧
      ∀ x ∈ self, ∀ y ∈ S, ¬ beats at' y x) ?_ calls ht [] [] arch (by simp) hr
    · have := this.2.2; rw [List.nil_append] at this; exact this
    · rintro S self sols trunc res htr ⟨i1, i2, i3⟩ he
      obtain ⟨a1, a2⟩ := archiveAdd_some cfg at' _ (findOptSingle_best at') trunc htr hl self sols
      have hne : self ++ sols ≠ [] := fun h => by rw [a1 h] at he; simp at he
      obtain ⟨opt, res', b1, b2, b3, b4, -, -⟩ := a2 hne
      rw [b1, Option.some.injEq] at he
      subst he
      have hmem : ∀ x ∈ res', x ∈ opt := fun x hx => (archDedup_sub cfg.near opt).1.subset (b4 x hx)
      refine ⟨fun x hx => ?_, fun _ => b3, fun x hx y hy => ?_⟩
      · rcases List.mem_append.1 ((b2 x).1 (hmem x hx)).1 with h | h
        · exact List.mem_append_left _ (i1 x h)
        · exact List.mem_append_right _ h
      · have hu := ((b2 x).1 (hmem x hx)).2
        rcases List.mem_append.1 hy with h | h
        · obtain ⟨w, hw⟩ := List.exists_mem_of_ne_nil _ (i2 (List.ne_nil_of_mem h))
          exact beats_neg_trans at' y w x (i3 w hw y h) (hu w (List.mem_append_left _ hw))
        · exact hu y (List.mem_append_right _ h)
  refine ⟨h3, fun x hx => ⟨h1 x hx, fun hf => ?_, fun hf y hy => ?_⟩⟩
  · have hxf := h5 hf x hx
    refine ⟨hxf, fun y hy hyf => ?_⟩
    by_contra hlt
    exact hub x hx y hy (Or.inr (Or.inl ⟨hyf, hxf, (dominates_one _ _).2 (not_le.1 hlt)⟩))
  · by_contra hlt
    exact hub x hx y hy (Or.inr (Or.inr ⟨hf y hy, hf x (h1 x hx), not_le.1 hlt⟩))

include hpr in
/-- C22, several objectives, any limits: members never beat each other (both feasible: no dominance; both infeasible:
equal violation), and once a feasible individual was added only feasible ones are members. -/
theorem C22_multi_objective_consistent (maxSize truncateSize : Option ℕ) (hk : maxSize ≠ some 0)
    (htr : truncateSize ≠ some 0) (near : Option (ι → ι → Bool)) (cfg : ArchiveCfg ι)
    (hc : mkArchive maxSize truncateSize near = some cfg) (at' : Attrs ι α β m)
    (calls : List (List ι × (List ι → ℕ → List ι))) (ht : ∀ c ∈ calls, TruncOK c.2)
    (arch : List ι) (hr : archiveRun cfg (findOptMulti paretoRank at') [] calls = some arch) :
    let all := (calls.map Prod.fst).flatten
    (all ≠ [] → arch ≠ []) ∧
    (∀ x ∈ arch, ∀ y ∈ arch, ¬ Beats (at'.F y) (at'.feas y) (at'.cv y) (at'.F x) (at'.feas x) (at'.cv x)) ∧
    ((∃ x ∈ all, at'.feas x = true) → ∀ x ∈ arch, at'.feas x = true) := by
  intro all
  obtain ⟨hl, -, -, -⟩ := mkArchive_limits maxSize truncateSize near cfg hc hk htr
  obtain ⟨-, -, h3, h4, h5⟩ := archive_basic cfg hl at' _ (findOptMulti_best paretoRank hpr at') calls ht arch hr
  exact ⟨h3, h4, h5⟩

include hpr in
/-- C22, several objectives, unbounded. If individuals the duplicate test identifies have equal values, then after any
sequence of `add` calls every member is unbeaten by everything ever added, and the values of every unbeaten
individual ever added are present. -/
theorem C22_multi_objective_unbounded (near : Option (ι → ι → Bool)) (cfg : ArchiveCfg ι)
    (hc : mkArchive none none near = some cfg) (at' : Attrs ι α β m)
    (hnear : ∀ f, near = some f → ∀ x y, f x y = true → at'.F x = at'.F y ∧ at'.feas x = at'.feas y ∧ at'.cv x = at'.cv y)
    (calls : List (List ι × (List ι → ℕ → List ι))) (ht : ∀ c ∈ calls, TruncOK c.2)
    (arch : List ι) (hr : archiveRun cfg (findOptMulti paretoRank at') [] calls = some arch) :
    let all := (calls.map Prod.fst).flatten
    let unbeaten := fun x => ∀ y ∈ all,
      ¬ Beats (at'.F y) (at'.feas y) (at'.cv y) (at'.F x) (at'.feas x) (at'.cv x)
    (∀ x ∈ arch, x ∈ all ∧ unbeaten x) ∧
    (∀ x ∈ all, unbeaten x → ∃ a ∈ arch, at'.F a = at'.F x ∧ at'.feas a = at'.feas x) := by
  obtain ⟨hl, hn, -, hlim⟩ := mkArchive_limits none none near cfg hc (by simp) (by simp)
  have hlim := hlim rfl
  let key : ι → (Fin m → α) × Bool × β := fun x => (at'.F x, at'.feas x, at'.cv x)
  have hbk : ∀ x x' y y', key x = key x' → key y = key y' → beats at' x y → beats at' x' y' := by
    intro x x' y y' h1 h2 hb
    simp only [key, Prod.mk.injEq] at h1 h2
    unfold beats at *
    rw [← h1.1, ← h1.2.1, ← h1.2.2, ← h2.1, ← h2.2.1, ← h2.2.2]
    exact hb
  have hmain := archiveRun_invariant cfg (findOptMulti paretoRank at') (fun S self => (∀ x ∈ self, x ∈ S) ∧
    (∀ x ∈ self, ∀ y ∈ S, ¬ beats at' y x) ∧
    (∀ x ∈ S, (∀ y ∈ S, ¬ beats at' y x) → ∃ a ∈ self, key a = key x)) ?_ calls ht [] [] arch (by simp) hr
  · obtain ⟨h1, h2, h3⟩ := hmain
    rw [List.nil_append] at h1 h2 h3
    refine ⟨fun x hx => ⟨h1 x hx, h2 x hx⟩, fun x hx hu => ?_⟩
    obtain ⟨a, ha, hk⟩ := h3 x hx hu
    simp only [key, Prod.mk.injEq] at hk
    exact ⟨a, ha, hk.1, hk.2.1⟩
  · rintro S self sols trunc res htr ⟨i1, i2, i3⟩ he
    obtain ⟨a1, a2⟩ := archiveAdd_some cfg at' _ (findOptMulti_best paretoRank hpr at') trunc htr hl self sols
    have hne : self ++ sols ≠ [] := fun h => by rw [a1 h] at he; simp at he
    obtain ⟨opt, res', b1, b2, b3, b4, b5, -⟩ := a2 hne
    rw [b1, Option.some.injEq] at he
    subst he
    have hmem : ∀ x ∈ res', x ∈ opt := fun x hx => (archDedup_sub cfg.near opt).1.subset (b4 x hx)
    have hcov : ∀ x ∈ opt, ∃ y ∈ res', key y = key x := by
      rw [b5 hlim]
      refine archDedup_cover key cfg.near (fun f hf x y hxy => ?_) opt
      rw [hn] at hf
      obtain ⟨e1, e2, e3⟩ := hnear f hf x y hxy
      simp only [key, e1, e2, e3]
    have hsub : ∀ x ∈ self ++ sols, x ∈ S ++ sols := by
      intro x hx
      rcases List.mem_append.1 hx with h | h
      · exact List.mem_append_left _ (i1 x h)
      · exact List.mem_append_right _ h
    refine ⟨fun x hx => hsub x ((b2 x).1 (hmem x hx)).1, fun x hx y hy hb => ?_, fun x hx hu => ?_⟩
    · have hux := ((b2 x).1 (hmem x hx)).2
      rcases List.mem_append.1 hy with h | h
      · obtain ⟨w, hw, hwy, hwu⟩ := exists_unbeaten at' S y h
        obtain ⟨a, ha, hak⟩ := i3 w hw hwu
        have hwx : beats at' w x := by
          rcases hwy with rfl | hwy
          · exact hb
          · exact (beats_po at').trans _ _ _ hwy hb
        exact hux a (List.mem_append_left _ ha) (hbk w a x x hak.symm rfl hwx)
      · exact hux y (List.mem_append_right _ h) hb
    · rcases List.mem_append.1 hx with h | h
      · obtain ⟨a, ha, hak⟩ := i3 x h fun y hy => hu y (List.mem_append_left _ hy)
        obtain ⟨b, hb, hbk'⟩ := hcov a ((b2 a).2 ⟨List.mem_append_left _ ha, fun y hy hyb =>
          hu y (hsub y hy) (hbk y y a x rfl hak hyb)⟩)
        exact ⟨b, hb, hbk'.trans hak⟩
      · exact hcov x ((b2 x).2 ⟨List.mem_append_right _ h, fun y hy => hu y (hsub y hy)⟩)

/-- C22. When `add` raises: exactly if the archive is empty and nothing is added. -/
theorem C22_add_raises_iff (maxSize truncateSize : Option ℕ) (hk : maxSize ≠ some 0) (htr : truncateSize ≠ some 0)
    (near : Option (ι → ι → Bool)) (cfg : ArchiveCfg ι) (hc : mkArchive maxSize truncateSize near = some cfg)
    (at' : Attrs ι α β 1) (trunc : List ι → ℕ → List ι) (ht : TruncOK trunc) (self sols : List ι) :
    archiveAdd cfg (findOptSingle at') trunc self sols = none ↔ self = [] ∧ sols = [] := by
  obtain ⟨hl, -⟩ := mkArchive_limits maxSize truncateSize near cfg hc hk htr
  obtain ⟨a1, a2⟩ := archiveAdd_some cfg at' _ (findOptSingle_best at') trunc ht hl self sols
  rw [← List.append_eq_nil_iff]
  refine ⟨fun h => ?_, a1⟩
  by_contra hne
  obtain ⟨_, res, h1, -⟩ := a2 hne
  rw [h1] at h; simp at h

end C22

/-- C22 as stated fails for `max_size=0`: the code reads it as "no limit". -/
theorem C22_zero_size_refuted : ∃ (cfg : ArchiveCfg ℤ) (at' : Attrs ℤ ℤ ℤ 1),
    mkArchive (some 0) none none = some cfg ∧ TruncOK (fun (l : List ℤ) t => l.take t) ∧
    archiveRun cfg (findOptSingle at') [] [([3, 4], fun l t => l.take t)] = some [3] := by
  refine ⟨⟨some (0, 0), none⟩, ⟨fun x _ => x, fun _ => true, fun _ => 0⟩, rfl, ?_, rfl⟩
  intro l t h
  exact ⟨by simpa using h, fun x hx => List.mem_of_mem_take hx⟩

/-- C22 fails to build: the documented unbounded multi-objective archive `MultiObjectiveArchive(max_size=None)` raises a
`TypeError`, because `truncate_size` defaults to 100. -/
theorem C22_unbounded_constructor_raises (near : Option (ι → ι → Bool)) : mkArchive none (some 100) near = none := rfl

/-- A run on an archive of size 2 that merges, removes a duplicate, and truncates. -/
example : ∃ cfg, mkArchive (some 2) none (some fun x y : ℤ => decide (x = y)) = some cfg ∧
    archiveRun cfg (findOptSingle (⟨fun x _ => x / 10, fun x => decide (0 ≤ x), fun x => -x⟩ : Attrs ℤ ℤ ℤ 1)) []
      [([-5, -3], fun l t => l.take t), ([31, 25, 25], fun l t => l.take t), ([22, 21, 90], fun l t => l.take t)]
      = some [25, 22] := ⟨_, rfl, by decide⟩

/-- The hypotheses of the unbounded theorem are met by concrete archives: an exact duplicate test and the four
individuals above. -/
example : mkArchive none none (some fun x y : Fin 4 => decide (x = y)) = some ⟨none, some fun x y => decide (x = y)⟩ ∧
    (∀ x y : Fin 4, decide (x = y) = true → exAttrs.F x = exAttrs.F y ∧ exAttrs.feas x = exAttrs.feas y ∧
      exAttrs.cv x = exAttrs.cv y) ∧ TruncOK (fun (l : List (Fin 4)) t => l.take t) :=
  ⟨rfl, by decide, fun l t h => ⟨by simpa using h, fun x hx => List.mem_of_mem_take hx⟩⟩

end Props
