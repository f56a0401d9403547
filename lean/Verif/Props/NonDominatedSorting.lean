import Verif.Lemmas.NonDominatedSorting
import Verif.Props.FastNDS

/-! # C10: `NonDominatedSorting.do` and `rank_from_fronts` -/

set_option linter.unusedSectionVars false

namespace Props
open Model Spec Lemmas
variable {m n : ℕ}

/-- C10. `rank_from_fronts` gives every index its front number and the sentinel `sys.maxsize` to the others. -/
theorem C10_rank_from_fronts (fronts : List (List (Fin n))) (h : fronts.flatten.Nodup) :
    (∀ k (hk : k < fronts.length), ∀ i ∈ fronts[k], rankFromFronts fronts i = k) ∧
    (∀ i, i ∉ fronts.flatten → rankFromFronts fronts i = 9223372036854775807) := by
  refine ⟨fun k hk i hi => ?_, fun i hi => rankFromFronts_foldl fronts 0 _ i hi⟩
  have := rankFromFronts_foldl_mem fronts 0 (fun _ => maxsize) i k hk hi (fun l hl hkl hil => by
    have hd := (List.nodup_flatten.1 h).2
    exact (List.pairwise_iff_getElem.1 hd k l hk hl hkl) hi hil)
  rw [Nat.zero_add] at this
  exact this

example : ([[1, 3], [0]] : List (List (Fin 5))).flatten.Nodup ∧
    (List.finRange 5).map (rankFromFronts [[1, 3], [0]]) =
      [1, 0, 9223372036854775807, 0, 9223372036854775807] := by decide

section
variable {α : Type*} [LinearOrder α] [AddCommGroup α] [IsOrderedAddMonoid α]

/-- The leading `j` fronts (all if no number is given). -/
def leading {ι : Type*} (nFronts : Option ℕ) (all : List (List ι)) : List (List ι) :=
  match nFronts with
  | none => all
  | some j => all.take j

theorem isParetoRank_unique {ι : Type*} {dom : ι → ι → Prop} {r s : ι → ℕ} (hr : IsParetoRank dom r)
    (hs : IsParetoRank dom s) : r = s := by
  have key : ∀ {r s : ι → ℕ}, IsParetoRank dom r → IsParetoRank dom s → ∀ k i, r i = k → r i ≤ s i := by
    intro r s hr hs k
    induction k with
    | zero => intro i hi; omega
    | succ k ih =>
      intro i hi
      obtain ⟨j, hd, hj⟩ := hr.pred i k hi
      have := ih j hj
      have := hs.lt i j hd
      omega
  funext i
  exact le_antisymm (key hr hs _ i rfl) (key hs hr _ i rfl)

theorem shifted_rank (paretoRank : (Fin n → Fin m → α) → Fin n → ℕ)
    (hpr : ∀ F, IsParetoRank (fun i j => Dominates (F i) (F j)) (paretoRank F)) (F : Fin n → Fin m → α) (e : α) :
    paretoRank (fun i c => F i c - e) = paretoRank F := by
  refine isParetoRank_unique (dom := fun i j => Dominates (F i) (F j)) ?_ (hpr F)
  have := hpr (fun i c => F i c - e)
  simpa [Dominates] using this

/-- C10. Without a custom dominator: with no limits all canonical fronts are returned; `n_fronts = j` keeps
the `j` leading ones; `n_stop_if_ranked = k` keeps the shortest prefix of these that ranks `k` points. This
holds whatever value `epsilon` has. -/
theorem C10_native (paretoRank : (Fin n → Fin m → α) → Fin n → ℕ)
    (hpr : ∀ F, IsParetoRank (fun i j => Dominates (F i) (F j)) (paretoRank F))
    (epsilon : Option α) (fuel : ℕ) (F : Fin n → Fin m → α) (nFronts stop : Option ℕ) :
    ∃ all res, ndsFronts paretoRank none epsilon fuel F none none = some all ∧
      CanonicalFronts (fun i j => Dominates (F i) (F j)) all ∧
      ndsFronts paretoRank none epsilon fuel F nFronts stop = some res ∧
      (stop = none → res = leading nFronts all) ∧
      (∀ k, stop = some k → ShortestPrefix k (leading nFronts all) res) := by
  by_cases hn : n = 0
  · subst hn
    refine ⟨[], [], by simp [ndsFronts], ⟨by simp, fun i => i.elim0, by simp, by simp⟩, by simp [ndsFronts], ?_, ?_⟩
    · intro _; cases nFronts <;> simp [leading]
    · intro k _
      have : leading nFronts ([] : List (List (Fin 0))) = [] := by cases nFronts <;> simp [leading]
      rw [this]
      exact ⟨by simp, by simp, by simp, by simp⟩
  · have hc := rankFronts_canonical (hpr F)
    rw [if_neg hn] at hc
    have hsort : paretoRank (shiftF epsilon F) = paretoRank F := by
      cases epsilon with
      | none => rfl
      | some e => exact shifted_rank paretoRank hpr F e
    have hval : ∀ nf st, ndsFronts paretoRank none epsilon fuel F nf st = some (takeUntil st 0 (leading nf
        ((List.range (ranksMax (paretoRank F) + 1)).map (rankFront (paretoRank F))))) := by
      intro nf st
      simp only [ndsFronts, if_neg hn, hsort, nativeLoop_eq, List.nil_append]
      congr 2
      cases nf with
      | none => simp only [leading, Option.any_none, Bool.not_false]; rw [List.takeWhile_eq_self_iff.2 (by simp)]
      | some j =>
        simp only [Option.any_some, leading, ← List.map_take]
        congr 1
        rw [← takeWhile_range]
        congr 1
        funext r
        by_cases hr : r < j
        · simp [hr, Nat.not_le.2 hr]
        · simp [hr, Nat.not_lt.1 hr]
    refine ⟨_, _, hval none none, ?_, hval nFronts stop, ?_, ?_⟩
    · rw [takeUntil_none]; exact hc
    · rintro rfl; rw [takeUntil_none, takeUntil_none]; rfl
    · rintro k rfl; rw [takeUntil_none]; exact takeUntil_shortest _ _

/-- C10. `epsilon` has no effect at all on the result (it is subtracted from every entry). -/
theorem C10_epsilon_no_effect (paretoRank : (Fin n → Fin m → α) → Fin n → ℕ)
    (hpr : ∀ F, IsParetoRank (fun i j => Dominates (F i) (F j)) (paretoRank F)) (dominator : NdsDominator n m α)
    (e : α) (fuel : ℕ) (F : Fin n → Fin m → α) (nFronts stop : Option ℕ) :
    ndsFronts paretoRank dominator (some e) fuel F nFronts stop =
      ndsFronts paretoRank dominator none fuel F nFronts stop := by
  cases dominator with
  | some d => rfl
  | none => simp only [ndsFronts, shiftF, shifted_rank paretoRank hpr F e]

/-- C10. With any custom dominator: the sorting looks at the matrix above its diagonal; if there every set of points has a member that nothing in the
set dominates, the call terminates; `n_stop_if_ranked = k` gives the shortest prefix of the canonical fronts ranking `k` points, and no
limit gives all of them (up to the built-in limit of 10^8 points). -/
theorem C10_any_dominator (paretoRank : (Fin n → Fin m → α) → Fin n → ℕ)
    (d : (Fin n → Fin m → α) → Fin n → Fin n → ℤ) (epsilon : Option α) (fuel : ℕ) (hf : n ≤ fuel)
    (F : Fin n → Fin m → α) (hmin : HasMinimal (fun a b => upper (d F) a b = 1))
    (nFronts stop : Option ℕ) :
    ∃ all res, CanonicalFronts (fun i j => upper (d F) i j = 1) all ∧
      ndsFronts paretoRank (some d) epsilon fuel F nFronts stop = some res ∧
      (stop = none → n ≤ 100000000 → res = all) ∧
      (∀ k, stop = some k → ShortestPrefix k all res) := by
  by_cases hn : n = 0
  · subst hn
    refine ⟨[], [], ⟨by simp, fun i => i.elim0, by simp, by simp⟩, by simp [ndsFronts], by simp, ?_⟩
    intro k _
    exact ⟨by simp, by simp, by simp, by simp⟩
  · obtain ⟨all, h1, h2⟩ := C03_any_matrix (d F) hmin fuel hf
    refine ⟨all, takeUntil (some (stop.getD 100000000)) 0 all, h2, ?_, ?_, ?_⟩
    · simp [ndsFronts, hn, h1, dominatorLoop_eq]
    · rintro rfl hle
      have hs := takeUntil_shortest 100000000 all
      simp only [Option.getD_none]
      rcases hs.enough with h | h
      · obtain ⟨t, ht⟩ := hs.isPrefix
        have hlen : all.flatten.length ≤ n := by
          have := h2.nodup.length_le_card (α := Fin n)
          simpa using this
        have : all.flatten.length = (takeUntil (some 100000000) 0 all).flatten.length + t.flatten.length := by
          conv_lhs => rw [← ht]
          simp only [List.flatten_append, List.length_append]
        have ht0 : t.flatten = [] := List.length_eq_zero_iff.1 (by omega)
        have : t = [] := by
          rcases t with _ | ⟨f, t⟩
          · rfl
          · rw [List.flatten_cons, List.append_eq_nil_iff] at ht0
            exact absurd ht0.1 (h2.nonempty f (by rw [← ht]; simp))
        subst this
        rwa [List.append_nil] at ht
      · exact h
    · rintro k rfl; exact takeUntil_shortest k all

/-- C10. With a custom dominator whose matrix is skew-symmetric and a strict partial order, the call
terminates; `n_stop_if_ranked = k` gives the shortest prefix of the canonical fronts ranking `k` points, and no
limit gives all of them (up to the built-in limit of 10^8 points). -/
theorem C10_dominator (paretoRank : (Fin n → Fin m → α) → Fin n → ℕ)
    (d : (Fin n → Fin m → α) → Fin n → Fin n → ℤ) (epsilon : Option α) (fuel : ℕ) (hf : n ≤ fuel)
    (F : Fin n → Fin m → α) (hM : ∀ a b, d F b a = - d F a b) (hpo : StrictPO (fun a b => d F a b = 1))
    (nFronts stop : Option ℕ) :
    ∃ all res, CanonicalFronts (fun i j => d F i j = 1) all ∧
      ndsFronts paretoRank (some d) epsilon fuel F nFronts stop = some res ∧
      (stop = none → n ≤ 100000000 → res = all) ∧
      (∀ k, stop = some k → ShortestPrefix k all res) := by
  have hu : upper (d F) = d F := by
    funext a b
    unfold upper
    rcases lt_trichotomy a b with h | h | h
    · rw [if_pos h]
    · subst h
      have := hM a a
      simp only [lt_irrefl, if_false]
      omega
    · rw [if_neg (not_lt.2 h.le), if_pos h, hM a b, neg_neg]
  have := C10_any_dominator paretoRank d epsilon fuel hf F (by rw [hu]; exact fun s hs => StrictPO.exists_minimal hpo s hs) nFronts stop
  rwa [hu] at this

/-- C10. `only_non_dominated_front=True` returns exactly the non-dominated points. -/
theorem C10_first (paretoRank : (Fin n → Fin m → α) → Fin n → ℕ)
    (hpr : ∀ F, IsParetoRank (fun i j => Dominates (F i) (F j)) (paretoRank F))
    (epsilon : Option α) (fuel : ℕ) (F : Fin n → Fin m → α) :
    ∃ first, ndsFirst paretoRank none epsilon fuel F = some first ∧ first.Nodup ∧
      ∀ i, i ∈ first ↔ ∀ j, ¬ Dominates (F j) (F i) := by
  obtain ⟨all, res, -, h1, h2, h3, -⟩ := C10_native paretoRank hpr epsilon fuel F (some 1) none
  have h3 := h3 rfl
  subst h3
  cases all with
  | nil =>
    refine ⟨[], by simp [ndsFirst, h2, leading], by simp, fun i => ?_⟩
    exact absurd (h1.complete i) (by simp)
  | cons f fs =>
    refine ⟨f, by simp [ndsFirst, h2, leading], (List.nodup_flatten.1 h1.nodup).1 f (by simp), fun i => ?_⟩
    have := h1.level 0 (by simp) i
    rw [List.getElem_cons_zero] at this
    simpa using this

/-- C10. `do(return_rank=True)`: the ranks returned are the numbers of the fronts returned. -/
theorem C10_with_rank (paretoRank : (Fin n → Fin m → α) → Fin n → ℕ)
    (hpr : ∀ F, IsParetoRank (fun i j => Dominates (F i) (F j)) (paretoRank F))
    (epsilon : Option α) (fuel : ℕ) (F : Fin n → Fin m → α) :
    ∃ fronts rank, ndsWithRank paretoRank none epsilon fuel F none none = some (fronts, rank) ∧
      CanonicalFronts (fun i j => Dominates (F i) (F j)) fronts ∧
      ∀ k (hk : k < fronts.length), ∀ i ∈ fronts[k], rank i = k := by
  obtain ⟨all, _, h1, h2, -⟩ := C10_native paretoRank hpr epsilon fuel F none none
  exact ⟨all, rankFromFronts all, by simp [ndsWithRank, h1], h2, (C10_rank_from_fronts all h2.nodup).1⟩

end

/-- A concrete rank function meeting the contract on a concrete matrix, and truncation by `n_stop_if_ranked`. -/
example : let F : Fin 4 → Fin 2 → ℤ := ![![1, 5], ![2, 2], ![3, 3], ![4, 4]]
    let r : Fin 4 → ℕ := ![0, 0, 1, 2]
    (∀ i j, Dominates (F j) (F i) → r j < r i) ∧
    (∀ i, r i = 0 ∨ ∃ j, Dominates (F j) (F i) ∧ r j + 1 = r i) ∧
    ndsFronts (fun _ => r) none none 0 F none (some 3) = some [[0, 1], [2]] ∧
    ndsFronts (fun _ => r) none none 0 F (some 1) none = some [[0, 1]] := by decide

/-- C10. The part about `n_fronts` is FALSE for a custom dominator: the argument is ignored. One front is
requested for two points of which the first dominates the second, and two fronts come back. -/
theorem C10_dominator_n_fronts_refuted :
    ∃ res, ndsFronts (fun _ _ => 0) (some fun F => dominationMatrix F F 0) none 2 ![![(1 : ℤ)], ![2]] (some 1) none
      = some res ∧ 1 < res.length := ⟨[[0], [1]], by decide, by decide⟩

end Props
