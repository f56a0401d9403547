import Verif.Model.Evaluator
import Mathlib.Data.List.Nodup
import Mathlib.Tactic.Common

set_option linter.unusedSimpArgs false
set_option linter.unusedSectionVars false

namespace Lemmas
open Model
variable {X κ V : Type*} [DecidableEq κ]

/-- Frame conditions of `setColumn`. -/
theorem setColumn_frame (key : κ) : ∀ (ids : List ℕ) (vs : List V) (heap : ℕ → EvInd X κ V) (j : ℕ),
    (setColumn heap key ids vs j).x = (heap j).x ∧
    (setColumn heap key ids vs j).evaluated = (heap j).evaluated ∧
    (∀ k, k ≠ key → (setColumn heap key ids vs j).vals k = (heap j).vals k) ∧
    (j ∉ ids → setColumn heap key ids vs j = heap j)
  | [], _, heap, j => by simp [setColumn]
  | i :: ids, [], heap, j => by simp [setColumn]
  | i :: ids, v :: vs, heap, j => by
    rw [setColumn]
    obtain ⟨h1, h2, h3, h4⟩ := setColumn_frame key ids vs
      (Function.update heap i { heap i with vals := Function.update (heap i).vals key (some v) }) j
    by_cases hj : j = i
    · subst hj
      refine ⟨by rw [h1]; simp, by rw [h2]; simp, ?_, ?_⟩
      · intro k hk
        rw [h3 k hk]
        simp [Function.update_of_ne hk]
      · intro hn; simp at hn
    · rw [Function.update_of_ne hj] at h1 h2 h3 h4
      exact ⟨h1, h2, h3, fun hn => h4 (fun h => hn (List.mem_cons_of_mem _ h))⟩

theorem setColumn_val (key : κ) : ∀ (ids : List ℕ) (vs : List V) (heap : ℕ → EvInd X κ V), ids.Nodup →
    vs.length = ids.length → ∀ (p : ℕ) (hp : p < ids.length) (hp' : p < vs.length),
      (setColumn heap key ids vs ids[p]).vals key = some vs[p]
  | [], _, heap, _, _, p, hp, _ => by simp at hp
  | i :: ids, [], heap, _, h, p, hp, hp' => by simp at hp'
  | i :: ids, v :: vs, heap, hnd, hl, p, hp, hp' => by
    rw [setColumn]
    rw [List.nodup_cons] at hnd
    cases p with
    | zero =>
      have := (setColumn_frame key ids vs
        (Function.update heap i { heap i with vals := Function.update (heap i).vals key (some v) }) i).2.2.2 hnd.1
      simp only [List.getElem_cons_zero]
      rw [this]; simp
    | succ p =>
      simp only [List.getElem_cons_succ]
      exact setColumn_val key ids vs _ hnd.2 (by simpa using hl) p (by simpa using hp) (by simpa using hp')

theorem setColumns_frame (ids : List ℕ) : ∀ (out : List (κ × List V)) (heap : ℕ → EvInd X κ V) (j : ℕ),
    ((setColumns ids heap out).1 j).x = (heap j).x ∧
    ((setColumns ids heap out).1 j).evaluated = (heap j).evaluated ∧
    (∀ k, k ∉ out.map Prod.fst → ((setColumns ids heap out).1 j).vals k = (heap j).vals k) ∧
    (j ∉ ids → (setColumns ids heap out).1 j = heap j)
  | [], heap, j => by simp [setColumns]
  | (key, vs) :: rest, heap, j => by
    rw [setColumns]
    split_ifs with h
    · simp
    · obtain ⟨h1, h2, h3, h4⟩ := setColumns_frame ids rest (setColumn heap key ids vs) j
      obtain ⟨g1, g2, g3, g4⟩ := setColumn_frame key ids vs heap j
      refine ⟨h1.trans g1, h2.trans g2, ?_, ?_⟩
      · intro k hk
        simp only [List.map_cons, List.mem_cons, not_or] at hk
        rw [h3 k hk.2, g3 k hk.1]
      · intro hj; rw [h4 hj, g4 hj]

theorem setColumns_ok (ids : List ℕ) : ∀ (out : List (κ × List V)) (heap : ℕ → EvInd X κ V),
    ((setColumns ids heap out).2 = true ↔ ∀ c ∈ out, c.2.length = ids.length)
  | [], heap => by simp [setColumns]
  | (key, vs) :: rest, heap => by
    rw [setColumns]
    split_ifs with h
    · simp only [Bool.false_eq_true, List.mem_cons, forall_eq_or_imp, false_iff, not_and]
      intro h'; exact absurd h' h
    · rw [setColumns_ok ids rest]
      simp only [List.mem_cons, forall_eq_or_imp]
      exact ⟨fun a => ⟨by simpa using h, a⟩, fun a => a.2⟩

theorem setColumns_val (ids : List ℕ) (hnd : ids.Nodup) : ∀ (out : List (κ × List V)) (heap : ℕ → EvInd X κ V),
    (out.map Prod.fst).Nodup → (∀ c ∈ out, c.2.length = ids.length) → ∀ c ∈ out, ∀ (p : ℕ) (hp : p < ids.length),
      ((setColumns ids heap out).1 ids[p]).vals c.1 = c.2[p]?
  | [], heap, _, _, c, hc, _, _ => by simp at hc
  | (key, vs) :: rest, heap, hk, hl, c, hc, p, hp => by
    rw [setColumns, if_neg (by simpa using hl _ (List.mem_cons_self ..))]
    rw [List.map_cons, List.nodup_cons] at hk
    rcases List.mem_cons.1 hc with rfl | hc
    · rw [(setColumns_frame ids rest _ _).2.2.1 _ hk.1]
      have hlen : vs.length = ids.length := hl _ (List.mem_cons_self ..)
      rw [setColumn_val key ids vs heap hnd hlen p hp (by omega), List.getElem?_eq_getElem]
    · exact setColumns_val ids hnd rest _ hk.2 (fun c hc => hl c (List.mem_cons_of_mem _ hc)) c hc p hp

theorem markEvaluated_frame (keys : List κ) : ∀ (ids : List ℕ) (heap : ℕ → EvInd X κ V) (j : ℕ),
    (markEvaluated keys ids heap j).x = (heap j).x ∧
    (markEvaluated keys ids heap j).vals = (heap j).vals ∧
    (j ∉ ids → markEvaluated keys ids heap j = heap j) ∧
    (∀ k, k ∈ (markEvaluated keys ids heap j).evaluated ↔ k ∈ (heap j).evaluated ∨ (j ∈ ids ∧ k ∈ keys))
  | [], heap, j => by simp [markEvaluated]
  | i :: ids, heap, j => by
    rw [markEvaluated]
    obtain ⟨h1, h2, h3, h4⟩ := markEvaluated_frame keys ids
      (Function.update heap i { heap i with evaluated := (heap i).evaluated ++ keys }) j
    by_cases hj : j = i
    · subst hj
      refine ⟨by rw [h1]; simp, by rw [h2]; simp, by simp, ?_⟩
      intro k
      rw [h4]
      simp only [Function.update_self, List.mem_append, List.mem_cons, true_or, true_and]
      tauto
    · rw [Function.update_of_ne hj] at h1 h2 h3 h4
      refine ⟨h1, h2, fun hn => h3 (fun h => hn (List.mem_cons_of_mem _ h)), ?_⟩
      intro k
      rw [h4]
      simp only [List.mem_cons, hj, false_or]

theorem evSelect_mem (heap : ℕ → EvInd X κ V) (skip : Bool) (req : List κ) (pop : List ℕ) (i : ℕ) :
    i ∈ evSelect heap skip req pop ↔ i ∈ pop ∧ (skip = true → ∃ e ∈ req, e ∉ (heap i).evaluated) := by
  unfold evSelect
  cases skip
  · simp
  · simp

end Lemmas
