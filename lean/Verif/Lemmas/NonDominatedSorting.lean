import Verif.Model.NonDominatedSorting
import Verif.Spec.Sorting
import Verif.Lemmas.Fronts
import Mathlib.Data.List.Infix
import Mathlib.Data.List.TakeWhile

set_option linter.unusedSimpArgs false

namespace Lemmas
open Model Spec
variable {ι : Type*} {n m : ℕ}

/-- Pure description of both truncation loops. -/
def takeUntil (stop : Option ℕ) : ℕ → List (List ι) → List (List ι)
  | _, [] => []
  | k, f :: fs => f :: if stop.any (fun s => decide (s ≤ k + f.length)) then [] else takeUntil stop (k + f.length) fs

theorem dominatorLoop_eq (stop : ℕ) (raw acc : List (List (Fin n))) (k : ℕ) :
    dominatorLoop stop raw acc k = acc ++ takeUntil (some stop) k raw := by
  induction raw generalizing acc k with
  | nil => simp [dominatorLoop, takeUntil]
  | cons f raw ih =>
    simp only [dominatorLoop, takeUntil, Option.any_some, decide_eq_true_eq]
    split_ifs <;> simp [ih]

/-- The front numbered `r` of the native branch. -/
def rankFront (ranks : Fin n → ℕ) (r : ℕ) : List (Fin n) :=
  (List.finRange n).filter (fun i => decide (ranks i = r))

theorem nativeLoop_eq (ranks : Fin n → ℕ) (nFronts stop : Option ℕ) (rs : List ℕ) (acc : List (List (Fin n)))
    (k : ℕ) : nativeLoop ranks nFronts stop rs acc k =
      acc ++ takeUntil stop k ((rs.takeWhile (fun r => !nFronts.any (fun j => decide (j ≤ r)))).map
        (rankFront ranks)) := by
  induction rs generalizing acc k with
  | nil => simp [nativeLoop, takeUntil]
  | cons r rs ih =>
    by_cases h : nFronts.any (fun j => decide (j ≤ r)) = true
    · simp [nativeLoop, h, takeUntil, List.takeWhile_cons]
    · have hw : (r :: rs).takeWhile (fun r => !nFronts.any (fun j => decide (j ≤ r))) =
          r :: rs.takeWhile (fun r => !nFronts.any (fun j => decide (j ≤ r))) := by
        rw [List.takeWhile_cons, if_pos (by simpa using h)]
      rw [nativeLoop, if_neg h, hw, List.map_cons, takeUntil]
      change (if stop.any (fun s => decide (s ≤ k + (rankFront ranks r).length)) = true then
        acc ++ [rankFront ranks r] else nativeLoop ranks nFronts stop rs (acc ++ [rankFront ranks r])
          (k + (rankFront ranks r).length)) = _
      by_cases h2 : stop.any (fun s => decide (s ≤ k + (rankFront ranks r).length)) = true
      · rw [if_pos h2, if_pos h2]
      · rw [if_neg h2, if_neg h2, ih]
        simp

theorem takeUntil_none (k : ℕ) (fs : List (List ι)) : takeUntil none k fs = fs := by
  induction fs generalizing k with
  | nil => rfl
  | cons f fs ih => simp [takeUntil, ih]

theorem takeUntil_prefix (stop : Option ℕ) (k : ℕ) (fs : List (List ι)) : takeUntil stop k fs <+: fs := by
  induction fs generalizing k with
  | nil => simp [takeUntil]
  | cons f fs ih =>
    simp only [takeUntil, List.cons_prefix_cons, true_and]
    split_ifs
    · exact List.nil_prefix
    · exact ih _

theorem takeUntil_enough (s k : ℕ) (fs : List (List ι)) :
    s ≤ k + (takeUntil (some s) k fs).flatten.length ∨ takeUntil (some s) k fs = fs := by
  induction fs generalizing k with
  | nil => simp [takeUntil]
  | cons f fs ih =>
    simp only [takeUntil, Option.any_some, decide_eq_true_eq]
    split_ifs with h
    · left; simpa using h
    · rcases ih (k + f.length) with h' | h'
      · left; simp only [List.flatten_cons, List.length_append]; omega
      · right; rw [h']

theorem takeUntil_minimal (s k : ℕ) (fs : List (List ι)) (p : List (List ι)) (hp : p <+: fs) (hne : p ≠ [])
    (hl : p.length < (takeUntil (some s) k fs).length) : k + p.flatten.length < s := by
  induction fs generalizing k p with
  | nil => simp [takeUntil] at hl
  | cons f fs ih =>
    cases p with
    | nil => exact absurd rfl hne
    | cons g p =>
      obtain ⟨hfg, hp'⟩ := List.cons_prefix_cons.1 hp
      subst hfg
      simp only [takeUntil, Option.any_some, decide_eq_true_eq] at hl
      split_ifs at hl with h
      · simp at hl
      · simp only [List.length_cons, Nat.add_lt_add_iff_right] at hl
        by_cases hp0 : p = []
        · subst hp0; simp only [List.flatten_cons, List.flatten_nil, List.append_nil]; omega
        · have := ih (k + g.length) p hp' hp0 hl
          simp only [List.flatten_cons, List.length_append]; omega

theorem takeUntil_shortest (s : ℕ) (fs : List (List ι)) : ShortestPrefix s fs (takeUntil (some s) 0 fs) where
  isPrefix := takeUntil_prefix _ _ _
  enough := by simpa using takeUntil_enough s 0 fs
  minimal := fun p hp hne hl => by simpa using takeUntil_minimal s 0 fs p hp hne hl
  nonempty := by
    intro h
    cases fs with
    | nil => exact absurd rfl h
    | cons f fs => simp [takeUntil]

theorem foldl_max_le (l : List ℕ) (a : ℕ) : a ≤ l.foldl max a ∧ ∀ x ∈ l, x ≤ l.foldl max a := by
  induction l generalizing a with
  | nil => simp
  | cons x l ih =>
    obtain ⟨h1, h2⟩ := ih (max a x)
    simp only [List.foldl_cons, List.mem_cons, forall_eq_or_imp]
    exact ⟨le_trans (le_max_left _ _) h1, le_trans (le_max_right _ _) h1, h2⟩

theorem foldl_max_mem (l : List ℕ) (a : ℕ) : l.foldl max a = a ∨ l.foldl max a ∈ l := by
  induction l generalizing a with
  | nil => simp
  | cons x l ih =>
    simp only [List.foldl_cons, List.mem_cons]
    rcases ih (max a x) with h | h
    · rw [h]; rcases max_choice a x with h' | h' <;> simp [h']
    · right; right; exact h

theorem le_ranksMax (ranks : Fin n → ℕ) (i : Fin n) : ranks i ≤ ranksMax ranks :=
  (foldl_max_le _ 0).2 _ (by simp)

theorem ranksMax_attained (ranks : Fin n → ℕ) (h0 : ∃ i, ranks i = 0) : ∃ i, ranks i = ranksMax ranks := by
  rcases foldl_max_mem ((List.finRange n).map ranks) 0 with h | h
  · obtain ⟨i, hi⟩ := h0; exact ⟨i, by rw [hi]; exact h.symm⟩
  · simp only [List.mem_map, List.mem_finRange, true_and] at h
    exact h

theorem mem_rankFront {ranks : Fin n → ℕ} {r : ℕ} {i : Fin n} : i ∈ rankFront ranks r ↔ ranks i = r := by
  simp [rankFront]

theorem mem_take_rankFronts (ranks : Fin n → ℕ) (N k : ℕ) (i : Fin n) :
    i ∈ (((List.range N).map (rankFront ranks)).take k).flatten ↔ ranks i < min k N := by
  rw [mem_take_flatten]
  constructor
  · rintro ⟨l, hl, hk, hi⟩
    simp only [List.getElem_map, List.getElem_range, mem_rankFront] at hi
    simp only [List.length_map, List.length_range] at hl
    omega
  · intro h
    exact ⟨ranks i, by simp; omega, by omega, by simp [mem_rankFront]⟩

/-- Without limits the native branch returns the canonical fronts. -/
theorem rankFronts_canonical {dom : Fin n → Fin n → Prop} {ranks : Fin n → ℕ} (h : IsParetoRank dom ranks) :
    CanonicalFronts dom (((List.range (if n = 0 then 0 else ranksMax ranks + 1)).map (rankFront ranks))) := by
  set N := if n = 0 then 0 else ranksMax ranks + 1 with hN
  have hlt : ∀ i, ranks i < N := by
    intro i
    have : n ≠ 0 := fun h0 => by subst h0; exact i.elim0
    rw [hN, if_neg this]
    exact Nat.lt_succ_of_le (le_ranksMax ranks i)
  refine ⟨?_, ?_, ?_, ?_⟩
  · rw [List.nodup_flatten]
    refine ⟨?_, ?_⟩
    · intro f hf
      obtain ⟨r, _, rfl⟩ := List.mem_map.1 hf
      exact (List.nodup_finRange n).filter _
    · rw [List.pairwise_map]
      refine List.Pairwise.imp ?_ (List.nodup_range (n := N))
      intro a b hab i hi hj
      rw [mem_rankFront] at hi hj
      omega
  · intro i
    have := (mem_take_rankFronts ranks N N i).2 (by simpa using hlt i)
    rwa [List.take_of_length_le (by simp)] at this
  · intro f hf
    obtain ⟨r, hr, rfl⟩ := List.mem_map.1 hf
    rw [List.mem_range] at hr
    -- every rank below an attained rank is attained
    have down : ∀ d i, d ≤ ranks i → ∃ j, ranks j = ranks i - d := by
      intro d
      induction d with
      | zero => exact fun i _ => ⟨i, rfl⟩
      | succ d ih =>
        intro i hd
        obtain ⟨j, hj⟩ := ih i (by omega)
        obtain ⟨l, _, hl⟩ := h.pred j (ranks i - d - 1) (by omega)
        exact ⟨l, by omega⟩
    have hn : n ≠ 0 := fun h0 => by simp [hN, h0] at hr
    rw [hN, if_neg hn] at hr
    obtain ⟨i0, h0⟩ : ∃ i, ranks i = 0 := by
      obtain ⟨j, hj⟩ := down (ranks ⟨0, by omega⟩) ⟨0, by omega⟩ le_rfl
      exact ⟨j, by omega⟩
    obtain ⟨t, ht⟩ := ranksMax_attained ranks ⟨i0, h0⟩
    obtain ⟨j, hj⟩ := down (ranks t - r) t (by omega)
    intro he
    have : j ∈ rankFront ranks r := mem_rankFront.2 (by omega)
    simp [he] at this
  · intro k hk i
    have hk' : k < N := by simpa using hk
    simp only [List.getElem_map, List.getElem_range, mem_rankFront, mem_take_rankFronts]
    constructor
    · intro hi
      refine ⟨by omega, fun j hj => ?_⟩
      have := h.lt i j hj
      omega
    · rintro ⟨h1, h2⟩
      rcases Nat.lt_or_ge k (ranks i) with h3 | h3
      · obtain ⟨j, hj, hr⟩ := h.pred i (ranks i - 1) (by omega)
        have := h2 j hj
        omega
      · have := hlt i; omega

theorem rankFromFronts_foldl (fronts : List (List (Fin n))) (k : ℕ) (r0 : Fin n → ℕ) (p : Fin n)
    (hp : p ∉ fronts.flatten) :
    (fronts.zipIdx k).foldl (fun (rank : Fin n → ℕ) (x : List (Fin n) × ℕ) =>
      fun p => if p ∈ x.1 then x.2 else rank p) r0 p = r0 p := by
  induction fronts generalizing k r0 with
  | nil => rfl
  | cons f fs ih =>
    simp only [List.flatten_cons, List.mem_append, not_or] at hp
    rw [List.zipIdx_cons, List.foldl_cons, ih _ _ hp.2]
    simp [hp.1]

theorem rankFromFronts_foldl_mem (fronts : List (List (Fin n))) (k : ℕ) (r0 : Fin n → ℕ) (p : Fin n) (l : ℕ)
    (hl : l < fronts.length) (hp : p ∈ fronts[l]) (hlast : ∀ l' (h : l' < fronts.length), l < l' → p ∉ fronts[l']) :
    (fronts.zipIdx k).foldl (fun (rank : Fin n → ℕ) (x : List (Fin n) × ℕ) =>
      fun p => if p ∈ x.1 then x.2 else rank p) r0 p = k + l := by
  induction fronts generalizing k r0 l with
  | nil => simp at hl
  | cons f fs ih =>
    rw [List.zipIdx_cons, List.foldl_cons]
    cases l with
    | zero =>
      rw [rankFromFronts_foldl]
      · rw [List.getElem_cons_zero] at hp
        simp [hp]
      · rw [List.mem_flatten]
        rintro ⟨g, hg, hpg⟩
        obtain ⟨j, hj, rfl⟩ := List.mem_iff_getElem.1 hg
        exact hlast (j + 1) (by simpa using hj) (by omega) (by simpa using hpg)
    | succ l =>
      rw [ih (k + 1) _ l (by simpa using hl) (by simpa using hp)]
      · omega
      · intro l' hl' hlt
        have := hlast (l' + 1) (by simpa using hl') (by omega)
        simpa using this

theorem takeWhile_range (N j : ℕ) :
    (List.range N).takeWhile (fun r => decide (r < j)) = (List.range N).take j := by
  induction N generalizing j with
  | zero => simp
  | succ N ih =>
    rw [List.range_succ_eq_map, List.takeWhile_cons]
    cases j with
    | zero => simp
    | succ j =>
      simp only [Nat.zero_lt_succ, decide_true, if_true, List.take_succ_cons, List.cons.injEq, true_and]
      rw [List.takeWhile_map, ← List.map_take, ← ih j]
      congr 1
      apply congrArg (fun p => List.takeWhile p (List.range N))
      funext r
      simp

end Lemmas
