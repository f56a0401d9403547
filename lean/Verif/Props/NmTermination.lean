import Verif.Model.NmTermination
import Mathlib.Tactic.Linarith
import Mathlib.Tactic.NormNum
import Mathlib.Tactic.Positivity
import Mathlib.Tactic.Ring
import Mathlib.Tactic.FieldSimp

/-!
# C166: when Nelder–Mead stops
-/

set_option linter.unusedSimpArgs false
set_option linter.unusedVariables false

namespace Props
open Model

variable {n : ℕ}

/-- The length of an edge of the simplex: the distance of two of its vertices. -/
def IsEdge (pop : List (Fin n → ℝ)) (d : ℝ) : Prop := ∃ x y, [x, y].Sublist pop ∧ d = √(∑ j, (x j - y j) ^ 2)

/-- All vertices have nearly the value of the first one. -/
def FlatValues (tol : ℝ) (f : (Fin n → ℝ) → ℝ) (pop : List (Fin n → ℝ)) : Prop := ∀ x0 ∈ pop.head?, ∀ x ∈ pop.tail, |f x - f x0| ≤ tol

/-- All vertices are near the first one, as a fraction of the width of the box if there are bounds. -/
def SmallSimplex (tol : ℝ) (bounds : Option ((Fin n → ℝ) × (Fin n → ℝ))) (pop : List (Fin n → ℝ)) : Prop :=
  match bounds with
  | some (xl, xu) => (∀ j, xl j < xu j) ∧ ∀ x0 ∈ pop.head?, ∀ x ∈ pop.tail, ∀ j, |x j - x0 j| ≤ tol * (xu j - xl j)
  | none => ∀ x0 ∈ pop.head?, ∀ x ∈ pop.tail, ∀ j, |x j - x0 j| ≤ tol

/-- The simplex has collapsed: all edges are tiny, or one edge is tiny compared to another. -/
def Collapsed (pop : List (Fin n → ℝ)) : Prop := (∀ d, IsEdge pop d → d < 1e-16) ∨ ∃ d e, IsEdge pop d ∧ IsEdge pop e ∧ d < 1e-16 * e

theorem le_foldl_max {α : Type*} [LinearOrder α] (a : α) : ∀ (l : List α) (b : α), a ≤ l.foldl max b ↔ a ≤ b ∨ ∃ x ∈ l, a ≤ x
  | [], b => by simp
  | c :: l, b => by
    rw [List.foldl_cons, le_foldl_max a l, le_max_iff]
    simp [or_assoc]

theorem nmMax_le (l : List ℝ) (t : ℝ) (ht : 0 ≤ t) : nmMax l ≤ t ↔ ∀ d ∈ l, d ≤ t := by
  induction l with
  | nil => simp [nmMax, ht]
  | cons a l ih => rw [nmMax, List.foldr_cons, max_le_iff]; simp only [List.mem_cons, forall_eq_or_imp]; rw [← ih]; rfl

theorem nmMax_nonneg (l : List ℝ) : 0 ≤ nmMax l := by
  induction l with
  | nil => simp [nmMax]
  | cons a l ih => exact ih.trans (le_max_right _ _)

theorem nmMax_mem (l : List ℝ) : nmMax l = 0 ∨ nmMax l ∈ l := by
  induction l with
  | nil => exact .inl rfl
  | cons a l ih =>
    rw [nmMax, List.foldr_cons]
    change max a (nmMax l) = 0 ∨ max a (nmMax l) ∈ a :: l
    rcases le_total a (nmMax l) with h | h
    · rw [max_eq_right h]
      exact ih.imp id (List.mem_cons_of_mem _)
    · rw [max_eq_left h]; exact .inr List.mem_cons_self

theorem nmMin_spec (l : List ℝ) (hl : l ≠ []) : nmMin l ∈ l ∧ ∀ d ∈ l, nmMin l ≤ d := by
  cases l with
  | nil => exact absurd rfl hl
  | cons a l =>
    rw [nmMin, List.tail_cons, List.headD_cons]
    clear hl
    induction l with
    | nil => simp
    | cons b l ih =>
      rw [List.foldr_cons]
      obtain ⟨h1, h2⟩ := ih
      constructor
      · rcases le_total b (l.foldr min a) with h | h
        · rw [min_eq_left h]; simp
        · rw [min_eq_right h]
          rcases List.mem_cons.1 h1 with h' | h'
          · rw [h']; simp
          · exact List.mem_cons_of_mem _ (List.mem_cons_of_mem _ h')
      · intro d hd
        rcases List.mem_cons.1 hd with rfl | hd
        · exact (min_le_right _ _).trans (h2 d List.mem_cons_self)
        · rcases List.mem_cons.1 hd with rfl | hd
          · exact min_le_left _ _
          · exact (min_le_right _ _).trans (h2 d (List.mem_cons_of_mem _ hd))

theorem mem_nmEdges (pop : List (Fin n → ℝ)) (d : ℝ) : d ∈ nmEdges pop ↔ IsEdge pop d := by
  induction pop with
  | nil => simp [nmEdges, IsEdge]
  | cons a l ih =>
    rw [nmEdges, List.mem_append, ih, List.mem_map]
    constructor
    · rintro (⟨y, hy, rfl⟩ | ⟨x, y, h, rfl⟩)
      · exact ⟨a, y, (List.singleton_sublist.2 hy).cons_cons a, rfl⟩
      · exact ⟨x, y, h.cons a, rfl⟩
    · rintro ⟨x, y, h, rfl⟩
      rcases List.sublist_cons_iff.1 h with h' | ⟨r, hr, h'⟩
      · exact .inr ⟨x, y, h', rfl⟩
      · obtain ⟨rfl, rfl⟩ := List.cons.inj hr
        exact .inl ⟨y, List.singleton_sublist.1 h', rfl⟩

/-- C166, one tolerance. The criterion is met if the spread is within the tolerance, but only if the tolerance exceeds the spread by at most one. -/
theorem C166_part (delta tol : ℝ) : ((1 : ℝ) : WithTop ℝ) ≤ nmPart delta tol ↔ delta ≤ tol ∧ tol ≤ delta + 1 := by
  unfold nmPart
  split_ifs with h
  · simp only [le_top, true_iff]
    constructor <;> linarith
  · rw [WithTop.coe_le_coe]
    rcases lt_or_gt_of_ne h with h' | h'
    · constructor
      · intro h1
        have := div_neg_of_pos_of_neg one_pos h'
        linarith
      · rintro ⟨h1, h2⟩; linarith
    · rw [le_div_iff₀ h']
      constructor
      · intro h1; exact ⟨by linarith, by linarith⟩
      · rintro ⟨h1, h2⟩; linarith

theorem nmDegenerated_iff (pop : List (Fin n → ℝ)) (h2 : 2 ≤ pop.length) : nmDegenerated pop = true ↔ Collapsed pop := by
  have hne : nmEdges pop ≠ [] := by
    match pop, h2 with
    | a :: b :: l, _ => simp [nmEdges]
  have hnn : ∀ d ∈ nmEdges pop, 0 ≤ d := by
    intro d hd
    obtain ⟨x, y, _, rfl⟩ := (mem_nmEdges pop d).1 hd
    exact Real.sqrt_nonneg _
  obtain ⟨m1, m2⟩ := nmMin_spec _ hne
  have hle : ∀ d ∈ nmEdges pop, d ≤ nmMax (nmEdges pop) := (nmMax_le _ _ (nmMax_nonneg _)).1 le_rfl
  have hmem : nmMax (nmEdges pop) ∈ nmEdges pop := by
    rcases nmMax_mem (nmEdges pop) with h | h
    · obtain ⟨d, hd⟩ := List.exists_mem_of_ne_nil _ hne
      have : d = nmMax (nmEdges pop) := le_antisymm (hle d hd) (by rw [h]; exact hnn d hd)
      rwa [← this]
    · exact h
  simp only [nmDegenerated, decide_eq_true_eq]
  by_cases hsmall : nmMax (nmEdges pop) < 1e-16
  · simp only [hsmall, true_or, true_iff]
    exact .inl fun d hd => (hle d ((mem_nmEdges pop d).2 hd)).trans_lt hsmall
  · simp only [hsmall, false_or]
    have hpos : 0 < nmMax (nmEdges pop) := by push Not at hsmall; exact lt_of_lt_of_le (by norm_num) hsmall
    rw [div_lt_iff₀ hpos]
    constructor
    · intro h
      exact .inr ⟨_, _, (mem_nmEdges pop _).1 m1, (mem_nmEdges pop _).1 hmem, h⟩
    · rintro (h | ⟨d, e, hd, he, hlt⟩)
      · exact absurd (h _ ((mem_nmEdges pop _).1 hmem)) hsmall
      · have a1 := m2 d ((mem_nmEdges pop d).2 hd)
        have a2 := hle e ((mem_nmEdges pop e).2 he)
        have : (1e-16 : ℝ) * e ≤ 1e-16 * nmMax (nmEdges pop) := mul_le_mul_of_nonneg_left a2 (by norm_num)
        linarith

/-- C166. With tolerances from 0 to 1, Nelder–Mead stops with a simplex of at least two vertices exactly if the objective values are
nearly equal, *or* the simplex is small, or the budget of iterations or of evaluations is spent, or the simplex has collapsed. -/
theorem C166_stops (tol : NmTol) (bounds : Option ((Fin n → ℝ) × (Fin n → ℝ))) (f : (Fin n → ℝ) → ℝ) (pop : List (Fin n → ℝ)) (nIter nEval : ℕ)
    (hf : 0 ≤ tol.f ∧ tol.f ≤ 1) (hx : 0 ≤ tol.x ∧ tol.x ≤ 1) (hi : 0 < tol.iter) (he : 0 < tol.evals) (hb : ∀ b ∈ bounds, ∀ j, b.1 j ≤ b.2 j)
    (h2 : 2 ≤ pop.length) :
    nmStops tol bounds f pop nIter nEval ↔
      FlatValues tol.f f pop ∨ SmallSimplex tol.x bounds pop ∨ tol.iter ≤ nIter ∨ tol.evals ≤ nEval ∨ Collapsed pop := by
  match pop, h2 with
  | x0 :: x1 :: l, h2 =>
  have hpart : ∀ d t : ℝ, 0 ≤ d → t ≤ 1 → (((1 : ℝ) : WithTop ℝ) ≤ nmPart d t ↔ d ≤ t) := by
    intro d t h0 h1
    rw [C166_part]
    exact ⟨fun h => h.1, fun h => ⟨h, by linarith⟩⟩
  have hF : ((1 : ℝ) : WithTop ℝ) ≤ nmPart (nmFDelta f (x0 :: x1 :: l)) tol.f ↔ FlatValues tol.f f (x0 :: x1 :: l) := by
    rw [nmFDelta, hpart _ _ (nmMax_nonneg _) hf.2, nmMax_le _ _ hf.1]
    simp [FlatValues]
  have hX : (∃ p ∈ ((nmXDelta bounds (x0 :: x1 :: l)).map fun d => nmPart d tol.x).toList, ((1 : ℝ) : WithTop ℝ) ≤ p) ↔
      SmallSimplex tol.x bounds (x0 :: x1 :: l) := by
    cases bounds with
    | none =>
      simp only [nmXDelta, Option.map_some, Option.toList_some, List.mem_singleton, exists_eq_left, SmallSimplex]
      rw [hpart _ _ (nmMax_nonneg _) hx.2, nmMax_le _ _ hx.1]
      simp only [List.mem_flatMap, List.mem_map, List.mem_finRange, true_and, List.tail_cons, List.headD_cons, List.head?_cons, Option.mem_def,
        Option.some.injEq, forall_eq']
      exact ⟨fun h x hxm j => h _ ⟨x, hxm, j, rfl⟩, fun h d ⟨x, hxm, j, hj⟩ => hj ▸ h x hxm j⟩
    | some b =>
      obtain ⟨xl, xu⟩ := b
      have hb' := hb _ rfl
      simp only [nmXDelta, SmallSimplex]
      by_cases hz : ∃ j, xu j - xl j = 0
      · rw [if_pos hz]
        simp only [Option.map_none, Option.toList_none, List.not_mem_nil, false_and, exists_false, false_iff, not_and]
        obtain ⟨j, hj⟩ := hz
        exact fun h => absurd (h j) (by linarith)
      · rw [if_neg hz]
        have hpos : ∀ j, xl j < xu j := fun j => lt_of_le_of_ne (hb' j) fun h => hz ⟨j, by linarith⟩
        simp only [Option.map_some, Option.toList_some, List.mem_singleton, exists_eq_left]
        rw [hpart _ _ (nmMax_nonneg _) hx.2, nmMax_le _ _ hx.1]
        have key : ∀ (x : Fin n → ℝ) j, |(x j - x0 j) / (xu j - xl j)| ≤ tol.x ↔ |x j - x0 j| ≤ tol.x * (xu j - xl j) := by
          intro x j
          have := hpos j
          rw [abs_div, abs_of_pos (by linarith : 0 < xu j - xl j), div_le_iff₀ (by linarith)]
        simp only [List.mem_flatMap, List.mem_map, List.mem_finRange, true_and, List.tail_cons, List.headD_cons, List.head?_cons, Option.mem_def,
          Option.some.injEq, forall_eq']
        exact ⟨fun h => ⟨hpos, fun x hxm j => (key x j).1 (h _ ⟨x, hxm, j, rfl⟩)⟩, fun ⟨_, h⟩ d ⟨x, hxm, j, hj⟩ => hj ▸ (key x j).2 (h x hxm j)⟩
  unfold nmStops nmProgress
  rw [if_neg (by simp)]
  simp only [List.singleton_append, List.cons_append, List.nil_append, List.tail_cons, List.headD_cons]
  rw [le_foldl_max, hF]
  refine or_congr_right ?_
  simp only [List.mem_append, or_and_right, exists_or, hX, List.mem_cons, List.not_mem_nil, or_false, exists_eq_left, WithTop.coe_le_coe]
  refine or_congr_right ?_
  rw [le_div_iff₀ hi, le_div_iff₀ he, one_mul, one_mul, ← nmDegenerated_iff _ h2]
  refine or_congr_right (or_congr_right ?_)
  cases nmDegenerated (x0 :: x1 :: l) <;> norm_num

/-- The default tolerances and the first simplex of a problem with two variables meet the hypotheses. -/
example : let tol : NmTol := ⟨1e-6, 1e-6, 1e6, 1e6⟩
    (0 ≤ tol.f ∧ tol.f ≤ 1) ∧ (0 ≤ tol.x ∧ tol.x ≤ 1) ∧ 0 < tol.iter ∧ 0 < tol.evals ∧
    2 ≤ (initialSimplex (some ((fun _ => -1 : Fin 2 → ℝ), fun _ => 1)) fun _ => 0).length := by
  refine ⟨by norm_num, by norm_num, by norm_num, by norm_num, by simp [initialSimplex]⟩

/-- C166. With a single point, as at the start, it does not stop, whatever the counters are. -/
theorem C166_single (tol : NmTol) (bounds : Option ((Fin n → ℝ) × (Fin n → ℝ))) (f : (Fin n → ℝ) → ℝ) (pop : List (Fin n → ℝ)) (nIter nEval : ℕ)
    (h : pop.length ≤ 1) : ¬ nmStops tol bounds f pop nIter nEval := by
  unfold nmStops nmProgress
  rw [if_pos h, WithTop.coe_le_coe]
  norm_num

/-- C166. The progress is never negative, so that the assertion of `update` holds. -/
theorem C166_progress_nonneg (tol : NmTol) (bounds : Option ((Fin n → ℝ) × (Fin n → ℝ))) (f : (Fin n → ℝ) → ℝ) (pop : List (Fin n → ℝ)) (nIter nEval : ℕ) :
    ((0 : ℝ) : WithTop ℝ) ≤ nmProgress tol bounds f pop nIter nEval := by
  unfold nmProgress
  by_cases h : pop.length ≤ 1
  · rw [if_pos h]
  · rw [if_neg h]
    simp only [List.singleton_append, List.cons_append, List.nil_append, List.tail_cons, List.headD_cons]
    rw [le_foldl_max]
    refine .inr ⟨((if nmDegenerated pop then 1 else 0 : ℝ) : WithTop ℝ),
      List.mem_append_right _ (List.mem_cons_of_mem _ (List.mem_cons_of_mem _ List.mem_cons_self)), ?_⟩
    rw [WithTop.coe_le_coe]
    split_ifs <;> norm_num

/-- C166, refuted for large tolerances: with `f_tol = 2`, a simplex whose values differ by 1/2 only does not stop the search. -/
theorem C166_large_tolerance_refuted : ∃ (f : (Fin 1 → ℝ) → ℝ) (pop : List (Fin 1 → ℝ)), 2 ≤ pop.length ∧ FlatValues 2 f pop ∧
    ¬ nmStops ⟨1e-6, 2, 1e6, 1e6⟩ none f pop 1 3 := by
  refine ⟨fun x => x 0 / 2, [fun _ => 0, fun _ => 1], by simp, ?_, ?_⟩
  · simp [FlatValues]; norm_num
  · have hd : nmDegenerated [fun _ => (0 : ℝ), fun _ : Fin 1 => 1] = false := by
      simp [nmDegenerated, nmEdges, nmMax, nmMin]
      norm_num
    unfold nmStops nmProgress
    rw [if_neg (by simp)]
    simp only [List.singleton_append, List.cons_append, List.nil_append, List.tail_cons, List.headD_cons, nmXDelta, Option.map_some, Option.toList_some]
    rw [le_foldl_max, C166_part]
    simp only [List.mem_cons, List.not_mem_nil, or_false, exists_eq_or_imp, exists_eq_left, C166_part, WithTop.coe_le_coe, hd]
    simp [nmFDelta, nmMax, List.finRange_succ]
    norm_num

/-- C166, refuted: the search can stop far from any optimum, right after the first simplex. For `x²` on `[-1/2, 1/2]` and the starting point `-1/40`, the
second vertex is `1/40` with the same value: it stops with the default tolerances, with a simplex of 1/20 of the box, although zero is better and inside. -/
theorem C166_symmetric_refuted : ∃ (f : (Fin 1 → ℝ) → ℝ) (xl xu x0 y : Fin 1 → ℝ), (∀ j, xl j < y j ∧ y j < xu j) ∧ (∀ j, xl j < x0 j ∧ x0 j < xu j) ∧
    nmStops ⟨1e-6, 1e-6, 1e6, 1e6⟩ (some (xl, xu)) f (initialSimplex (some (xl, xu)) x0) 2 2 ∧
    (∀ x ∈ initialSimplex (some (xl, xu)) x0, f y + 1 / 2000 < f x) ∧ ¬ SmallSimplex (1 / 21) (some (xl, xu)) (initialSimplex (some (xl, xu)) x0) := by
  have hs : initialSimplex (some ((fun _ => -1 / 2 : Fin 1 → ℝ), fun _ => 1 / 2)) (fun _ => -1 / 40) = [fun _ => -1 / 40, fun _ => 1 / 40] := by
    simp only [initialSimplex, List.finRange_succ, List.finRange_zero, List.map_nil, List.map_cons, simplexRow]
    congr 2
    funext j
    rw [Subsingleton.elim j 0, Function.update_self]
    norm_num
  refine ⟨fun x => x 0 ^ 2, fun _ => -1 / 2, fun _ => 1 / 2, fun _ => -1 / 40, fun _ => 0, ?_, ?_, ?_, ?_, ?_⟩
  · intro j; norm_num
  · intro j; norm_num
  · rw [hs, C166_stops]
    · left
      simp [FlatValues]
      norm_num
    · norm_num
    · norm_num
    · norm_num
    · norm_num
    · intro b hb j; simp only [Option.mem_def, Option.some.injEq] at hb; subst hb; norm_num
    · simp
  · rw [hs]
    intro x hx
    simp only [List.mem_cons, List.not_mem_nil, or_false] at hx
    rcases hx with rfl | rfl <;> norm_num
  · rw [hs]
    simp [SmallSimplex]
    intro
    norm_num [abs_of_pos]

end Props
