import Verif.Lemmas.Indicators
import Mathlib.Data.Fin.VecNotation
import Mathlib.Tactic.NormNum
import Mathlib.Tactic.FinCases
import Mathlib.Tactic.Ring
import Mathlib.Tactic.FieldSimp
import Mathlib.Data.List.Perm.Basic

/-!
# C60: the spacing indicator

The standard deviation of the distances to the nearest *other* solution: non-negative, zero exactly for an evenly spread set,
independent of the order and of shifting all solutions; it needs at least two solutions.
-/

set_option linter.unusedSimpArgs false
set_option linter.unusedVariables false
set_option linter.unusedSectionVars false

namespace Props
open Model Spec Lemmas

variable {m : ℕ}

/-- City block distance. -/
noncomputable def manhattan (a b : Fin m → ℝ) : ℝ := ∑ k, |a k - b k|

/-- Distance of solution `i` to its nearest other solution. -/
noncomputable def gap (F : List (Fin m → ℝ)) (i : Fin F.length) : ℝ := least (manhattan F[i]) (F.eraseIdx i)

/-- The distances of all solutions to their nearest other solution. -/
noncomputable def gaps (F : List (Fin m → ℝ)) : List ℝ := (List.finRange F.length).map (gap F)

theorem manhattan_nonneg (a b : Fin m → ℝ) : 0 ≤ manhattan a b := Finset.sum_nonneg fun k _ => abs_nonneg _
theorem manhattan_self (a : Fin m → ℝ) : manhattan a a = 0 := by simp [manhattan]

theorem secondSmallest_eq {l rest : List ℝ} (hp : l.Perm (0 :: rest)) (h0 : ∀ x ∈ rest, 0 ≤ x) :
    secondSmallest l = rest.min? := by
  unfold secondSmallest
  have hs : (0 :: rest.insertionSort (· ≤ ·)).Pairwise (· ≤ ·) := by
    rw [List.pairwise_cons]
    refine ⟨fun x hx => h0 x ((List.perm_insertionSort _ rest).mem_iff.1 hx), List.pairwise_insertionSort _ _⟩
  have he : l.insertionSort (· ≤ ·) = 0 :: rest.insertionSort (· ≤ ·) := by
    apply List.Perm.eq_of_pairwise (le := (· ≤ ·)) _ (List.pairwise_insertionSort _ _) hs
    · exact (List.perm_insertionSort _ l).trans (hp.trans ((List.perm_insertionSort _ rest).symm.cons 0))
    · intro a b _ _ h1 h2; exact le_antisymm h1 h2
  rw [he]
  simp only [List.getElem?_cons_succ]
  have hperm := List.perm_insertionSort (· ≤ ·) rest
  have hsort := List.pairwise_insertionSort (· ≤ ·) rest
  cases hr : rest.insertionSort (· ≤ ·) with
  | nil =>
    rw [hr] at hperm
    rw [List.nil_perm.1 hperm]; rfl
  | cons x xs =>
    rw [hr] at hperm hsort
    simp only [List.getElem?_cons_zero]
    symm
    rw [List.min?_eq_some_iff]
    refine ⟨hperm.mem_iff.1 List.mem_cons_self, fun b hb => ?_⟩
    rcases List.mem_cons.1 (hperm.mem_iff.2 hb) with rfl | hb
    · exact le_rfl
    · exact (List.pairwise_cons.1 hsort).1 b hb

theorem row_perm (F : List (Fin m → ℝ)) (i : Fin F.length) :
    (F.map (manhattan F[i])).Perm (0 :: (F.eraseIdx i).map (manhattan F[i])) := by
  have h := (List.getElem_cons_eraseIdx_perm i.isLt).symm.map (manhattan F[i])
  simpa [manhattan_self] using h

theorem cityBlock_eq (F : List (Fin m → ℝ)) :
    cityBlock F = (List.finRange F.length).map fun (i : Fin F.length) => F.map (manhattan F[i]) := by
  unfold cityBlock
  have h : (fun i : Fin F.length => F.map (manhattan F[i])) = (fun a => F.map (manhattan a)) ∘ fun i : Fin F.length => F[i] := rfl
  have h2 : (List.finRange F.length).map (fun i : Fin F.length => F[i]) = F := List.map_getElem_finRange F
  rw [h, ← List.map_map, h2]
  rfl

theorem mapM_some {A B : Type*} (f : A → B) (g : A → Option B) (l : List A) (h : ∀ a ∈ l, g a = some (f a)) :
    l.mapM g = some (l.map f) := by
  induction l with
  | nil => rfl
  | cons a l ih =>
    simp only [List.mapM_cons, h a List.mem_cons_self, ih fun b hb => h b (List.mem_cons_of_mem _ hb), List.map_cons]
    rfl

theorem eraseIdx_ne_nil {F : List (Fin m → ℝ)} (h : 2 ≤ F.length) (i : Fin F.length) : F.eraseIdx i ≠ [] := by
  have hi := i.isLt
  intro he
  have := congrArg List.length he
  rw [List.length_eraseIdx_of_lt hi] at this
  simp at this
  omega

theorem cityBlock_second (F : List (Fin m → ℝ)) (h : 2 ≤ F.length) : (cityBlock F).mapM secondSmallest = some (gaps F) := by
  rw [cityBlock_eq, List.mapM_map, gaps]
  apply mapM_some
  intro i _
  simp only [Function.comp]
  rw [secondSmallest_eq (row_perm F i), min?_eq_least _ _ (eraseIdx_ne_nil h i)]
  · rfl
  · intro x hx; obtain ⟨b, _, rfl⟩ := List.mem_map.1 hx; exact manhattan_nonneg _ _

theorem gaps_length (F : List (Fin m → ℝ)) : (gaps F).length = F.length := by simp [gaps]

/-- **The value**: the standard deviation of the gaps. -/
theorem C60_value (F : List (Fin m → ℝ)) (h : 2 ≤ F.length) :
    spacingDo F = some (Real.sqrt (avg ((gaps F).map fun d => (d - avg (gaps F)) ^ 2))) := by
  have hF : F.isEmpty = false := by cases F with | nil => simp at h | cons _ _ => rfl
  unfold spacingDo spacingDo'
  rw [hF, cityBlock_second F h]
  have hne : gaps F ≠ [] := by
    intro he
    have := gaps_length F
    rw [he] at this; simp at this; omega
  simp only [Bool.false_eq_true, if_false, Option.bind_some, npMean_eq hne, Option.map_some]
  congr 3
  simp [gaps_length]

/-- A single solution is rejected (`np.partition` raises), an empty set gets the value zero. -/
theorem C60_one_raises (p : Fin m → ℝ) : spacingDo [p] = none ∧ spacingDo ([] : List (Fin m → ℝ)) = some 0 := by
  simp [spacingDo, spacingDo', cityBlock, secondSmallest]

/-- The value is never negative. -/
theorem C60_nonneg (F : List (Fin m → ℝ)) (v : ℝ) (h : spacingDo F = some v) : 0 ≤ v := by
  rcases Nat.lt_or_ge F.length 2 with hl | hl
  · match F, hl with
    | [], _ => simp [spacingDo] at h; exact h.le
    | [p], _ => rw [(C60_one_raises p).1] at h; simp at h
  · rw [C60_value F hl, Option.some.injEq] at h
    exact h ▸ Real.sqrt_nonneg _

/-- **Zero means evenly spread**: all solutions have the same distance to their nearest other solution. -/
theorem C60_zero_iff (F : List (Fin m → ℝ)) (h : 2 ≤ F.length) :
    spacingDo F = some 0 ↔ ∀ i j : Fin F.length, gap F i = gap F j := by
  have hlen := gaps_length F
  have hne : gaps F ≠ [] := by
    intro he
    rw [he] at hlen; simp at hlen; omega
  rw [C60_value F h, Option.some.injEq]
  have hsq : ∀ x ∈ (gaps F).map fun d => (d - avg (gaps F)) ^ 2, 0 ≤ x := by
    intro x hx; obtain ⟨d, _, rfl⟩ := List.mem_map.1 hx; exact sq_nonneg _
  rw [Real.sqrt_eq_zero (avg_nonneg hsq), avg_eq_zero_iff (by simpa using hne) hsq]
  have hmem : ∀ i, gap F i ∈ gaps F := fun i => List.mem_map_of_mem (List.mem_finRange i)
  constructor
  · intro hz i j
    have h1 := hz _ (List.mem_map_of_mem (f := fun d => (d - avg (gaps F)) ^ 2) (hmem i))
    have h2 := hz _ (List.mem_map_of_mem (f := fun d => (d - avg (gaps F)) ^ 2) (hmem j))
    have h1 := sq_eq_zero_iff.1 h1
    have h2 := sq_eq_zero_iff.1 h2
    linarith
  · intro hall x hx
    obtain ⟨d, hd, rfl⟩ := List.mem_map.1 hx
    have hc : ∀ y ∈ gaps F, y = d := by
      intro y hy
      obtain ⟨i, _, rfl⟩ := List.mem_map.1 hy
      obtain ⟨j, _, rfl⟩ := List.mem_map.1 hd
      exact hall i j
    have hsum : (gaps F).sum = (gaps F).length * d := by
      rw [List.eq_replicate_of_mem hc]; simp
    have : avg (gaps F) = d := by
      unfold avg
      rw [hsum]
      have : ((gaps F).length : ℝ) ≠ 0 := by simpa using hne
      field_simp
    simp [this]

open Classical in
theorem gaps_eq (F : List (Fin m → ℝ)) : gaps F = F.map fun a => least (manhattan a) (F.erase a) := by
  have h2 : (List.finRange F.length).map (fun i : Fin F.length => F[i]) = F := List.map_getElem_finRange F
  conv_rhs => rw [← h2, List.map_map]
  unfold gaps
  apply List.map_congr_left
  intro i _
  simp only [gap, Function.comp, h2]
  unfold least
  have hp : (F.eraseIdx i).Perm (F.erase F[i]) := by
    have h1 := List.getElem_cons_eraseIdx_perm i.isLt
    have h3 := List.perm_cons_erase (List.getElem_mem i.isLt)
    exact (List.perm_cons _).1 (h1.trans h3)
  have hm : ∀ a, a ∈ F.eraseIdx i ↔ a ∈ F.erase F[i] := fun a => hp.mem_iff
  simp only [hm]

/-- **The order of the solutions does not matter.** -/
theorem C60_order (F F' : List (Fin m → ℝ)) (hp : F.Perm F') : spacingDo F = spacingDo F' := by
  classical
  rcases Nat.lt_or_ge F.length 2 with hl | hl
  · match F, hl with
    | [], _ => rw [List.nil_perm.1 hp]
    | [p], _ => rw [List.singleton_perm.1 hp]
  · rw [C60_value F hl, C60_value F' (hp.length_eq ▸ hl)]
    have hg : (gaps F).Perm (gaps F') := by
      rw [gaps_eq, gaps_eq]
      have : (fun a => least (manhattan a) (F.erase a)) = fun a => least (manhattan a) (F'.erase a) := by
        funext a
        unfold least
        simp only [(hp.erase a).mem_iff]
      rw [this]
      exact hp.map _
    have havg : ∀ g : ℝ → ℝ, avg ((gaps F).map g) = avg ((gaps F').map g) := by
      intro g; unfold avg; rw [(hg.map g).sum_eq]; simp [hg.length_eq]
    have h0 : avg (gaps F) = avg (gaps F') := by simpa using havg id
    rw [h0, havg]

/-- **Shifting all solutions changes nothing.** -/
theorem C60_shift (F : List (Fin m → ℝ)) (t : Fin m → ℝ) : spacingDo (F.map fun x k => x k + t k) = spacingDo F := by
  unfold spacingDo spacingDo'
  have : cityBlock (F.map fun x k => x k + t k) = cityBlock F := by
    simp [cityBlock, List.map_map, Function.comp_def]
  rw [this]
  simp

/-- Non-vacuity: three evenly spread solutions, and two solutions (always evenly spread). -/
example (p q : Fin m → ℝ) : spacingDo [p, q] = some 0 := by
  rw [C60_zero_iff _ (by simp)]
  have h : ∀ i : Fin [p, q].length, gap [p, q] i = manhattan p q := by
    intro i
    have hl : ∀ (f : (Fin m → ℝ) → ℝ) x, least f [x] = f x := fun f x => by simpa using (min?_eq_least f [x] (by simp)).symm
    match i with
    | ⟨0, _⟩ => simp [gap, hl]
    | ⟨1, _⟩ => simp [gap, hl, manhattan, abs_sub_comm]
  intro i j; rw [h, h]

end Props
