import Verif.Props.RefDirs

/-! # C51 (sampling on the simplex, layers), C52 (distant points) -/

set_option linter.unusedSectionVars false
set_option linter.unusedSimpArgs false

namespace Props
open Model

theorem sum_map_div_const (c : ℚ) (l : List ℚ) : (l.map fun v => v / c).sum = l.sum / c := by
  induction l with
  | nil => simp
  | cons a l ih => simp only [List.map_cons, List.sum_cons, ih]; ring

/-- C51. `map_onto_unit_simplex(..., "sum")`: a row of non-negative numbers that are not all zero becomes a point of the
unit simplex of the same dimension. -/
theorem C51_sum (row : List ℚ) (h0 : ∀ x ∈ row, 0 ≤ x) (h1 : ∃ x ∈ row, x ≠ 0) :
    (simplexSum row).length = row.length ∧ (∀ x ∈ simplexSum row, 0 ≤ x) ∧ (simplexSum row).sum = 1 := by
  have hs : 0 < row.sum := by
    obtain ⟨x, hx, hne⟩ := h1
    exact lt_of_lt_of_le (lt_of_le_of_ne (h0 x hx) (Ne.symm hne)) (List.single_le_sum h0 x hx)
  refine ⟨by simp [simplexSum], ?_, ?_⟩
  · intro x hx
    obtain ⟨y, hy, rfl⟩ := List.mem_map.1 hx
    exact div_nonneg (h0 y hy) hs.le
  · rw [simplexSum, sum_map_div_const, div_self hs.ne']

example : simplexSum [1, 3, 0] = [1/4, 3/4, 0] := by decide +kernel

theorem diffs_length : ∀ (l : List ℚ), (diffs l).length = l.length - 1
  | [] => rfl
  | [_] => rfl
  | a :: b :: l => by simp [diffs, diffs_length (b :: l)]

theorem diffs_nonneg : ∀ (l : List ℚ), l.Pairwise (· ≤ ·) → ∀ x ∈ diffs l, 0 ≤ x
  | [], _, x, hx => by simp [diffs] at hx
  | [_], _, x, hx => by simp [diffs] at hx
  | a :: b :: l, h, x, hx => by
    rw [List.pairwise_cons] at h
    simp only [diffs, List.mem_cons] at hx
    rcases hx with rfl | hx
    · have := h.1 b (List.mem_cons_self ..); linarith
    · exact diffs_nonneg (b :: l) h.2 x hx

theorem diffs_sum : ∀ (a : ℚ) (l : List ℚ), (diffs (a :: l)).sum = (a :: l).getLast (by simp) - a
  | a, [] => by simp [diffs]
  | a, b :: l => by
    simp only [diffs, List.sum_cons, diffs_sum b l, List.getLast_cons (List.cons_ne_nil b l)]
    ring

/-- C51. `map_onto_unit_simplex(..., "kraemer")`: numbers in `[0, 1]` become a point of the unit simplex of the same
dimension, for any number of dimensions from one. -/
theorem C51_kraemer (M : ℚ) (hM : 0 < M) (row : List ℚ) (hne : row ≠ []) (h0 : ∀ x ∈ row, 0 ≤ x ∧ x ≤ 1) :
    (simplexKraemer M row).length = row.length ∧ (∀ x ∈ simplexKraemer M row, 0 ≤ x) ∧ (simplexKraemer M row).sum = 1 := by
  set r := (row.map (· * M)).take (row.length - 1) with hr
  set L := (0 :: r ++ [M]).insertionSort (· ≤ ·) with hL
  have hlen : r.length = row.length - 1 := by rw [hr, List.length_take, List.length_map]; omega
  have hpos := List.length_pos_of_ne_nil hne
  have hrb : ∀ x ∈ 0 :: r ++ [M], 0 ≤ x ∧ x ≤ M := by
    intro x hx
    simp only [List.cons_append, List.mem_cons, List.mem_append, List.not_mem_nil, or_false] at hx
    rcases hx with rfl | hx | rfl
    · exact ⟨le_rfl, hM.le⟩
    · obtain ⟨y, hy, rfl⟩ := List.mem_map.1 (List.mem_of_mem_take hx)
      obtain ⟨y0, y1⟩ := h0 y hy
      exact ⟨mul_nonneg y0 hM.le, by nlinarith⟩
    · exact ⟨hM.le, le_rfl⟩
  have hp : L.Perm (0 :: r ++ [M]) := List.perm_insertionSort _ _
  have hs : L.Pairwise (· ≤ ·) := List.pairwise_insertionSort _ _
  have hk : simplexKraemer M row = (diffs L).map (· / M) := rfl
  have hLl : L.length = row.length + 1 := by rw [hp.length_eq]; simp [hlen]; omega
  obtain ⟨a, t, hat⟩ : ∃ a t, L = a :: t := by
    match L, hLl with
    | a :: t, _ => exact ⟨a, t, rfl⟩
  have ha : a = 0 := by
    have h1 : (0 : ℚ) ∈ L := hp.mem_iff.2 (by simp)
    have h2 := (hrb a (hp.mem_iff.1 (hat ▸ List.mem_cons_self ..))).1
    rw [hat] at h1 hs
    rcases List.mem_cons.1 h1 with h | h
    · exact h.symm
    · exact le_antisymm ((List.pairwise_cons.1 hs).1 0 h) h2
  have hlast : (a :: t).getLast (by simp) = M := by
    have h1 : M ∈ L := hp.mem_iff.2 (by simp)
    have hm : (a :: t).getLast (by simp) ∈ L := by rw [hat]; exact List.getLast_mem _
    have h2 := (hrb ((a :: t).getLast (by simp)) (hp.mem_iff.1 hm)).2
    rw [hat] at h1 hs
    have h3 : ∀ x ∈ a :: t, x ≤ (a :: t).getLast (by simp) := by
      intro x hx
      obtain ⟨i, hi, rfl⟩ := List.getElem_of_mem hx
      rw [List.getLast_eq_getElem]
      by_cases hlt : i < (a :: t).length - 1
      · exact List.pairwise_iff_getElem.1 hs _ _ _ _ hlt
      · have : i = (a :: t).length - 1 := by omega
        exact le_of_eq (by congr 1)
    exact le_antisymm h2 (h3 M h1)
  refine ⟨?_, ?_, ?_⟩
  · rw [hk, List.length_map, diffs_length, hLl]; omega
  · intro x hx
    rw [hk] at hx
    obtain ⟨y, hy, rfl⟩ := List.mem_map.1 hx
    exact div_nonneg (diffs_nonneg L hs y hy) hM.le
  · rw [hk, sum_map_div_const, hat, diffs_sum, hlast, ha, sub_zero, div_self hM.ne']

example : simplexKraemer 100 [7/10, 2/10, 1/2] = [1/5, 1/2, 3/10] := by decide +kernel

/-- C51. `MultiLayerReferenceDirectionFactory`: the points kept are a subsequence of the layers in order; no kept point is
near an earlier kept one; and a point is left out only if it is near an earlier point of the layers. -/
theorem C51_layers (near : List ℚ → List ℚ → Bool) (layers : List (List (List ℚ))) :
    (multiLayer near layers).Sublist layers.flatten ∧
    (multiLayer near layers).Pairwise (fun x y => near y x = false) ∧
    (∀ (i : ℕ) (x : List ℚ), layers.flatten[i]? = some x → x ∉ multiLayer near layers →
      ∃ y ∈ layers.flatten.take i, near x y = true) := by
  set R := layers.flatten with hR
  have hml : multiLayer near layers = (R.zipIdx.filter fun xi => !(R.take xi.2).any (near xi.1)).map Prod.fst := rfl
  refine ⟨?_, ?_, ?_⟩
  · rw [hml]
    have h1 := (List.filter_sublist (p := fun xi : List ℚ × ℕ => !(R.take xi.2).any (near xi.1)) (l := R.zipIdx)).map Prod.fst
    have h2 : R.zipIdx.map Prod.fst = R := List.zipIdx_map_fst 0 R
    rwa [h2] at h1
  · rw [hml, List.pairwise_map, List.pairwise_filter]
    rw [List.pairwise_iff_getElem]
    intro i j hi hj hij h1 h2
    simp only [List.getElem_zipIdx, Nat.zero_add] at h1 h2 ⊢
    simp only [Bool.not_eq_true', List.any_eq_false, Bool.not_eq_true] at h2
    have hi' : i < R.length := by simpa using hi
    exact h2 R[i] (List.mem_take_iff_getElem.2 ⟨i, by simp; omega, rfl⟩)
  · intro i x hx hnm
    obtain ⟨hi, he⟩ := List.getElem?_eq_some_iff.1 hx
    by_contra hc
    push Not at hc
    apply hnm
    rw [hml, List.mem_map]
    refine ⟨(x, i), ?_, rfl⟩
    rw [List.mem_filter]
    refine ⟨?_, ?_⟩
    · rw [List.mem_iff_getElem]
      exact ⟨i, by simpa using hi, by simp [he]⟩
    · simp only [Bool.not_eq_true', List.any_eq_false]
      intro y hy
      exact hc y hy

example : multiLayer (fun x y => decide (x = y)) [[[1, 0], [0, 1]], [[1/2, 1/2], [0, 1]]] = [[1, 0], [0, 1], [1/2, 1/2]] := by
  decide +kernel

/-! ### Distant points -/

/-- C52 (partial). The number of points returned is the one requested (if not more were given), they start with the given
ones. Missing: that they are different, which is false (`C52_duplicates`). -/
theorem C52_length_partial (D : ℕ → ℕ → ℚ) (nPoints nSelect : ℕ) (selected : List ℕ) (h : selected.length ≤ nSelect) :
    (selectMaxDist D nPoints nSelect selected).length = nSelect ∧ selected <+: selectMaxDist D nPoints nSelect selected := by
  have key : ∀ (fuel : ℕ) (sel ns : List ℕ) (dist : ℕ → ℚ), (maxDistLoop D fuel sel ns dist).length = sel.length + fuel ∧
      sel <+: maxDistLoop D fuel sel ns dist := by
    intro fuel
    induction fuel with
    | zero => intro sel ns dist; simp [maxDistLoop]
    | succ fuel ih =>
      intro sel ns dist
      obtain ⟨h1, h2⟩ := ih (sel ++ [ns.getD (argmaxFirst (ns.map dist)) 0])
        ((ns.zipIdx.filter fun e => e.1 ≠ argmaxFirst (ns.map dist)).map Prod.snd)
        (fun i => if D (ns.getD (argmaxFirst (ns.map dist)) 0) i < dist i then
          D (ns.getD (argmaxFirst (ns.map dist)) 0) i else dist i)
      refine ⟨?_, (List.prefix_append _ _).trans h2⟩
      unfold maxDistLoop
      rw [h1, List.length_append, List.length_singleton]
      omega
  obtain ⟨h1, h2⟩ := key (nSelect - selected.length) selected
    ((List.range nPoints).filter fun i => i ∉ selected) (fun i => ((selected.map fun j => D i j).min?).getD 0)
  exact ⟨by unfold selectMaxDist; rw [h1]; omega, h2⟩

theorem argmax_foldl (l : List (ℚ × ℕ)) : ∀ b : ℚ × ℕ,
    (l.foldl (fun b e => if b.1 < e.1 then e else b) b = b ∨ l.foldl (fun b e => if b.1 < e.1 then e else b) b ∈ l) ∧
    b.1 ≤ (l.foldl (fun b e => if b.1 < e.1 then e else b) b).1 ∧
    ∀ e ∈ l, e.1 ≤ (l.foldl (fun b e => if b.1 < e.1 then e else b) b).1 := by
  induction l with
  | nil => intro b; simp
  | cons a l ih =>
    intro b
    simp only [List.foldl_cons]
    by_cases h : b.1 < a.1
    · rw [if_pos h]
      obtain ⟨h1, h2, h3⟩ := ih a
      refine ⟨Or.inr ?_, h.le.trans h2, ?_⟩
      · rcases h1 with h1 | h1
        · rw [h1]; exact List.mem_cons_self ..
        · exact List.mem_cons_of_mem _ h1
      · intro e he
        rcases List.mem_cons.1 he with rfl | he
        · exact h2
        · exact h3 e he
    · rw [if_neg h]
      obtain ⟨h1, h2, h3⟩ := ih b
      refine ⟨?_, h2, ?_⟩
      · rcases h1 with h1 | h1
        · exact Or.inl h1
        · exact Or.inr (List.mem_cons_of_mem _ h1)
      · intro e he
        rcases List.mem_cons.1 he with rfl | he
        · exact (not_lt.1 h).trans h2
        · exact h3 e he

theorem getElem_mem_zipIdx (l : List ℚ) (j : ℕ) (hj : j < l.length) : (l[j], j) ∈ l.zipIdx := by
  rw [List.mem_zipIdx_iff_getElem?]
  exact List.getElem?_eq_getElem hj

theorem argmaxFirst_spec (l : List ℚ) (hne : l ≠ []) : ∃ h : argmaxFirst l < l.length, ∀ x ∈ l, x ≤ l[argmaxFirst l] := by
  obtain ⟨a, t, rfl⟩ := List.exists_cons_of_ne_nil hne
  obtain ⟨h1, h2, h3⟩ := argmax_foldl (a :: t).zipIdx ((a :: t).headD 0, 0)
  set r := (a :: t).zipIdx.foldl (fun b e => if b.1 < e.1 then e else b) ((a :: t).headD 0, 0) with hr
  have hmem : r ∈ (a :: t).zipIdx := by
    rcases h1 with h1 | h1
    · rw [h1]; simp
    · exact h1
  obtain ⟨i, hi, he⟩ := List.getElem_of_mem hmem
  simp only [List.getElem_zipIdx, Nat.zero_add] at he
  have hi' : i < (a :: t).length := by simpa using hi
  have ha : argmaxFirst (a :: t) = i := by
    unfold argmaxFirst
    rw [← hr, ← he]
  rw [ha]
  refine ⟨hi', fun x hx => ?_⟩
  obtain ⟨j, hj, rfl⟩ := List.getElem_of_mem hx
  have hm : ((a :: t)[j], j) ∈ (a :: t).zipIdx := getElem_mem_zipIdx _ j hj
  have := h3 _ hm
  rw [← he] at this
  exact this

/-- C52 (partial). One step: the point added to the given ones is a new one, at the largest distance to the closest given
point. -/
theorem C52_first_partial (D : ℕ → ℕ → ℚ) (nPoints : ℕ) (selected : List ℕ) (hr : ∃ i < nPoints, i ∉ selected) :
    ∃ I, selectMaxDist D nPoints (selected.length + 1) selected = selected ++ [I] ∧ I < nPoints ∧ I ∉ selected ∧
      ∀ j < nPoints, j ∉ selected →
        ((selected.map fun s => D j s).min?).getD 0 ≤ ((selected.map fun s => D I s).min?).getD 0 := by
  set dist : ℕ → ℚ := fun i => ((selected.map fun j => D i j).min?).getD 0 with hdist
  set ns := (List.range nPoints).filter fun i => i ∉ selected with hns
  have hmem : ∀ i, i ∈ ns ↔ i < nPoints ∧ i ∉ selected := by intro i; simp [hns]
  have hne : ns.map dist ≠ [] := by
    obtain ⟨i, h1, h2⟩ := hr
    intro h
    have := (hmem i).2 ⟨h1, h2⟩
    rw [List.map_eq_nil_iff.1 h] at this
    simp at this
  obtain ⟨hlt, hmax⟩ := argmaxFirst_spec (ns.map dist) hne
  have hlt' : argmaxFirst (ns.map dist) < ns.length := by simpa using hlt
  set I := ns[argmaxFirst (ns.map dist)] with hI
  have hIm := (hmem I).1 (List.getElem_mem hlt')
  refine ⟨I, ?_, hIm.1, hIm.2, ?_⟩
  · unfold selectMaxDist
    rw [Nat.add_sub_cancel_left]
    simp only [maxDistLoop, ← hns, ← hdist]
    congr 2
    simp [hI, hlt']
  · intro j hj hjs
    have := hmax (dist j) (List.mem_map.2 ⟨j, (hmem j).2 ⟨hj, hjs⟩, rfl⟩)
    simpa [hdist, hI] using this

example : (∃ i < 5, i ∉ [1]) ∧ selectMaxDist (fun i j => |(i : ℚ) - j|) 5 2 [1] = [1, 4] := by decide +kernel

/-- C52 is false of the code: four points on a line at 0, 10, 2 and 1, all four requested, starting with the first. The list of
points not selected is rebuilt from positions instead of points (`reference_direction.py:453`), and the first point is
selected again although the last never was. -/
theorem C52_duplicates : ∃ x : ℕ → ℚ, (∀ i < 4, ∀ j < 4, x i = x j → i = j) ∧
    selectMaxDist (fun i j => |x i - x j|) 4 4 [0] = [0, 1, 2, 0] := by
  refine ⟨fun i => if i = 1 then 10 else if i = 2 then 2 else if i = 3 then 1 else 0, by decide +kernel, by decide +kernel⟩

example : [0].length ≤ 2 ∧ selectMaxDist (fun i j => |(i : ℚ) - j|) 5 2 [1] = [1, 4] := by decide +kernel

end Props
