import Verif.Model.Selection
import Mathlib.Data.List.Nodup
import Mathlib.Data.List.Range

/-! # C40: the parents selected for differential evolution -/

set_option linter.unusedSectionVars false
set_option linter.unusedSimpArgs false

namespace Props
open Model

theorem redraw_length (draw : ℕ → ℕ) : ∀ (rows : List (List ℕ)) (col : List ℕ) (k : ℕ), col.length = rows.length →
    (redraw draw k rows col).length = rows.length := by
  intro rows
  induction rows with
  | nil => intro col k h; simp at h; simp [redraw, h]
  | cons row rows ih =>
    intro col k h
    match col, h with
    | c :: col, h =>
      have h' : col.length = rows.length := by simpa using h
      unfold redraw
      split_ifs
      · simp [ih col _ h']
      · simp [ih col _ h']

theorem redraw_lt (n : ℕ) (draw : ℕ → ℕ) (hd : ∀ k, draw k < n) : ∀ (rows : List (List ℕ)) (col : List ℕ) (k : ℕ),
    (∀ c ∈ col, c < n) → ∀ c ∈ redraw draw k rows col, c < n := by
  intro rows
  induction rows with
  | nil => intro col k _ c hc; simp [redraw] at hc
  | cons row rows ih =>
    intro col k h
    match col with
    | [] => intro c hc; simp [redraw] at hc
    | c :: col =>
      intro x hx
      have h' : ∀ c ∈ col, c < n := fun c hc => h c (List.mem_cons_of_mem _ hc)
      unfold redraw at hx
      split_ifs at hx
      · rcases List.mem_cons.1 hx with rfl | hx
        · exact hd k
        · exact ih col _ h' x hx
      · rcases List.mem_cons.1 hx with rfl | hx
        · exact h _ (List.mem_cons_self ..)
        · exact ih col _ h' x hx

theorem needsReselect_false : ∀ (rows : List (List ℕ)) (col : List ℕ), needsReselect rows col = false →
    ∀ (i : ℕ) (row : List ℕ) (c : ℕ), rows[i]? = some row → col[i]? = some c → c ∉ row := by
  intro rows
  induction rows with
  | nil => intro col _ i row c h; simp at h
  | cons r rows ih =>
    intro col h i row c hr hc
    match col with
    | [] => simp at hc
    | d :: col =>
      simp only [needsReselect, Bool.or_eq_false_iff, decide_eq_false_iff_not] at h
      cases i with
      | zero =>
        simp only [List.getElem?_cons_zero, Option.some.injEq] at hr hc
        subst hr; subst hc
        exact h.1
      | succ i => exact ih col h.2 i row c (by simpa using hr) (by simpa using hc)

theorem reselectLoop_spec (n : ℕ) (draws : ℕ → ℕ → ℕ) (hd : ∀ t k, draws t k < n) (rows : List (List ℕ)) :
    ∀ (fuel t : ℕ) (col res : List ℕ), col.length = rows.length → (∀ c ∈ col, c < n) →
    reselectLoop draws rows fuel t col = some res →
    res.length = rows.length ∧ (∀ c ∈ res, c < n) ∧
      ∀ (i : ℕ) (row : List ℕ) (c : ℕ), rows[i]? = some row → res[i]? = some c → c ∉ row := by
  intro fuel
  induction fuel with
  | zero =>
    intro t col res hl hlt h
    unfold reselectLoop at h
    split_ifs at h with hn
    obtain rfl := Option.some.inj h
    exact ⟨hl, hlt, needsReselect_false rows col (by simpa using hn)⟩
  | succ fuel ih =>
    intro t col res hl hlt h
    unfold reselectLoop at h
    split_ifs at h with hn
    · exact ih (t + 1) _ res (redraw_length _ rows col 0 hl) (redraw_lt n _ (hd t) rows col 0 hlt) h
    · obtain rfl := Option.some.inj h
      exact ⟨hl, hlt, needsReselect_false rows col (by simpa using hn)⟩

theorem fillColumn_spec (n fuel : ℕ) (draws : ℕ → ℕ → ℕ) (hd : ∀ t k, draws t k < n) (rows : List (List ℕ))
    (col : List ℕ) (h : fillColumn fuel draws rows = some col) :
    col.length = rows.length ∧ (∀ c ∈ col, c < n) ∧
      ∀ (i : ℕ) (row : List ℕ) (c : ℕ), rows[i]? = some row → col[i]? = some c → c ∉ row :=
  reselectLoop_spec n draws hd rows fuel 1 _ col (by simp) (by
    intro c hc
    obtain ⟨k, _, rfl⟩ := List.mem_map.1 hc
    exact hd 0 k) h

/-- The rows are extended by `cols` entries each, all valid indices, all different, none already in the row. -/
theorem fillColumns_spec (n fuel : ℕ) (draws : ℕ → ℕ → ℕ → ℕ) (hd : ∀ j t k, draws j t k < n) : ∀ (cols j : ℕ)
    (rows res : List (List ℕ)), fillColumns fuel draws cols j rows = some res →
    res.length = rows.length ∧ ∀ (i : ℕ) (row : List ℕ), rows[i]? = some row →
      ∃ t, res[i]? = some (row ++ t) ∧ t.length = cols ∧ t.Nodup ∧ (∀ c ∈ t, c < n ∧ c ∉ row) := by
  intro cols
  induction cols with
  | zero =>
    intro j rows res h
    obtain rfl := Option.some.inj h
    exact ⟨rfl, fun i row hi => ⟨[], by simpa using hi, rfl, List.nodup_nil, by simp⟩⟩
  | succ cols ih =>
    intro j rows res h
    unfold fillColumns at h
    split at h
    · cases h
    · rename_i col hcol
      obtain ⟨c1, c2, c3⟩ := fillColumn_spec n fuel (draws j) (hd j) rows col hcol
      obtain ⟨r1, r2⟩ := ih (j + 1) _ res h
      refine ⟨by rw [r1, List.length_zipWith, c1, Nat.min_self], ?_⟩
      intro i row hi
      have hil : i < col.length := by
        rw [c1]
        exact (List.getElem?_eq_some_iff.1 hi).1
      have hci : col[i]? = some col[i] := List.getElem?_eq_getElem hil
      obtain ⟨t, t1, t2, t3, t4⟩ := r2 i (row ++ [col[i]]) (by
        rw [List.getElem?_zipWith, hi, hci])
      refine ⟨col[i] :: t, by rw [t1, List.append_assoc]; rfl, by simp [t2], ?_, ?_⟩
      · rw [List.nodup_cons]
        exact ⟨fun hm => (t4 _ hm).2 (by simp), t3⟩
      · intro c hc
        rcases List.mem_cons.1 hc with rfl | hc
        · exact ⟨c2 _ (List.getElem_mem hil), c3 i row _ hi hci⟩
        · exact ⟨(t4 c hc).1, fun hm => (t4 c hc).2 (List.mem_append_left _ hm)⟩

theorem range_map_getElem? {γ : Type*} (n i : ℕ) (hi : i < n) (f : ℕ → γ) : ((List.range n).map f)[i]? = some (f i) := by
  simp [List.getElem?_map, List.getElem?_range, hi]

/-- C40. Variant `rand`: whatever is drawn, when the selection returns there is one row per individual; row `i` starts
with the target `i`, has `n_parents` entries, all valid indices, all different. -/
theorem C40_rand (fuel nPop nSelect nParents : ℕ) (draws : ℕ → ℕ → ℕ → ℕ) (hd : ∀ j t k, draws j t k < nPop)
    (P : List (List ℕ)) (h : desRand fuel nPop nSelect nParents draws = some P) :
    P.length = nPop ∧ ∀ i < nPop, ∃ t, P[i]? = some (i :: t) ∧ (i :: t).length = nParents ∧ (i :: t).Nodup ∧
      ∀ c ∈ t, c < nPop := by
  unfold desRand at h
  split_ifs at h with hc
  obtain ⟨h1, h2⟩ := fillColumns_spec nPop fuel draws hd _ _ _ _ h
  refine ⟨by simpa using h1, fun i hi => ?_⟩
  obtain ⟨t, t1, t2, t3, t4⟩ := h2 i [i] (range_map_getElem? nPop i hi _)
  refine ⟨t, by simpa using t1, ?_, ?_, fun c hc => (t4 c hc).1⟩
  · have : 1 ≤ nParents := by omega
    simp only [List.length_cons, t2]; omega
  · rw [List.nodup_cons]
    exact ⟨fun hm => (t4 i hm).2 (by simp), t3⟩

/-- A run in which the first draw of a column repeats the target of row 0 and is drawn again. -/
example : desRand 5 4 4 3 (fun j t k => (k + j + t) % 4) = some [[0, 1, 2], [1, 2, 3], [2, 3, 0], [3, 0, 1]] := by decide

/-- C40. Variant `best`: row `i` is the target, index 0, and then different indices that are neither the target nor 0. So
all entries are different exactly when the target is not 0. -/
theorem C40_best (fuel nPop nSelect nParents : ℕ) (draws : ℕ → ℕ → ℕ → ℕ) (hd : ∀ j t k, draws j t k < nPop)
    (P : List (List ℕ)) (h : desBest fuel nPop nSelect nParents draws = some P) :
    P.length = nPop ∧ ∀ i < nPop, ∃ t, P[i]? = some (i :: 0 :: t) ∧ (i :: 0 :: t).length = nParents ∧ t.Nodup ∧
      (∀ c ∈ t, c < nPop ∧ c ≠ i ∧ c ≠ 0) ∧ ((i :: 0 :: t).Nodup ↔ i ≠ 0) := by
  unfold desBest at h
  split_ifs at h with hc
  obtain ⟨h1, h2⟩ := fillColumns_spec nPop fuel draws hd _ _ _ _ h
  refine ⟨by simpa using h1, fun i hi => ?_⟩
  obtain ⟨t, t1, t2, t3, t4⟩ := h2 i [i, 0] (range_map_getElem? nPop i hi _)
  have t4' : ∀ c ∈ t, c < nPop ∧ c ≠ i ∧ c ≠ 0 := by
    intro c hc
    have := (t4 c hc).2
    simp only [List.mem_cons, List.not_mem_nil, or_false, not_or] at this
    exact ⟨(t4 c hc).1, this.1, this.2⟩
  refine ⟨t, by simpa using t1, by simp only [List.length_cons, t2]; omega, t3, t4', ?_⟩
  constructor
  · intro hnd h0
    rw [List.nodup_cons] at hnd
    exact hnd.1 (by simp [h0])
  · intro h0
    rw [List.nodup_cons, List.nodup_cons]
    refine ⟨?_, fun hm => (t4' 0 hm).2.2 rfl, t3⟩
    intro hm
    rcases List.mem_cons.1 hm with h | h
    · exact h0 h
    · exact (t4' i h).2.1 rfl

example : desBest 5 4 4 3 (fun j t k => (k + j + t + 1) % 4) = some [[0, 0, 1], [1, 0, 2], [2, 0, 3], [3, 0, 2]] := by decide

/-- C40. Variants `current-to-best` and `current-to-rand`: the current individual, the best (or a random other one), the
current one again, then different indices that differ from all of them. -/
theorem C40_current (fuel nPop nSelect nParents : ℕ) (draws : ℕ → ℕ → ℕ → ℕ) (hd : ∀ j t k, draws j t k < nPop)
    (P Q : List (List ℕ)) (hP : desCurrentToBest fuel nPop nSelect nParents draws = some P)
    (hQ : desCurrentToRand fuel nPop nSelect nParents draws = some Q) :
    P.length = nPop ∧ Q.length = nPop ∧ ∀ i < nPop,
      (∃ t, P[i]? = some (i :: i :: 0 :: i :: t) ∧ t.length + 4 = nParents ∧ t.Nodup ∧
        ∀ c ∈ t, c < nPop ∧ c ≠ i ∧ c ≠ 0) ∧
      (∃ r t, Q[i]? = some (i :: i :: r :: i :: t) ∧ t.length + 4 = nParents ∧ r < nPop ∧ r ≠ i ∧ t.Nodup ∧
        ∀ c ∈ t, c < nPop ∧ c ≠ i ∧ c ≠ r) := by
  unfold desCurrentToBest at hP
  unfold desCurrentToRand at hQ
  split_ifs at hP hQ with hc
  obtain ⟨h1, h2⟩ := fillColumns_spec nPop fuel draws hd _ _ _ _ hP
  split at hQ
  · cases hQ
  · rename_i col hcol
    obtain ⟨c1, c2, c3⟩ := fillColumn_spec nPop fuel (draws 0) (hd 0) _ col hcol
    obtain ⟨q1, q2⟩ := fillColumns_spec nPop fuel draws hd _ _ _ _ hQ
    rw [List.length_map, List.length_range] at c1
    refine ⟨by simpa using h1, by rw [q1, List.length_zipWith, List.length_range, c1, Nat.min_self], fun i hi => ⟨?_, ?_⟩⟩
    · obtain ⟨t, t1, t2, t3, t4⟩ := h2 i [i, i, 0, i] (range_map_getElem? nPop i hi _)
      refine ⟨t, by simpa using t1, by omega, t3, ?_⟩
      intro c hc
      have := (t4 c hc).2
      simp only [List.mem_cons, List.not_mem_nil, or_false, not_or] at this
      exact ⟨(t4 c hc).1, this.1, this.2.2.1⟩
    · have hil : i < col.length := by omega
      have hci : col[i]? = some col[i] := List.getElem?_eq_getElem hil
      obtain ⟨t, t1, t2, t3, t4⟩ := q2 i [i, i, col[i], i] (by
        rw [List.getElem?_zipWith, List.getElem?_range hi, hci])
      refine ⟨col[i], t, by simpa using t1, by omega, c2 _ (List.getElem_mem hil), ?_, t3, ?_⟩
      · have := c3 i [i, i, i] col[i] (range_map_getElem? nPop i hi _) hci
        simpa using this
      · intro c hc
        have := (t4 c hc).2
        simp only [List.mem_cons, List.not_mem_nil, or_false, not_or] at this
        exact ⟨(t4 c hc).1, this.1, this.2.2.1⟩

example : desCurrentToBest 9 4 4 5 (fun j t k => (k + j + t + 1) % 4) =
      some [[0, 0, 0, 0, 1], [1, 1, 0, 1, 2], [2, 2, 0, 2, 3], [3, 3, 0, 3, 2]] ∧
    desCurrentToRand 9 4 4 5 (fun j t k => (k + j + t + 1) % 4) =
      some [[0, 0, 1, 0, 2], [1, 1, 2, 1, 3], [2, 2, 3, 2, 0], [3, 3, 0, 3, 1]] := by decide

/-! ### Termination -/

theorem exists_not_mem (n : ℕ) (row : List ℕ) (h : row.length < n) : ∃ c, c < n ∧ c ∉ row := by
  by_contra hc
  push Not at hc
  have hsub : List.range n ⊆ row := fun c hc' => hc c (List.mem_range.1 hc')
  have := (List.subperm_of_subset List.nodup_range hsub).length_le
  rw [List.length_range] at this
  omega

/-- C40. As long as the rows are shorter than the population, a round of the resampling loop can end it from every state:
there are values that leave no repetition. -/
theorem C40_can_recover (n : ℕ) : ∀ (rows : List (List ℕ)) (col : List ℕ), (∀ row ∈ rows, row.length < n) →
    ∃ vals : List ℕ, (∀ v ∈ vals, v < n) ∧ ∀ (draw : ℕ → ℕ) (k : ℕ),
      (∀ (x : ℕ) (v : ℕ), vals[x]? = some v → draw (k + x) = v) →
      needsReselect rows (redraw draw k rows col) = false := by
  intro rows
  induction rows with
  | nil => intro col _; exact ⟨[], by simp, fun _ _ _ => by simp [needsReselect]⟩
  | cons row rows ih =>
    intro col h
    match col with
    | [] => exact ⟨[], by simp, fun _ _ _ => by simp [redraw, needsReselect]⟩
    | c :: col =>
      obtain ⟨vals, v1, v2⟩ := ih col fun r hr => h r (List.mem_cons_of_mem _ hr)
      by_cases hc : c ∈ row
      · obtain ⟨v, hv1, hv2⟩ := exists_not_mem n row (h row (List.mem_cons_self ..))
        refine ⟨v :: vals, ?_, ?_⟩
        · intro x hx
          rcases List.mem_cons.1 hx with rfl | hx
          · exact hv1
          · exact v1 x hx
        · intro draw k hdraw
          have h0 : draw k = v := hdraw 0 v rfl
          have := v2 draw (k + 1) (fun x w hw => by rw [← hdraw (x + 1) w (by simpa using hw)]; congr 1; omega)
          simp [redraw, hc, needsReselect, h0, hv2, this]
      · refine ⟨vals, v1, ?_⟩
        intro draw k hdraw
        simp [redraw, hc, needsReselect, v2 draw k hdraw]

example : needsReselect [[0], [1], [2]] (redraw (fun k => [1, 0].getD k 0) 0 [[0], [1], [2]] [0, 1, 0]) = false ∧
    needsReselect [[0], [1], [2]] [0, 1, 0] = true := by decide

/-- C40. With more parents than individuals the selection never returns (unless there is no individual at all). -/
theorem C40_never_returns (fuel nPop nSelect nParents : ℕ) (h0 : 0 < nPop) (hlt : nPop < nParents)
    (draws : ℕ → ℕ → ℕ → ℕ) (hd : ∀ j t k, draws j t k < nPop) : desRand fuel nPop nSelect nParents draws = none := by
  by_contra h
  obtain ⟨P, hP⟩ := Option.ne_none_iff_exists'.1 h
  obtain ⟨_, h2⟩ := C40_rand fuel nPop nSelect nParents draws hd P hP
  obtain ⟨t, _, t2, t3, t4⟩ := h2 0 h0
  have hsub : (0 :: t) ⊆ List.range nPop := by
    intro c hc
    rcases List.mem_cons.1 hc with rfl | hc
    · exact List.mem_range.2 h0
    · exact List.mem_range.2 (t4 c hc)
  have := (List.subperm_of_subset t3 hsub).length_le
  rw [List.length_range] at this
  omega

example : desRand 50 2 2 3 (fun j t k => (j + t + k) % 2) = none := by decide

/-- C40. The number of matings must be the population size. -/
theorem C40_wrong_size (fuel nPop nSelect nParents : ℕ) (h : nSelect ≠ nPop) (draws : ℕ → ℕ → ℕ → ℕ) :
    desRand fuel nPop nSelect nParents draws = none ∧ desBest fuel nPop nSelect nParents draws = none := by
  simp [desRand, desBest, h]

example : desRand 5 4 2 3 (fun j t k => (k + j + t) % 4) = none := by decide

/-! ### Ranked parents -/

theorem getD_eq_getElem' (S : List ℕ) (i : ℕ) (h : i < S.length) : S.getD i 0 = S[i] := by simp [h]

theorem map_getD_range (S : List ℕ) (a d : ℕ) (h : a + d ≤ S.length) :
    (List.range d).map (fun j => S.getD (j + a) 0) = (S.drop a).take d := by
  apply List.ext_getElem
  · simp; omega
  · intro i h1 h2
    have hi : i < d := by simpa using h1
    simp only [List.getElem_map, List.getElem_range, List.getElem_take, List.getElem_drop]
    rw [getD_eq_getElem' _ _ (by omega)]
    congr 1; omega

theorem map_getD_range_rev (S : List ℕ) (d : ℕ) (h : d ≤ S.length) :
    (List.range d).map (fun j => S.getD (S.length - (j + 1)) 0) = (S.drop (S.length - d)).reverse := by
  apply List.ext_getElem
  · simp; omega
  · intro i h1 h2
    have hi : i < d := by simpa using h1
    simp only [List.getElem_map, List.getElem_range, List.getElem_reverse, List.getElem_drop, List.length_drop]
    rw [getD_eq_getElem' _ _ (by omega)]
    congr 1; omega

theorem rankPairs_perm (S : List ℕ) (d : ℕ) (h : S.length = 2 * d + 1) : (S.take 1 ++ rankPairs S d).Perm S := by
  have e1 : ((List.range d).map (fun j => S.getD (j + 1) 0) ++
      (List.range d).map (fun j => S.getD (S.length - (j + 1)) 0)).Perm (rankPairs S d) := by
    have := List.flatMap_append_perm (List.range d) (fun j => [S.getD (j + 1) 0])
      (fun j => [S.getD (S.length - (j + 1)) 0])
    simpa only [rankPairs, ← List.map_eq_flatMap, List.singleton_append] using this
  rw [map_getD_range S 1 d (by omega), map_getD_range_rev S d (by omega)] at e1
  refine (e1.symm.append_left (S.take 1)).trans ?_
  have e2 : (S.drop 1).take d ++ S.drop (S.length - d) = S.drop 1 := by
    have : S.drop (S.length - d) = (S.drop 1).drop d := by rw [List.drop_drop]; congr 1; omega
    rw [this, List.take_append_drop]
  refine (((List.reverse_perm _).append_left _).append_left _).trans ?_
  rw [e2, List.take_append_drop]

/-- C40. `_rank_sort` on a row with an odd number of candidates (base and pairs): the same individuals; the base has the
best rank; in every pair the first member is not worse ranked than the second. -/
theorem C40_rank_sort (rank : ℕ → ℕ) (row : List ℕ) (d : ℕ) (h : row.length = 2 * d + 1) :
    ∃ b t, rankSortRow rank row = some (b :: t) ∧ (b :: t).Perm row ∧ (∀ c ∈ row, rank b ≤ rank c) ∧
      ∀ j < d, ∃ x y, t[2 * j]? = some x ∧ t[2 * j + 1]? = some y ∧ rank x ≤ rank y := by
  set S := row.insertionSort fun a b => rank a ≤ rank b with hS
  have hp : S.Perm row := List.perm_insertionSort _ row
  have hl : S.length = 2 * d + 1 := by rw [hp.length_eq, h]
  have : IsTrans ℕ fun a b => rank a ≤ rank b := ⟨fun _ _ _ => le_trans⟩
  have : Std.Total fun a b : ℕ => rank a ≤ rank b := ⟨fun a b => le_total _ _⟩
  have hs : S.Pairwise fun a b => rank a ≤ rank b := List.pairwise_insertionSort _ row
  have hd : row.length / 2 = d := by omega
  have hodd : ¬ row.length % 2 = 0 := by omega
  obtain ⟨b, S', hS'⟩ : ∃ b S', S = b :: S' := by
    match S, hl with
    | b :: S', _ => exact ⟨b, S', rfl⟩
  have htake : S.take 1 = [b] := by rw [hS']; rfl
  have hperm := rankPairs_perm S d hl
  rw [htake, List.singleton_append] at hperm
  refine ⟨b, rankPairs S d, ?_, hperm.trans hp, ?_, ?_⟩
  · unfold rankSortRow
    simp only [if_neg hodd, hd, ← hS, htake, List.singleton_append]
  · intro c hc
    have : c ∈ S := hp.mem_iff.2 hc
    rw [hS'] at this hs
    rcases List.mem_cons.1 this with rfl | hm
    · exact le_rfl
    · exact (List.pairwise_cons.1 hs).1 c hm
  · intro j hj
    have key : ∀ d j, j < d → (rankPairs S d)[2 * j]? = some (S.getD (j + 1) 0) ∧
        (rankPairs S d)[2 * j + 1]? = some (S.getD (S.length - (j + 1)) 0) := by
      intro d j hj
      induction d with
      | zero => omega
      | succ d ih =>
        have hlen : (rankPairs S d).length = 2 * d := by simp [rankPairs, List.length_flatMap]; omega
        have he : rankPairs S (d + 1) = rankPairs S d ++ [S.getD (d + 1) 0, S.getD (S.length - (d + 1)) 0] := by
          simp [rankPairs, List.range_succ, List.flatMap_append]
        rw [he]
        by_cases hjd : j < d
        · rw [List.getElem?_append_left (by omega), List.getElem?_append_left (by omega)]
          exact ih hjd
        · obtain rfl : j = d := by omega
          rw [List.getElem?_append_right (by omega), List.getElem?_append_right (by omega), hlen]
          simp
    obtain ⟨k1, k2⟩ := key d j hj
    refine ⟨_, _, k1, k2, ?_⟩
    rw [getD_eq_getElem' _ _ (by omega), getD_eq_getElem' _ _ (by omega)]
    by_cases hlt : j + 1 < S.length - (j + 1)
    · exact List.pairwise_iff_getElem.1 hs _ _ _ _ hlt
    · have : j + 1 = S.length - (j + 1) := by omega
      exact le_of_eq (by congr 2)

example : rankSortRow (fun i => 10 - i) [3, 8, 1, 5, 2] = some [8, 5, 1, 3, 2] := by decide

/-- C40. Variant `ranked`: like `rand`, with the parents after the target reordered by rank. Row `i` starts with the target,
then the best ranked of its parents, and in every pair the first is not worse ranked than the second; all entries differ. -/
theorem C40_ranked (fuel nPop nSelect d : ℕ) (rank : ℕ → Option ℕ) (draws : ℕ → ℕ → ℕ → ℕ)
    (hd : ∀ j t k, draws j t k < nPop) (P : List (List ℕ))
    (h : desRand fuel nPop nSelect (2 * d + 2) draws = some P) :
    ∃ Q, desRanked fuel nPop nSelect (2 * d + 2) rank draws = some Q ∧ Q.length = nPop ∧
      ∀ i < nPop, ∃ b t u, Q[i]? = some (i :: b :: t) ∧ P[i]? = some (i :: u) ∧ (b :: t).Perm u ∧
        (i :: b :: t).Nodup ∧ (∀ c ∈ u, rankOf rank b ≤ rankOf rank c) ∧
        ∀ j < d, ∃ x y, t[2 * j]? = some x ∧ t[2 * j + 1]? = some y ∧ rankOf rank x ≤ rankOf rank y := by
  obtain ⟨h1, h2⟩ := C40_rand fuel nPop nSelect (2 * d + 2) draws hd P h
  have hrow : ∀ row ∈ P, ∃ i u, row = i :: u ∧ u.length = 2 * d + 1 := by
    intro row hm
    obtain ⟨i, hi, he⟩ := List.getElem_of_mem hm
    obtain ⟨t, t1, t2, _, _⟩ := h2 i (by omega)
    rw [List.getElem?_eq_getElem hi, he] at t1
    exact ⟨i, t, Option.some.inj t1, by simp only [List.length_cons] at t2; omega⟩
  have hmap : ∀ L : List (List ℕ), (∀ row ∈ L, ∃ i u, row = i :: u ∧ u.length = 2 * d + 1) →
      ∃ Q, L.mapM (fun row => (rankSortRow (rankOf rank) row.tail).map fun r => row.take 1 ++ r) = some Q ∧
        Q.length = L.length ∧ ∀ (k : ℕ) (row : List ℕ), L[k]? = some row → ∃ i u r, row = i :: u ∧
          rankSortRow (rankOf rank) u = some r ∧ Q[k]? = some (i :: r) := by
    intro L
    induction L with
    | nil => intro _; exact ⟨[], rfl, rfl, fun k row hk => by simp at hk⟩
    | cons row L ih =>
      intro hL
      obtain ⟨Q, q1, q2, q3⟩ := ih fun r hr => hL r (List.mem_cons_of_mem _ hr)
      obtain ⟨i, u, rfl, hu⟩ := hL row (List.mem_cons_self ..)
      obtain ⟨b, t, e1, _⟩ := C40_rank_sort (rankOf rank) u d hu
      refine ⟨(i :: b :: t) :: Q, ?_, by simp [q2], ?_⟩
      · simp [List.mapM_cons, e1, q1]
      · intro k row hk
        cases k with
        | zero =>
          simp only [List.getElem?_cons_zero, Option.some.injEq] at hk
          exact ⟨i, u, b :: t, hk.symm, e1, rfl⟩
        | succ k => exact q3 k row (by simpa using hk)
  obtain ⟨Q, q1, q2, q3⟩ := hmap P hrow
  refine ⟨Q, by simp only [desRanked, h]; exact q1, by omega, fun i hi => ?_⟩
  obtain ⟨u, u1, u2, u3, u4⟩ := h2 i hi
  obtain ⟨i', u', r, e1, e2, e3⟩ := q3 i _ u1
  obtain ⟨rfl, rfl⟩ : i = i' ∧ u = u' := by simpa using e1
  obtain ⟨b, t, f1, f2, f3, f4⟩ := C40_rank_sort (rankOf rank) u d (by simp only [List.length_cons] at u2; omega)
  rw [f1] at e2
  obtain rfl := Option.some.inj e2
  exact ⟨b, t, u, e3, u1, f2, ((f2.cons i).nodup_iff).2 u3, f3, f4⟩

example : desRanked 5 4 4 4 (fun i => if i = 3 then none else some (2 - i)) (fun j t k => (k + j + t) % 4) =
    some [[0, 2, 1, 3], [1, 2, 0, 3], [2, 1, 0, 3], [3, 2, 1, 0]] := by decide

/-- C40. With an even number of parents after the target, `_rank_sort` raises. -/
theorem C40_rank_sort_even (rank : ℕ → ℕ) (row : List ℕ) (h : row.length % 2 = 0) : rankSortRow rank row = none := by
  simp [rankSortRow, h]

example : rankSortRow id [4, 2] = none := by decide

/-! ### The DE algorithm (`fast_fill_random`) -/

/-- C40, first attempt. If the first draw of `fast_fill_random` for a column has no repetition, it is the column. -/
theorem C40_fast_fill_first (draws : ℕ → ℕ → ℕ) (forb : List (List ℕ)) (t fuel : ℕ) (rem col : List ℕ)
    (h : ffRem forb (ffAssign (draws t) 0 rem col) rem = []) :
    ffLoop draws forb (fuel + 1) t rem col = ffAssign (draws t) 0 rem col := by
  simp [ffLoop, h]

example : ffLoop (fun t k => [2, 3].getD (k + t) 0) [[0], [1]] 10 0 [0, 1] [0, 0] = [2, 3] := by decide

/-- C40 is false for the DE algorithm with selection `rand`: after a repeated draw, `fast_fill_random` looks at the wrong
rows, and an individual can be its own parent although the population has other members. Draws below 5, targets 0 and 1, one
column: `[3, 1]`, then `[1]` for row 1, then `[2]` for row 0; row 1 keeps the parent 1. -/
theorem C40_de_rand_duplicate : ∃ draws : ℕ → ℕ → ℕ → ℕ, (∀ j t k, draws j t k < 5) ∧
    deRandParents 1 draws [0, 1] = [[2], [1]] := by
  refine ⟨fun _ t k => if t = 0 then (if k = 0 then 3 else 1) else if t = 1 then 1 else 2, ?_, by decide⟩
  intro j t k
  dsimp only
  split_ifs <;> omega

/-- C40 is false for the DE algorithm with selection `best`: the best individual is not among the indices checked, so it
can appear in the difference pair of its own row, even if no draw had to be repeated. -/
theorem C40_de_best_duplicate : ∃ (draws : ℕ → ℕ → ℕ → ℕ) (best targets : List ℕ), (∀ j t k, draws j t k < 5) ∧
    deBestParents 3 draws best targets = [[4, 4, 2]] ∧ targets = [0] ∧ best = [4] := by
  refine ⟨fun j _ _ => if j = 0 then 4 else 2, [4], [0], ?_, by decide, rfl, rfl⟩
  intro j t k
  dsimp only
  split_ifs <;> omega

end Props
