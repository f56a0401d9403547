import Verif.Spec.DirQuality
import Verif.Model.DirQuality
import Verif.Props.RefDirs
import Verif.Props.Simplex
import Verif.Props.Sampling
import Verif.Props.Spacing

/-!
C153, the quality measures on distances, the incremental IGD and the random factory.
-/

set_option linter.unusedSimpArgs false
set_option linter.unusedVariables false

namespace Props
open Model Spec

variable {d : ℕ}

/-! ### Averages over pairs -/

theorem dqPairs_length {A : Type*} : ∀ l : List A, ((dqPairs l).length : ℝ) = (l.length : ℝ) * ((l.length : ℝ) - 1) / 2
  | [] => by simp [dqPairs]
  | a :: l => by
    rw [dqPairs, List.length_append, Nat.cast_add, dqPairs_length l, List.length_map, List.length_cons, Nat.cast_add, Nat.cast_one]
    ring

theorem dqPairs_sum {A : Type*} (f : A × A → ℝ) : ∀ l : List A,
    ((dqPairs l).map f).sum = ∑ i : Fin l.length, ∑ j : Fin l.length, if i < j then f (l[i], l[j]) else 0
  | [] => by simp [dqPairs]
  | a :: l => by
    rw [dqPairs, List.map_append, List.sum_append, dqPairs_sum f l]
    change _ = ∑ i : Fin (l.length + 1), ∑ j : Fin (l.length + 1), if i < j then f ((a :: l)[i], (a :: l)[j]) else 0
    rw [Fin.sum_univ_succ]
    congr 1
    · rw [Fin.sum_univ_succ, List.map_map, ← List.sum_ofFn]
      simp only [lt_self_iff_false, if_false, zero_add, Fin.succ_pos, if_true]
      congr 1
      apply List.ext_getElem <;> simp
    · refine Finset.sum_congr rfl fun i _ => ?_
      rw [Fin.sum_univ_succ]
      simp [Fin.succ_lt_succ_iff]

theorem dqPairs_ne_nil {A : Type*} {l : List A} (h : 2 ≤ l.length) : dqPairs l ≠ [] := by
  match l, h with
  | a :: b :: l, _ => simp [dqPairs]

theorem dqPairs_nil {A : Type*} {l : List A} (h : l.length < 2) : dqPairs l = [] := by
  match l, h with
  | [], _ => rfl
  | [a], _ => rfl

theorem dqMean_pairs {A : Type*} (f : A × A → ℝ) {l : List A} (h : 2 ≤ l.length) :
    dqMean ((dqPairs l).map f) = some (pairMean fun i j : Fin l.length => f (l[i], l[j])) := by
  rw [dqMean, if_neg (by simpa using dqPairs_ne_nil h), dqPairs_sum, List.length_map, dqPairs_length, pairMean]

/-- **C153** (`average_distance_to_other_points`). For at least two points the value is the average of the Euclidean distances over all
pairs of points; for fewer there is none. -/
theorem C153_average (z : List (Fin d → ℝ)) :
    (2 ≤ z.length → averageDistance z = some (pairMean fun i j : Fin z.length => eDist z[i] z[j])) ∧
    (z.length < 2 → averageDistance z = none) := by
  constructor
  · intro h
    exact dqMean_pairs (fun p => dqDist p.1 p.2) h
  · intro h
    simp [averageDistance, dqPairs_nil h, dqMean]

example : averageDistance ([![1, 0], ![0, 0]] : List (Fin 2 → ℝ)) = some 1 := by
  rw [(C153_average _).1 (by simp)]
  simp [pairMean, eDist, Fin.sum_univ_two]
  norm_num

theorem eDist_sq (u v : Fin d → ℝ) : eDist u v ^ (2 : ℕ) = ∑ k, (u k - v k) ^ (2 : ℕ) :=
  Real.sq_sqrt (Finset.sum_nonneg fun k _ => sq_nonneg _)

theorem sumsq_zero (u v : Fin d → ℝ) : ∑ k, (u k - v k) ^ (2 : ℕ) = 0 ↔ u = v := by
  rw [Finset.sum_eq_zero_iff_of_nonneg fun k _ => sq_nonneg _]
  constructor
  · intro h
    funext k
    have := h k (Finset.mem_univ k)
    exact sub_eq_zero.1 (pow_eq_zero_iff two_ne_zero |>.1 this)
  · rintro rfl k _
    simp

theorem mem_dqPairs {A : Type*} {p : A × A} : ∀ {l : List A}, p ∈ dqPairs l ↔ ∃ i j : Fin l.length, i < j ∧ p = (l[i], l[j])
  | [] => by
    simp only [dqPairs, List.not_mem_nil, false_iff]
    rintro ⟨i, -⟩
    exact absurd i.2 (by simp)
  | a :: l => by
    rw [dqPairs, List.mem_append, mem_dqPairs]
    constructor
    · rintro (h | ⟨i, j, hij, rfl⟩)
      · obtain ⟨b, hb, rfl⟩ := List.mem_map.1 h
        obtain ⟨j, hj, rfl⟩ := List.getElem_of_mem hb
        exact ⟨⟨0, Nat.succ_pos _⟩, ⟨j + 1, Nat.succ_lt_succ hj⟩, Fin.mk_lt_mk.2 (Nat.succ_pos j), rfl⟩
      · exact ⟨⟨i + 1, Nat.succ_lt_succ i.2⟩, ⟨j + 1, Nat.succ_lt_succ j.2⟩, Fin.mk_lt_mk.2 (Nat.succ_lt_succ hij), rfl⟩
    · rintro ⟨⟨i, hi⟩, ⟨j, hj⟩, hij, rfl⟩
      simp only [Fin.mk_lt_mk] at hij
      cases i with
      | zero =>
        left
        cases j with
        | zero => omega
        | succ j => exact List.mem_map.2 ⟨l[j]'(by simpa using hj), List.getElem_mem _, rfl⟩
      | succ i =>
        right
        cases j with
        | zero => omega
        | succ j => exact ⟨⟨i, by simpa using hi⟩, ⟨j, by simpa using hj⟩, by simp [Fin.lt_def]; omega, rfl⟩

/-- The point of the line through `r` and the origin with coordinate sum one. -/
noncomputable def onPlaneSum (r : Fin d → ℝ) : Fin d → ℝ := fun k => r k / ∑ m, r m

/-- **C153** (`potential_energy`). With at least two points, no coordinate sum zero and no two points on a line through the origin, the value
is the average over all pairs of the reciprocal squared distance of the points scaled to coordinate sum one; in every other case there is none.
Scaling single points by factors other than zero does not change it. -/
theorem C153_energy (x : List (Fin d → ℝ)) :
    ((2 ≤ x.length ∧ (∀ r ∈ x, ∑ k, r k ≠ 0) ∧ ∀ i j : Fin x.length, i ≠ j → onPlaneSum x[i] ≠ onPlaneSum x[j]) →
      potentialEnergy x = some (pairMean fun i j : Fin x.length => 1 / eDist (onPlaneSum x[i]) (onPlaneSum x[j]) ^ (2 : ℕ))) ∧
    (¬ (2 ≤ x.length ∧ (∀ r ∈ x, ∑ k, r k ≠ 0) ∧ ∀ i j : Fin x.length, i ≠ j → onPlaneSum x[i] ≠ onPlaneSum x[j]) → potentialEnergy x = none) ∧
    ∀ (c : (Fin d → ℝ) → ℝ), (∀ r ∈ x, c r ≠ 0) → potentialEnergy (x.map fun r k => c r * r k) = potentialEnergy x := by
  classical
  have hD : ∀ (x : List (Fin d → ℝ)), 0 ∈ (dqPairs (x.map onPlaneSum)).map (fun p => ∑ k, (p.1 k - p.2 k) ^ (2 : ℕ)) ↔
      ∃ i j : Fin x.length, i < j ∧ onPlaneSum x[i] = onPlaneSum x[j] := by
    intro x
    rw [List.mem_map]
    constructor
    · rintro ⟨p, hp, h0⟩
      rw [sumsq_zero] at h0
      obtain ⟨i, j, hij, rfl⟩ := mem_dqPairs.1 hp
      exact ⟨⟨i, by simpa using i.2⟩, ⟨j, by simpa using j.2⟩, hij, by simpa using h0⟩
    · rintro ⟨i, j, hij, h⟩
      exact ⟨_, mem_dqPairs.2 ⟨⟨i, by simp⟩, ⟨j, by simp⟩, hij, rfl⟩, by
        rw [sumsq_zero]
        simpa using h⟩
  have hu : ∀ x : List (Fin d → ℝ), potentialEnergy x = if (∀ r ∈ x, ∑ k, r k ≠ 0) then
      (if 0 ∈ (dqPairs (x.map onPlaneSum)).map (fun p => ∑ k, (p.1 k - p.2 k) ^ (2 : ℕ)) then none else
        dqMean ((dqPairs (x.map onPlaneSum)).map fun p => 1 / ∑ k, (p.1 k - p.2 k) ^ (2 : ℕ))) else none := by
    intro x
    unfold potentialEnergy
    dsimp only
    rw [List.map_map]
    rfl
  refine ⟨?_, ?_, ?_⟩
  · rintro ⟨h2, hs, hne⟩
    rw [hu, if_pos hs, if_neg, dqMean_pairs _ (by simpa using h2)]
    · congr 1
      simp only [eDist_sq, List.length_map, Fin.getElem_fin, List.getElem_map]
      unfold pairMean
      congr 1
      · have key : ∀ m (hm : m = x.length), (∑ i : Fin m, ∑ j : Fin m, if i < j then
            1 / ∑ k, (onPlaneSum (x[(i : ℕ)]'(by omega)) k - onPlaneSum (x[(j : ℕ)]'(by omega)) k) ^ (2 : ℕ) else 0) =
            ∑ i : Fin x.length, ∑ j : Fin x.length, if i < j then 1 / ∑ k, (onPlaneSum x[(i : ℕ)] k - onPlaneSum x[(j : ℕ)] k) ^ (2 : ℕ) else 0 := by
          rintro m rfl; rfl
        exact key _ (by simp)
      · simp
    · rw [hD]
      rintro ⟨i, j, hij, h⟩
      exact hne i j hij.ne h
  · intro h
    rw [hu]
    split_ifs with hs h0
    · rfl
    · rw [hD] at h0
      push Not at h0 h
      by_cases h2 : 2 ≤ x.length
      · exfalso
        obtain ⟨i, j, hij, e⟩ := h h2 hs
        rcases lt_or_gt_of_ne hij with hlt | hlt
        · exact h0 i j hlt e
        · exact h0 j i hlt e.symm
      · rw [dqPairs_nil (by simpa using h2)]
        simp [dqMean]
    · rfl
  · intro c hc
    have e1 : (x.map fun r k => c r * r k).map onPlaneSum = x.map onPlaneSum := by
      rw [List.map_map]
      apply List.map_congr_left
      intro r hr
      funext k
      simp only [Function.comp, onPlaneSum, ← Finset.mul_sum]
      exact mul_div_mul_left _ _ (hc r hr)
    have e2 : (∀ r ∈ x.map (fun r k => c r * r k), ∑ k, r k ≠ 0) ↔ ∀ r ∈ x, ∑ k, r k ≠ 0 := by
      constructor
      · intro h r hr h0
        exact h _ (List.mem_map.2 ⟨r, hr, rfl⟩) (by rw [← Finset.mul_sum, h0, mul_zero])
      · intro h r hr
        obtain ⟨r, hr', rfl⟩ := List.mem_map.1 hr
        rw [← Finset.mul_sum]
        exact mul_ne_zero (hc r hr') (h r hr')
    rw [hu, hu, e1]
    by_cases hs : ∀ r ∈ x, ∑ k, r k ≠ 0
    · rw [if_pos hs, if_pos (e2.2 hs)]
    · rw [if_neg hs, if_neg (fun h => hs (e2.1 h))]

/-- The two corners of a triangle side, one of them scaled: distance squared 2. -/
example : potentialEnergy ([![3, 0], ![0, 1]] : List (Fin 2 → ℝ)) = some (1 / 2) := by
  rw [(C153_energy _).1]
  · simp [pairMean, eDist_sq, onPlaneSum, Fin.sum_univ_two]
    norm_num
  · refine ⟨by simp, by simp [Fin.sum_univ_two], ?_⟩
    intro i j hij
    match i, j with
    | ⟨0, _⟩, ⟨0, _⟩ => exact absurd rfl hij
    | ⟨1, _⟩, ⟨1, _⟩ => exact absurd rfl hij
    | ⟨0, _⟩, ⟨1, _⟩ => intro h; have := congrFun h 0; simp [onPlaneSum, Fin.sum_univ_two] at this
    | ⟨1, _⟩, ⟨0, _⟩ => intro h; have := congrFun h 0; simp [onPlaneSum, Fin.sum_univ_two] at this

/-! ### Distances to the nearest points -/

theorem addCorners_fold {A : Type*} [DecidableEq A] : ∀ (L : List A) (z : List A), L.Nodup →
    L.foldl (fun z row => if row ∈ z then z else z ++ [row]) z = z ++ L.filter fun e => e ∉ z
  | [], z, _ => by simp
  | r :: L, z, h => by
    rw [List.nodup_cons] at h
    rw [List.foldl_cons, addCorners_fold L _ h.2]
    by_cases hr : r ∈ z
    · simp [hr]
    · rw [if_neg hr, List.filter_cons_of_pos (by simpa using hr), List.append_assoc, List.singleton_append]
      congr 2
      apply List.filter_congr
      intro e he
      have : e ≠ r := fun h' => h.1 (h' ▸ he)
      simp [this]

theorem corners_nodup : ((List.finRange d).map fun i => (Pi.single i 1 : Fin d → ℝ)).Nodup := by
  refine (List.nodup_finRange d).map_on ?_
  intro i _ j _ h
  by_contra hij
  have := congrFun h i
  simp [Pi.single_apply, hij] at this

theorem addCorners_eq (z : List (Fin d → ℝ)) : addCorners z = withCorners z := by
  classical
  unfold addCorners withCorners
  rw [addCorners_fold _ _ corners_nodup]

theorem withCorners_length (z : List (Fin d → ℝ)) : d ≤ (withCorners z).length ∧ z.length ≤ (withCorners z).length := by
  classical
  constructor
  · have hsub : ((List.finRange d).map fun i => (Pi.single i 1 : Fin d → ℝ)) ⊆ withCorners z := by
      intro e he
      unfold withCorners
      rw [List.mem_append, List.mem_filter]
      by_cases h : e ∈ z
      · exact Or.inl h
      · exact Or.inr ⟨he, by simpa using h⟩
    have := (List.subperm_of_subset corners_nodup hsub).length_le
    simpa using this
  · unfold withCorners
    simp

theorem withCorners_get (z : List (Fin d → ℝ)) (i : ℕ) (hi : i < z.length) (hi' : i < (withCorners z).length) : (withCorners z)[i] = z[i] := by
  have e : (withCorners z)[i]? = z[i]? := by
    unfold withCorners
    rw [List.getElem?_append_left hi]
  rw [List.getElem?_eq_getElem hi', List.getElem?_eq_getElem hi] at e
  exact Option.some.inj e

/-- A list as a family. -/
abbrev famOf (z : List (Fin d → ℝ)) : Fin z.length → Fin d → ℝ := fun i => z[i]

theorem getD_fam (z : List (Fin d → ℝ)) (i : Fin z.length) : z.getD i 0 = famOf z i := by
  simp [List.getD]

theorem mem_rowDists_none {z : List (Fin d → ℝ)} {i : Fin z.length} {v : ℝ} :
    v ∈ rowDists none z i ↔ ∃ j : Fin z.length, j ≠ i ∧ eDist (famOf z i) (famOf z j) = v := by
  unfold rowDists
  rw [List.mem_filterMap]
  constructor
  · rintro ⟨j, hj, h⟩
    split_ifs at h with hij
    · have hj' := List.mem_range.1 hj
      refine ⟨⟨j, hj'⟩, fun e => hij (by rw [← e]), ?_⟩
      have := Option.some.inj h
      rw [← this, getD_fam z i, getD_fam z ⟨j, hj'⟩]
      rfl
  · rintro ⟨j, hj, rfl⟩
    refine ⟨j, List.mem_range.2 j.2, ?_⟩
    rw [if_neg fun e => hj (Fin.ext e.symm), getD_fam, getD_fam]
    rfl

theorem mem_rowDists_one {z : List (Fin d → ℝ)} {i : Fin z.length} {c v : ℝ} : v ∈ rowDists (some c) z i ↔ v = c ∨ v ∈ rowDists none z i := by
  unfold rowDists
  simp only [List.mem_filterMap]
  constructor
  · rintro ⟨j, hj, h⟩
    split_ifs at h with hij
    · exact Or.inl (Option.some.inj h).symm
    · exact Or.inr ⟨j, hj, by rw [if_neg hij]; exact h⟩
  · rintro (rfl | ⟨j, hj, h⟩)
    · exact ⟨i, List.mem_range.2 i.2, by simp⟩
    · split_ifs at h with hij
      exact ⟨j, hj, by rw [if_neg hij]; exact h⟩

theorem rowDists_length {z : List (Fin d → ℝ)} (i : Fin z.length) : (rowDists none z i).length = z.length - 1 := by
  have key : ∀ (n : ℕ), ((List.range n).filterMap fun j => if (i : ℕ) = j then (none : Option ℝ) else some (dqDist (z.getD i 0) (z.getD j 0))).length =
      if (i : ℕ) < n then n - 1 else n := by
    intro n
    induction n with
    | zero => simp
    | succ n ih =>
      rw [List.range_succ, List.filterMap_append, List.length_append, ih]
      by_cases h : (i : ℕ) = n
      · simp [h]
      · rw [List.filterMap_cons, if_neg h]
        simp only [List.filterMap_nil, List.length_cons, List.length_nil]
        split_ifs <;> omega
  have := key z.length
  rw [if_pos i.2] at this
  exact this

theorem rowMin_nearest {z : List (Fin d → ℝ)} (i : Fin z.length) (h2 : 2 ≤ z.length) : ∃ v, NearestDist (famOf z) i v ∧
    (rowDists none z i).min? = some v ∧ (rowDists (some 1) z i).min? = some (min v 1) := by
  have hne : rowDists none z i ≠ [] := by
    intro h
    have := rowDists_length i
    rw [h] at this
    simp at this
    omega
  obtain ⟨v, hv⟩ : ∃ v, (rowDists none z i).min? = some v := by
    cases h : (rowDists none z i).min? with
    | none => exact absurd (List.min?_eq_none_iff.1 h) hne
    | some v => exact ⟨v, rfl⟩
  have hv' := List.min?_eq_some_iff.1 hv
  refine ⟨v, ⟨mem_rowDists_none.1 hv'.1, fun j hj => hv'.2 _ (mem_rowDists_none.2 ⟨j, hj, rfl⟩)⟩, hv, ?_⟩
  rw [List.min?_eq_some_iff]
  constructor
  · rw [mem_rowDists_one]
    rcases le_total v 1 with h | h
    · rw [min_eq_left h]; exact Or.inr hv'.1
    · rw [min_eq_right h]; exact Or.inl rfl
  · intro b hb
    rcases mem_rowDists_one.1 hb with rfl | hb
    · exact min_le_right _ _
    · exact le_trans (min_le_left _ _) (hv'.2 b hb)

theorem dqVar_range {n : ℕ} (hn : 0 < n) (v : Fin n → ℝ) (g : ℕ → Option ℝ) (hg : ∀ i : Fin n, g i = some (v i)) :
    ((List.range n).mapM g) = some (List.ofFn v) := by
  have h : ∀ a ∈ List.range n, g a = some (if h : a < n then v ⟨a, h⟩ else 0) := by
    intro a ha
    have ha' := List.mem_range.1 ha
    rw [dif_pos ha']
    exact hg ⟨a, ha'⟩
  rw [mapM_some _ _ _ h]
  congr 1
  apply List.ext_getElem
  · simp
  · intro i h1 h2
    have : i < n := by simpa using h1
    simp [this]

theorem dqMean_ofFn {n : ℕ} (hn : 0 < n) (v : Fin n → ℝ) : dqMean (List.ofFn v) = some (avgOf v) := by
  have : List.ofFn v ≠ [] := by
    intro h
    have := congrArg List.length h
    simp at this
    omega
  rw [dqMean, if_neg this, List.sum_ofFn, List.length_ofFn, avgOf]

theorem dqVar_ofFn {n : ℕ} (hn : 0 < n) (v : Fin n → ℝ) : dqVar (List.ofFn v) = some (varOf v) := by
  rw [dqVar, dqMean_ofFn hn, Option.map_some, List.map_ofFn, List.sum_ofFn, List.length_ofFn]
  rfl

/-- **C153** (`distance_of_closest_point`). For at least two points the value is the smallest distance between two of them; for fewer there
is none. -/
theorem C153_closest (z : List (Fin d → ℝ)) :
    (2 ≤ z.length → ∃ v, distanceOfClosest z = some v ∧ (∃ i j, i ≠ j ∧ eDist (famOf z i) (famOf z j) = v) ∧
      ∀ i j, i ≠ j → v ≤ eDist (famOf z i) (famOf z j)) ∧
    (z.length < 2 → distanceOfClosest z = none) := by
  have hmem : ∀ v, v ∈ ((List.range z.length).flatMap fun i => rowDists none z i) ↔ ∃ i j, i ≠ j ∧ eDist (famOf z i) (famOf z j) = v := by
    intro v
    rw [List.mem_flatMap]
    constructor
    · rintro ⟨i, hi, h⟩
      obtain ⟨j, hj, e⟩ := (mem_rowDists_none (i := ⟨i, List.mem_range.1 hi⟩)).1 h
      exact ⟨_, j, hj.symm, e⟩
    · rintro ⟨i, j, hij, e⟩
      exact ⟨i, List.mem_range.2 i.2, mem_rowDists_none.2 ⟨j, hij.symm, e⟩⟩
  constructor
  · intro h2
    have hne : ((List.range z.length).flatMap fun i => rowDists none z i) ≠ [] := by
      intro h
      have := (hmem (eDist (famOf z ⟨0, by omega⟩) (famOf z ⟨1, by omega⟩))).2 ⟨_, _, by simp, rfl⟩
      rw [h] at this
      simp at this
    cases hm : ((List.range z.length).flatMap fun i => rowDists none z i).min? with
    | none => exact absurd (List.min?_eq_none_iff.1 hm) hne
    | some v =>
      have hv := List.min?_eq_some_iff.1 hm
      exact ⟨v, hm, (hmem v).1 hv.1, fun i j hij => hv.2 _ ((hmem _).2 ⟨i, j, hij, rfl⟩)⟩
  · intro h2
    rw [distanceOfClosest, List.min?_eq_none_iff, List.eq_nil_iff_forall_not_mem]
    intro v hv
    obtain ⟨i, j, hij, -⟩ := (hmem v).1 hv
    exact hij (Fin.ext (by omega))

example : ∃ v, distanceOfClosest ([![1, 0], ![0, 0], ![0, 3]] : List (Fin 2 → ℝ)) = some v ∧ v ≤ 1 := by
  obtain ⟨v, h1, -, h2⟩ := (C153_closest ([![1, 0], ![0, 0], ![0, 3]] : List (Fin 2 → ℝ))).1 (by simp)
  refine ⟨v, h1, ?_⟩
  have := h2 ⟨0, by simp⟩ ⟨1, by simp⟩ (by simp)
  simpa [famOf, eDist, Fin.sum_univ_two] using this

/-- **C153** (`closest_point_variance`), partial: the points are completed with the missing corners; the value is the variance of the
distances to the nearest other point, every distance above 1 being replaced by 1. -/
theorem C153_variance_partial (hd : 2 ≤ d) (z : List (Fin d → ℝ)) : ∃ v, (∀ i, NearestDist (famOf (withCorners z)) i (v i)) ∧
    closestPointVariance z = some (varOf fun i => min (v i) 1) ∧ ((∀ i, v i ≤ 1) → closestPointVariance z = some (varOf v)) := by
  have hl := (withCorners_length z).1
  choose v hv using fun i => rowMin_nearest (z := withCorners z) i (by omega)
  have main : closestPointVariance z = some (varOf fun i => min (v i) 1) := by
    unfold closestPointVariance
    simp only [addCorners_eq]
    rw [dqVar_range (by omega) (fun i => min (v i) 1) _ fun i => (hv i).2.2]
    exact dqVar_ofFn (by omega) _
  refine ⟨v, fun i => (hv i).1, main, fun h => ?_⟩
  rw [main]
  congr 2
  funext i
  exact min_eq_left (h i)

/-- C153 is false for `closest_point_variance` as described: with the corners and one point near a corner the value is not the variance of
the distances to the closest points, because distances above 1 are cut. -/
theorem C153_variance_refuted : ∃ (z : List (Fin 2 → ℝ)) (v : Fin (withCorners z).length → ℝ), withCorners z = z ∧
    (∀ i, NearestDist (famOf (withCorners z)) i (v i)) ∧ closestPointVariance z ≠ some (varOf v) := by
  classical
  set z : List (Fin 2 → ℝ) := [![1, 0], ![0, 1], ![9/10, 1/10]] with hz
  have hw : withCorners z = z := by
    unfold withCorners
    rw [List.filter_eq_nil_iff.2, List.append_nil]
    intro e he
    obtain ⟨i, -, rfl⟩ := List.mem_map.1 he
    have : (Pi.single i 1 : Fin 2 → ℝ) ∈ z := by
      fin_cases i
      · exact List.mem_cons.2 (Or.inl (by funext k; fin_cases k <;> simp))
      · exact List.mem_cons_of_mem _ (List.mem_cons.2 (Or.inl (by funext k; fin_cases k <;> simp)))
    simp [this]
  obtain ⟨v, hv, hval, -⟩ := C153_variance_partial (d := 2) le_rfl z
  refine ⟨z, v, hw, hv, ?_⟩
  rw [hval]
  have key : ∀ (w : List (Fin 2 → ℝ)) (v : Fin w.length → ℝ), w = z → (∀ i, NearestDist (famOf w) i (v i)) →
      varOf (fun i => min (v i) 1) ≠ varOf v := by
    rintro w v rfl hv
    have d01 : eDist (famOf z ⟨0, by simp [hz]⟩) (famOf z ⟨1, by simp [hz]⟩) = √2 := by
      change √(∑ k, ((![1, 0] : Fin 2 → ℝ) k - (![0, 1] : Fin 2 → ℝ) k) ^ (2 : ℕ)) = _
      congr 1
      simp [Fin.sum_univ_two]
      norm_num
    have d02 : eDist (famOf z ⟨0, by simp [hz]⟩) (famOf z ⟨2, by simp [hz]⟩) = √(1/50) := by
      change √(∑ k, ((![1, 0] : Fin 2 → ℝ) k - (![9/10, 1/10] : Fin 2 → ℝ) k) ^ (2 : ℕ)) = _
      congr 1
      simp [Fin.sum_univ_two]
      norm_num
    have d12 : eDist (famOf z ⟨1, by simp [hz]⟩) (famOf z ⟨2, by simp [hz]⟩) = √(81/50) := by
      change √(∑ k, ((![0, 1] : Fin 2 → ℝ) k - (![9/10, 1/10] : Fin 2 → ℝ) k) ^ (2 : ℕ)) = _
      congr 1
      simp [Fin.sum_univ_two]
      norm_num
    have comm : ∀ u w : Fin 2 → ℝ, eDist u w = eDist w u := by
      intro u w
      unfold eDist
      congr 1
      exact Finset.sum_congr rfl fun k _ => by ring
    have s1 : √(1/50) < 1 := by rw [Real.sqrt_lt' one_pos]; norm_num
    have s2 : (1 : ℝ) < √(81/50) := by rw [Real.lt_sqrt (by norm_num)]; norm_num
    have s3 : √(81/50) ≤ √2 := Real.sqrt_le_sqrt (by norm_num)
    have v0 : v ⟨0, by simp [hz]⟩ = √(1/50) := by
      apply le_antisymm
      · have := (hv ⟨0, by simp [hz]⟩).2 ⟨2, by simp [hz]⟩ (by simp)
        rwa [d02] at this
      · obtain ⟨⟨j, hj⟩, hne, e⟩ := (hv ⟨0, by simp [hz]⟩).1
        rw [← e]
        match j, hj, hne with
        | 0, _, hne => exact absurd rfl hne
        | 1, _, _ => rw [d01]; linarith
        | 2, _, _ => rw [d02]
    have v1 : v ⟨1, by simp [hz]⟩ = √(81/50) := by
      apply le_antisymm
      · have := (hv ⟨1, by simp [hz]⟩).2 ⟨2, by simp [hz]⟩ (by simp)
        rwa [d12] at this
      · obtain ⟨⟨j, hj⟩, hne, e⟩ := (hv ⟨1, by simp [hz]⟩).1
        rw [← e]
        match j, hj, hne with
        | 1, _, hne => exact absurd rfl hne
        | 0, _, _ => rw [comm, d01]; linarith
        | 2, _, _ => rw [d12]
    have v2 : v ⟨2, by simp [hz]⟩ = √(1/50) := by
      apply le_antisymm
      · have := (hv ⟨2, by simp [hz]⟩).2 ⟨0, by simp [hz]⟩ (by simp)
        rwa [comm, d02] at this
      · obtain ⟨⟨j, hj⟩, hne, e⟩ := (hv ⟨2, by simp [hz]⟩).1
        rw [← e]
        match j, hj, hne with
        | 2, _, hne => exact absurd rfl hne
        | 0, _, _ => rw [comm, d02]
        | 1, _, _ => rw [comm, d12]; linarith
    have sum3 : ∀ f : Fin z.length → ℝ, ∑ i, f i = f ⟨0, by simp [hz]⟩ + f ⟨1, by simp [hz]⟩ + f ⟨2, by simp [hz]⟩ := by
      intro f
      exact Fin.sum_univ_three f
    have hlen : (z.length : ℝ) = 3 := by simp [hz]
    intro h
    simp only [varOf, avgOf, sum3, hlen, v0, v1, v2, min_eq_left s1.le, min_eq_right s2.le] at h
    nlinarith
  intro h
  exact key _ v hw hv (Option.some.inj h)

/-! ### The k-th nearest point -/

theorem countP_rowDists {z : List (Fin d → ℝ)} (i : Fin z.length) (P : ℝ → Bool) :
    (rowDists none z i).countP P = (Finset.univ.filter fun j : Fin z.length => j ≠ i ∧ P (eDist (famOf z i) (famOf z j)) = true).card := by
  have e : rowDists none z i = ((List.finRange z.length).filter fun j => j ≠ i).map fun j => eDist (famOf z i) (famOf z j) := by
    unfold rowDists
    rw [← List.map_coe_finRange_eq_range, List.filterMap_map]
    generalize List.finRange z.length = L
    induction L with
    | nil => rfl
    | cons j L ih =>
      rw [List.filterMap_cons]
      by_cases h : j = i
      · subst h
        simp only [Function.comp, if_true]
        rw [List.filter_cons_of_neg (by simp)]
        exact ih
      · rw [List.filter_cons_of_pos (by simpa using h), List.map_cons]
        simp only [Function.comp]
        rw [if_neg fun e => h (Fin.ext e.symm), getD_fam, getD_fam]
        rw [getD_fam] at ih
        exact congrArg (List.cons _) ih
  rw [e, List.countP_map, List.countP_filter, List.countP_eq_length_filter]
  have hnd := (List.nodup_finRange z.length).filter (fun j => (P ∘ fun j => eDist (famOf z i) (famOf z j)) j && decide (j ≠ i))
  rw [← List.toFinset_card_of_nodup hnd]
  congr 1
  ext j
  simp [and_comm]

theorem sorted_kth {l s : List ℝ} (hp : s.Perm l) (hs : s.Pairwise (· ≤ ·)) {k : ℕ} (hk : k < s.length) :
    l.countP (fun w => decide (w < s[k])) < k + 1 ∧ k + 1 ≤ l.countP fun w => decide (w ≤ s[k]) := by
  rw [← hp.countP_eq, ← hp.countP_eq]
  have hget := List.pairwise_iff_getElem.1 hs
  constructor
  · have e : s.countP (fun w => decide (w < s[k])) = (s.take k).countP (fun w => decide (w < s[k])) + (s.drop k).countP (fun w => decide (w < s[k])) := by
      rw [← List.countP_append, List.take_append_drop]
    have h0 : (s.drop k).countP (fun w => decide (w < s[k])) = 0 := by
      rw [List.countP_eq_zero]
      intro w hw
      obtain ⟨j, hj, rfl⟩ := List.getElem_of_mem hw
      simp only [List.length_drop] at hj
      simp only [List.getElem_drop, decide_eq_true_eq, not_lt]
      rcases Nat.eq_zero_or_pos j with rfl | h
      · simp
      · exact hget k (k + j) hk (by omega) (by omega)
    have h1 : (s.take k).countP (fun w => decide (w < s[k])) ≤ k := le_trans List.countP_le_length (by simp)
    omega
  · have e : s.countP (fun w => decide (w ≤ s[k])) = (s.take (k + 1)).countP (fun w => decide (w ≤ s[k])) + (s.drop (k + 1)).countP (fun w => decide (w ≤ s[k])) := by
      rw [← List.countP_append, List.take_append_drop]
    have h1 : (s.take (k + 1)).countP (fun w => decide (w ≤ s[k])) = k + 1 := by
      rw [List.countP_eq_length.2]
      · simp; omega
      · intro w hw
        obtain ⟨j, hj, rfl⟩ := List.getElem_of_mem hw
        simp only [List.length_take] at hj
        simp only [List.getElem_take, decide_eq_true_eq]
        rcases Nat.lt_or_ge j k with h | h
        · exact hget j k (by omega) hk h
        · have : j = k := by omega
          subst this
          exact le_rfl
    omega

theorem sortedRow_kth {z : List (Fin d → ℝ)} (i : Fin z.length) {k : ℕ} (hk : k + 1 < z.length) :
    ∃ h : k < (sortedRow none z i).length, KthNearest (famOf z) i (k + 1) (sortedRow none z i)[k] := by
  classical
  have hp : (sortedRow none z i).Perm (rowDists none z i) := by unfold sortedRow; exact List.perm_insertionSort _ _
  have hs : (sortedRow none z i).Pairwise (· ≤ ·) := by unfold sortedRow; exact List.pairwise_insertionSort _ _
  have hl : k < (sortedRow none z i).length := by rw [hp.length_eq, rowDists_length]; omega
  refine ⟨hl, ?_⟩
  have := sorted_kth hp hs hl
  rw [countP_rowDists, countP_rowDists] at this
  simpa [KthNearest] using this

theorem ceil_sqrt_lt (hd : 3 ≤ d) : 1 ≤ ⌈√(d : ℝ)⌉₊ ∧ ⌈√(d : ℝ)⌉₊ + 1 ≤ d := by
  have hd' : (3 : ℝ) ≤ d := by exact_mod_cast hd
  constructor
  · exact Nat.one_le_iff_ne_zero.2 (by
      intro h
      have := Nat.ceil_eq_zero.1 h
      have h2 : 0 < √(d : ℝ) := Real.sqrt_pos.2 (by linarith)
      linarith)
  · have : ⌈√(d : ℝ)⌉₊ ≤ d - 1 := by
      rw [Nat.ceil_le, Nat.cast_sub (by omega), Nat.cast_one, Real.sqrt_le_left (by linarith)]
      nlinarith
    omega

/-- **C153** (`closest_point_variance_mod`). From three objectives and one point on, the value is the variance, over the given points only, of
the distance to the `⌈√d⌉`-th nearest point of the set completed with the corners. -/
theorem C153_variance_mod (hd : 3 ≤ d) (z : List (Fin d → ℝ)) (hz : z ≠ []) :
    ∃ v : Fin z.length → ℝ, (∀ i, KthNearest (famOf (withCorners z)) (Fin.castLE (withCorners_length z).2 i) ⌈√(d : ℝ)⌉₊ (v i)) ∧
      closestPointVarianceMod z = some (varOf v) := by
  have hl := withCorners_length z
  obtain ⟨k1, k2⟩ := ceil_sqrt_lt hd
  have hpos : 0 < z.length := List.length_pos_of_ne_nil hz
  choose h hv using fun i => sortedRow_kth (z := withCorners z) i (k := ⌈√(d : ℝ)⌉₊ - 1) (by omega)
  rw [Nat.sub_add_cancel k1] at hv
  refine ⟨fun i => (sortedRow none (withCorners z) (Fin.castLE hl.2 i))[⌈√(d : ℝ)⌉₊ - 1]'(h _), fun i => hv _, ?_⟩
  unfold closestPointVarianceMod
  simp only [addCorners_eq]
  rw [dqVar_range hpos (fun i => (sortedRow none (withCorners z) (Fin.castLE hl.2 i))[⌈√(d : ℝ)⌉₊ - 1]'(h _)) _ fun i => ?_]
  · exact dqVar_ofFn hpos _
  · exact List.getElem?_eq_getElem (h (Fin.castLE hl.2 i))

/-- **C153** (`mean_mean`, `geometric_mean_var`). From two objectives on, with `v i j` the distance of point `i` of the completed set to its
`j + 1`-th nearest other point, `j < d - 1`: `mean_mean` is the average over the points of the average of `v i`, and `geometric_mean_var` the
variance of the geometric means of the `v i`. -/
theorem C153_neighbours (hd : 2 ≤ d) (z : List (Fin d → ℝ)) : ∃ v : Fin (withCorners z).length → Fin (d - 1) → ℝ,
    (∀ (i) (j : Fin (d - 1)), KthNearest (famOf (withCorners z)) i ((j : ℕ) + 1) (v i j)) ∧
    meanMean z = some (avgOf fun i => avgOf (v i)) ∧
    geometricMeanVar z = some (varOf fun i => (∏ j, v i j) ^ ((1 : ℝ) / ((d - 1 : ℕ) : ℝ))) := by
  have hl := (withCorners_length z).1
  choose h hv using fun (i : Fin (withCorners z).length) (j : Fin (d - 1)) => sortedRow_kth (z := withCorners z) i (k := j) (by have := j.2; omega)
  have hrow : ∀ i : Fin (withCorners z).length, nearRow (withCorners z) i = some (List.ofFn fun j : Fin (d - 1) => (sortedRow none (withCorners z) i)[(j : ℕ)]'(h i j)) := by
    intro i
    have hlast := h i ⟨d - 2, by omega⟩
    simp only at hlast
    have hlen : ¬ (d - 1 = 0 ∨ (sortedRow none (withCorners z) i).length < d - 1) := by omega
    rw [nearRow, if_neg hlen]
    congr 1
    apply List.ext_getElem
    · simp; omega
    · intro j h1 h2
      simp
  refine ⟨fun i j => (sortedRow none (withCorners z) i)[(j : ℕ)]'(h i j), hv, ?_, ?_⟩
  · unfold meanMean
    simp only [addCorners_eq]
    rw [dqVar_range (by omega) (fun i => avgOf fun j : Fin (d - 1) => (sortedRow none (withCorners z) i)[(j : ℕ)]'(h i j)) _ fun i => ?_]
    · exact dqMean_ofFn (by omega) _
    · rw [hrow i]
      exact dqMean_ofFn (by omega) _
  · unfold geometricMeanVar
    simp only [addCorners_eq]
    rw [dqVar_range (by omega) (fun i => (∏ j : Fin (d - 1), (sortedRow none (withCorners z) i)[(j : ℕ)]'(h i j)) ^ ((1 : ℝ) / ((d - 1 : ℕ) : ℝ))) _ fun i => ?_]
    · exact dqVar_ofFn (by omega) _
    · rw [hrow i, Option.map_some, List.prod_ofFn, List.length_ofFn]

/-- One point in the middle of three corners. -/
example : (∃ w, closestPointVarianceMod ([![1/3, 1/3, 1/3]] : List (Fin 3 → ℝ)) = some w) ∧
    (withCorners ([![1/3, 1/3, 1/3]] : List (Fin 3 → ℝ))).length ≥ 3 :=
  ⟨(C153_variance_mod le_rfl [![1/3, 1/3, 1/3]] (by simp)).imp' _ fun v h => h.2, (withCorners_length _).1⟩

/-! ### The incremental IGD -/

theorem igdLoop_spec (near : List ℚ → ℝ) (p n fuel batch : ℕ) (hp : 0 < p) (hb : 0 < batch) : ∀ (rounds : ℕ) (stack : DDStack) (val : ℝ),
    ddValid n stack → ddStackCost n stack ≤ fuel → (ddPending p n stack).length ≤ rounds →
    igdLoop near p n fuel batch rounds stack val = some (val + ((ddPending p n stack).map fun q => near (scalePoint (3 / 2) q)).sum) := by
  have hp' : ¬ p = 0 := by omega
  have hne : ∀ stack : DDStack, stack ≠ [] → ddPending p n stack ≠ [] := by
    intro stack h0 h
    cases stack with
    | nil => exact h0 rfl
    | cons e rest =>
      simp only [ddPending, List.flatMap_cons, List.append_eq_nil_iff, List.reverse_eq_nil_iff] at h
      have hl := congrArg List.length h.1
      rw [ddRec_length] at hl
      have := Nat.choose_pos (n := n - 1 - e.1.length + e.2) (k := n - 1 - e.1.length) (by omega)
      simp at hl
      omega
  intro rounds
  induction rounds with
  | zero =>
    intro stack val hv hc hr
    have : stack = [] := by
      by_contra h
      exact hne stack h (List.length_eq_zero_iff.1 (by omega))
    subst this
    rw [igdLoop, if_pos rfl]
    simp [ddPending]
  | succ r ih =>
    intro stack val hv hc hr
    rw [igdLoop]
    by_cases h : stack = []
    · subst h
      simp [ddPending]
    · rw [if_neg h]
      obtain ⟨st, out, e1, e2, e3, -, e5⟩ := ddTraverse_spec p n (some (3 / 2)) fuel (some batch) stack hv hc
      obtain ⟨f1, f2⟩ := e5 batch rfl
      have hpos := List.length_pos_of_ne_nil (hne stack h)
      simp only [ddNext, if_neg hp', e1]
      rw [ih st _ e2 (le_trans e3 hc) (by rw [f2, List.length_drop]; omega), f2, f1]
      congr 1
      rw [add_assoc]
      congr 1
      rw [List.map_map]
      conv_rhs => rw [← List.take_append_drop batch (ddPending p n stack), List.map_append, List.sum_append]
      rfl

/-- **C153** (`iterative_igd`). For every batch size from one on, the loop ends and the value is the average, over all Das-Dennis points for the
number of partitions (given, or one more than the largest number with at most `10 * n_points * n_dim` points) scaled by `3/2` about the
centre, of the distance to the nearest point. -/
theorem C153_igd (near : List ℚ → ℝ) (closest : ℕ → ℕ → ℕ) (nPoints n : ℕ) (hn : 0 < n) (nPartitions : Option ℕ) (batch : ℕ) (hb : 0 < batch) (p : ℕ)
    (hp : p = match nPartitions with | none => closest (nPoints * n * 10) n + 1 | some p => p) (hp0 : 0 < p) (fuel rounds : ℕ)
    (hf : ddStackCost n (ddInit p) ≤ fuel) (hr : (dasDennis p n).length ≤ rounds) :
    iterativeIgd near closest nPoints n nPartitions batch fuel rounds =
      some (((dasDennis p n).map fun q => near (scalePoint (3 / 2) q)).sum / (dasDennis p n).length) := by
  have hv0 : ddValid n (ddInit p) := by
    intro e he
    simp only [ddInit, List.mem_singleton] at he
    subst he
    simpa using hn
  obtain ⟨-, -, h3, h4, -⟩ := C29_das_dennis p n hp0 hn
  unfold iterativeIgd
  dsimp only
  have e : iterativeIgd near closest nPoints n nPartitions batch fuel rounds = (igdLoop near p n fuel batch rounds (ddInit p) 0).map fun v : ℝ => v / (numUniform p n : ℝ) := by
    cases nPartitions <;> subst hp <;> rfl
  refine Eq.trans e ?_
  rw [igdLoop_spec near p n fuel batch hp0 hb rounds _ _ hv0 hf (by rw [ddPending_init p n hp0]; simpa using hr), ddPending_init p n hp0, Option.map_some,
    zero_add, List.map_reverse, List.sum_reverse, h3, h4]

/-- C153 is false for `iterative_igd` with `n_partitions=0`: the loop never ends. -/
theorem C153_igd_refuted (near : List ℚ → ℝ) (closest : ℕ → ℕ → ℕ) (nPoints n batch fuel rounds : ℕ) :
    iterativeIgd near closest nPoints n (some 0) batch fuel rounds = none := by
  have key : ∀ (r : ℕ) (v : ℝ), igdLoop near 0 n fuel batch r (ddInit 0) v = none := by
    intro r
    induction r with
    | zero => intro v; rw [igdLoop, if_neg (by simp [ddInit])]
    | succ r ih => intro v; rw [igdLoop, if_neg (by simp [ddInit])]; simp only [ddNext, if_true]; exact ih _
  simp [iterativeIgd, key]

example (near : List ℚ → ℝ) : iterativeIgd near (fun _ _ => 0) 1 2 (some 1) 1 100 10 = iterativeIgd near (fun _ _ => 0) 1 2 none 7 100 10 := by
  have hl : (dasDennis 1 2).length ≤ 10 := by decide +kernel
  have hc : ddStackCost 2 (ddInit 1) ≤ 100 := by decide +kernel
  rw [C153_igd near _ 1 2 (by norm_num) (some 1) 1 (by norm_num) 1 rfl (by norm_num) 100 10 hc hl,
    C153_igd near _ 1 2 (by norm_num) none 7 (by norm_num) 1 rfl (by norm_num) 100 10 hc hl]

/-! ### The random factory -/

/-- **C153** (`RandomSamplingAndMap`). For two or more objectives and more points than objectives, from any Latin hypercube sample (any draws,
any criterion): exactly `n_points` directions, of coordinate sum one for every scaling, non-negative without a scaling or with one in `[0, 1]`;
without a scaling every corner is among them; with `lexsort` they are in lexicographic order. -/
theorem C153_random (M : ℚ) (hM : 0 < M) (n nPoints : ℕ) (hn : 2 ≤ n) (hk : n < nPoints) (scaling : Option ℚ) (lex : Bool)
    {S : Type*} [LinearOrder S] (criterion : (m : ℕ) → Option ((Fin m → Fin n → ℚ) → S))
    (d : (m : ℕ) → (Fin n → Equiv.Perm (Fin m)) × Option (Fin m → Fin n → ℚ)) (draws : (m : ℕ) → List ((Fin n → Equiv.Perm (Fin m)) × Option (Fin m → Fin n → ℚ)))
    (hu : ∀ m, ∀ e ∈ d m :: draws m, ∀ w, e.2 = some w → ∀ i j, 0 ≤ w i j ∧ w i j < 1) :
    ∃ R, sampleAndMapDo M n nPoints scaling lex (fun m => samplingLhs (fun _ => 0) (fun _ => 1) (criterion m) (lhsUnit (d m).1 (d m).2)
        ((draws m).map fun e => lhsUnit e.1 e.2)) = some R ∧
      R.length = nPoints ∧ (∀ v ∈ R, v.length = n ∧ v.sum = 1) ∧
      ((∀ s, scaling = some s → 0 ≤ s ∧ s ≤ 1) → ∀ v ∈ R, ∀ x ∈ v, 0 ≤ x) ∧
      (scaling = none → ∀ i : Fin n, (List.ofFn fun j : Fin n => if i = j then (1 : ℚ) else 0) ∈ R) ∧
      (lex = true → R.Pairwise (· ≤ ·)) := by
  set sample : (m : ℕ) → Fin m → Fin n → ℚ := fun m => samplingLhs (fun _ => 0) (fun _ => 1) (criterion m) (lhsUnit (d m).1 (d m).2)
        ((draws m).map fun e => lhsUnit e.1 e.2) with hsample
  set m := nPoints - n with hm
  set corners := (List.finRange n).map fun i => List.ofFn fun j : Fin n => if i = j then (1 : ℚ) else 0 with hcor
  set r0 := ((List.finRange m).map fun i => List.ofFn (sample m i)).map (simplexKraemer M) ++ corners with hr0
  have hS : sampleAndMap M n nPoints sample = some r0 := by
    rw [sampleAndMap, if_neg (by omega)]
  have hbase : ∀ v ∈ r0, v.length = n ∧ (∀ x ∈ v, 0 ≤ x) ∧ v.sum = 1 := by
    intro v hv
    rcases List.mem_append.1 hv with hv | hv
    · obtain ⟨w, hw, rfl⟩ := List.mem_map.1 hv
      obtain ⟨i, -, rfl⟩ := List.mem_map.1 hw
      have hb := (C57_lhs (K := ℚ) (fun _ => 0) (fun _ => 1) (criterion m) (draws m) (d m) (hu m) (fun _ => zero_lt_one)).2.1
      have h := C51_kraemer M hM (List.ofFn (sample m i)) (by intro h; have := congrArg List.length h; simp at this; omega) (by
        intro x hx
        obtain ⟨j, rfl⟩ := List.mem_ofFn.1 hx
        exact hb i j)
      exact ⟨by rw [h.1, List.length_ofFn], h.2⟩
    · obtain ⟨i, -, rfl⟩ := List.mem_map.1 hv
      refine ⟨by simp, ?_, by simp [List.sum_ofFn]⟩
      intro x hx
      obtain ⟨j, rfl⟩ := List.mem_ofFn.1 hx
      split_ifs <;> norm_num
  have hlen : r0.length = nPoints := by
    simp [hr0, hcor]
    omega
  set r := (match scaling with | some s => r0.map (scalePoint s) | none => r0) with hr
  have hrl : r.length = nPoints := by cases scaling <;> simp [hr, hlen]
  have hrs : ∀ v ∈ r, v.length = n ∧ v.sum = 1 := by
    cases scaling with
    | none => exact fun v hv => ⟨(hbase v hv).1, (hbase v hv).2.2⟩
    | some s =>
      intro v hv
      obtain ⟨w, hw, rfl⟩ := List.mem_map.1 hv
      obtain ⟨a, b, c⟩ := hbase w hw
      exact ⟨by simp [scalePoint, a], scalePoint_sum s w (by rintro rfl; simp at a; omega) c⟩
  have hrn : (∀ s, scaling = some s → 0 ≤ s ∧ s ≤ 1) → ∀ v ∈ r, ∀ x ∈ v, 0 ≤ x := by
    intro hs
    cases scaling with
    | none => exact fun v hv => (hbase v hv).2.1
    | some s =>
      obtain ⟨s0, s1⟩ := hs s rfl
      intro v hv
      obtain ⟨w, hw, rfl⟩ := List.mem_map.1 hv
      intro x hx
      obtain ⟨y, hy, rfl⟩ := List.mem_map.1 hx
      have hy0 := (hbase w hw).2.1 y hy
      have : 0 ≤ (1 - s) / (w.length : ℚ) := div_nonneg (by linarith) (Nat.cast_nonneg _)
      nlinarith [mul_nonneg hy0 s0]
  have hru : scaling = none → ∀ i : Fin n, (List.ofFn fun j : Fin n => if i = j then (1 : ℚ) else 0) ∈ r := by
    rintro rfl i
    exact List.mem_append_right _ (List.mem_map.2 ⟨i, List.mem_finRange i, rfl⟩)
  have hdo : sampleAndMapDo M n nPoints scaling lex sample = some (if lex then r.insertionSort (· ≤ ·) else r) := by
    rw [sampleAndMapDo, if_neg (by omega), hS, Option.map_some]
    cases scaling <;> rfl
  refine ⟨_, hdo, ?_⟩
  cases lex with
  | false => exact ⟨by simpa using hrl, by simpa using hrs, by simpa using hrn, by simpa using hru, by simp⟩
  | true =>
    simp only [if_true]
    have hp := List.perm_insertionSort (· ≤ ·) r
    refine ⟨by rw [hp.length_eq]; exact hrl, fun v hv => hrs v (hp.mem_iff.1 hv), fun hs v hv => hrn hs v (hp.mem_iff.1 hv),
      fun h0 i => hp.mem_iff.2 (hru h0 i), fun _ => List.pairwise_insertionSort _ r⟩

/-- C153 is false for `RandomSamplingAndMap` when as many points as objectives are asked for: it raises instead of returning the corners.
With one objective a single direction is returned whatever `n_points` is. -/
theorem C153_random_refuted (M : ℚ) (n : ℕ) (hn : 2 ≤ n) (scaling : Option ℚ) (lex : Bool) (sample : (m : ℕ) → Fin m → Fin n → ℚ)
    (sample1 : (m : ℕ) → Fin m → Fin 1 → ℚ) (k : ℕ) :
    sampleAndMapDo M n n scaling lex sample = none ∧ sampleAndMapDo M 1 k scaling lex sample1 = some [[1]] := by
  constructor
  · rw [sampleAndMapDo, if_neg (by omega), sampleAndMap, if_pos le_rfl, Option.map_none]
  · rw [sampleAndMapDo, if_pos rfl]

example : sampleAndMapDo 100 2 4 none true (fun m i j => if (j : ℕ) = 0 then 1 / (i + 4 : ℕ) else 0) =
    some [[0, 1], [1/5, 4/5], [1/4, 3/4], [1, 0]] := by decide +kernel

end Props
