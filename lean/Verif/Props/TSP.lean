import Verif.Spec.Combinatorial
import Verif.Model.Combinatorial
import Mathlib.Data.Rat.Defs
import Mathlib.Algebra.Order.Ring.Rat
import Mathlib.Data.List.GetD
import Mathlib.Data.Fintype.BigOperators
import Mathlib.Analysis.Complex.Basic
import Mathlib.Tactic.Abel
import Mathlib.Tactic.Linarith

/-! # C106: the travelling-salesman problem evaluates the length of the round trip -/

set_option linter.unusedSimpArgs false
set_option linter.unusedVariables false
set_option linter.unusedSectionVars false

namespace Props

open Model Spec

variable {α : Type*} [AddCommGroup α]

/-- A square matrix of distances between `n` cities and a non-empty sequence of cities. -/
structure Route (D : List (List α)) (n : ℕ) (x : List ℕ) : Prop where
  size : D.length = n
  rows : ∀ row ∈ D, row.length = n
  nonempty : x ≠ []
  inRange : ∀ k ∈ x, k < n

/-- The distance between two cities. -/
def cityDist (D : List (List α)) (i j : ℕ) : α := (D.getD i []).getD j 0

theorem matAt_dist {D : List (List α)} {n : ℕ} (hD : D.length = n) (hr : ∀ row ∈ D, row.length = n) {i j : ℕ} (hi : i < n) (hj : j < n) :
    matAt D i j = some (cityDist D i j) := by
  have hi' : i < D.length := by omega
  have : (D[i]).length = n := hr _ (List.getElem_mem _)
  unfold matAt cityDist
  rw [List.getElem?_eq_getElem hi', List.getD_eq_getElem _ _ hi', Option.bind_some, List.getElem?_eq_getElem (by omega : j < (D[i]).length),
    List.getD_eq_getElem _ _ (by omega : j < (D[i]).length)]

/-- The length of an open path. -/
def pathLen (d : ℕ → ℕ → α) : List ℕ → α
  | [] => 0
  | [_] => 0
  | a :: b :: l => d a b + pathLen d (b :: l)

/-- The length of a closed path. -/
def closedLen (d : ℕ → ℕ → α) : List ℕ → α
  | [] => 0
  | a :: l => pathLen d (a :: l ++ [a])

theorem pathLen_append (d : ℕ → ℕ → α) (u v : List ℕ) (a : ℕ) :
    pathLen d (u ++ a :: v) = pathLen d (u ++ [a]) + pathLen d (a :: v) := by
  induction u with
  | nil => simp [pathLen]
  | cons b u ih =>
    cases u with
    | nil => simp [pathLen]
    | cons c u => simp only [List.cons_append, pathLen] at ih ⊢; rw [ih]; abel

theorem pathLen_sum (d : ℕ → ℕ → α) (x : List ℕ) :
    pathLen d x = ∑ k ∈ Finset.range (x.length - 1), d (x.getD k 0) (x.getD (k + 1) 0) := by
  induction x with
  | nil => simp [pathLen]
  | cons a x ih =>
    cases x with
    | nil => simp [pathLen]
    | cons b x =>
      simp only [pathLen, List.length_cons, Nat.add_sub_cancel] at ih ⊢
      rw [Finset.sum_range_succ', ih, add_comm]
      rfl

theorem closedLen_last (d : ℕ → ℕ → α) (x : List ℕ) (hx : x ≠ []) :
    closedLen d x = pathLen d x + d (x.getD (x.length - 1) 0) (x.getD 0 0) := by
  cases x with
  | nil => exact absurd rfl hx
  | cons a l =>
    have : a :: l = (a :: l).dropLast ++ [(a :: l).getLast hx] := (List.dropLast_append_getLast hx).symm
    have hb : (a :: l).getD ((a :: l).length - 1) 0 = (a :: l).getLast hx := by
      rw [List.getD_eq_getElem _ _ (by simp), List.getLast_eq_getElem hx]
    rw [hb]
    have h0 : (a :: l).getD 0 0 = a := rfl
    rw [h0, closedLen]
    generalize (a :: l).getLast hx = b at this ⊢
    rw [this, List.append_assoc, List.singleton_append, pathLen_append]
    simp [pathLen]

theorem roundTrip_closed (d : ℕ → ℕ → α) (x : List ℕ) : roundTrip d x = closedLen d x := by
  by_cases hx : x = []
  · subst hx; simp [roundTrip, closedLen]
  have hl : 0 < x.length := List.length_pos_iff.2 hx
  have : roundTrip d x = ∑ k ∈ Finset.range x.length, d (x.getD k 0) (x.getD ((k + 1) % x.length) 0) := by
    unfold roundTrip
    rw [Finset.sum_range]
    refine Finset.sum_congr rfl fun k _ => ?_
    rw [List.getD_eq_getElem _ _ k.2, List.getD_eq_getElem _ _ (Nat.mod_lt _ hl)]
    rfl
  rw [this, closedLen_last d x hx, pathLen_sum]
  obtain ⟨m, hm⟩ : ∃ m, x.length = m + 1 := ⟨x.length - 1, by omega⟩
  rw [hm, Finset.sum_range_succ, Nat.add_sub_cancel]
  congr 1
  · refine Finset.sum_congr rfl fun k hk => ?_
    rw [Nat.mod_eq_of_lt (by have := Finset.mem_range.1 hk; omega)]
  · rw [Nat.mod_self]

/-- **C106 (value).** The objective value is the sum of the distances between consecutive cities, including the way back. -/
theorem C106_value (D : List (List α)) (n : ℕ) (x : List ℕ) (h : Route D n x) :
    routeLength D x = some (roundTrip (cityDist D) x) := by
  have hl : 0 < x.length := List.length_pos_iff.2 h.nonempty
  have hx : ∀ k, k < x.length → x[k]? = some (x.getD k 0) ∧ x.getD k 0 < n := by
    intro k hk
    rw [List.getD_eq_getElem _ _ hk, List.getElem?_eq_getElem hk]
    exact ⟨rfl, h.inRange _ (List.getElem_mem _)⟩
  have fold : ∀ m, m ≤ x.length - 1 → (List.range m).foldlM (fun (dist : α) (k : ℕ) =>
      x[k]?.bind fun i => x[k + 1]?.bind fun j => (matAt D i j).map fun d => dist + d) 0 =
      some (∑ k ∈ Finset.range m, cityDist D (x.getD k 0) (x.getD (k + 1) 0)) := by
    intro m
    induction m with
    | zero => intro _; simp
    | succ m ih =>
      intro hm
      rw [List.range_succ, List.foldlM_append, ih (by omega)]
      simp only [List.foldlM_cons, List.foldlM_nil, Option.bind_eq_bind, Option.bind_some, Option.pure_def]
      rw [(hx m (by omega)).1, (hx (m + 1) (by omega)).1]
      simp only [Option.bind_some]
      rw [matAt_dist h.size h.rows (hx m (by omega)).2 (hx (m + 1) (by omega)).2, Finset.sum_range_succ]
      rfl
  unfold routeLength
  rw [fold _ (le_refl _), Option.bind_some, List.getLast?_eq_getElem?, (hx (x.length - 1) (by omega)).1, (hx 0 hl).1, Option.bind_some,
    Option.bind_some, matAt_dist h.size h.rows (hx (x.length - 1) (by omega)).2 (hx 0 hl).2, roundTrip_closed, closedLen_last _ _ h.nonempty,
    pathLen_sum]
  rfl

theorem closedLen_rotate1 (d : ℕ → ℕ → α) (a : ℕ) (l : List ℕ) : closedLen d (l ++ [a]) = closedLen d (a :: l) := by
  cases l with
  | nil => rfl
  | cons b l =>
    simp only [List.cons_append, closedLen, pathLen]
    have := pathLen_append d (b :: l) [b] a
    simp only [List.cons_append, pathLen, add_zero] at this
    rw [List.append_assoc, List.singleton_append, this, add_comm]

theorem closedLen_rotate (d : ℕ → ℕ → α) (x : List ℕ) (k : ℕ) : closedLen d (x.rotate k) = closedLen d x := by
  induction k generalizing x with
  | zero => simp
  | succ k ih =>
    cases x with
    | nil => simp
    | cons a l => rw [List.rotate_cons_succ, ih, closedLen_rotate1]

theorem closedLen_swap (d : ℕ → ℕ → α) (u v : List ℕ) : closedLen d (u ++ v) = closedLen d (v ++ u) := by
  rw [← closedLen_rotate d (u ++ v) u.length, List.rotate_append_length_eq]

/-- **C106 (start).** The starting city does not matter. -/
theorem C106_rotation (D : List (List α)) (n : ℕ) (x : List ℕ) (h : Route D n x) (k : ℕ) :
    routeLength D (x.rotate k) = routeLength D x := by
  have h' : Route D n (x.rotate k) := ⟨h.size, h.rows, by simpa using h.nonempty, fun i hi => h.inRange i (by simpa using hi)⟩
  rw [C106_value D n x h, C106_value D n _ h', roundTrip_closed, roundTrip_closed, closedLen_rotate]

theorem pathLen_reverse (d : ℕ → ℕ → α) (x : List ℕ) (hs : ∀ i ∈ x, ∀ j ∈ x, d i j = d j i) : pathLen d x.reverse = pathLen d x := by
  induction x with
  | nil => rfl
  | cons a l ih =>
    cases l with
    | nil => rfl
    | cons b l =>
      rw [List.reverse_cons, List.reverse_cons, List.append_assoc, List.singleton_append, pathLen_append, ← List.reverse_cons,
        ih fun i hi j hj => hs i (List.mem_cons_of_mem _ hi) j (List.mem_cons_of_mem _ hj)]
      simp only [pathLen, add_zero]
      rw [hs b (by simp) a (by simp), add_comm]

theorem closedLen_reverse (d : ℕ → ℕ → α) (x : List ℕ) (hs : ∀ i ∈ x, ∀ j ∈ x, d i j = d j i) : closedLen d x.reverse = closedLen d x := by
  cases x with
  | nil => rfl
  | cons a l =>
    rw [List.reverse_cons, closedLen_rotate1]
    rw [closedLen, closedLen, ← pathLen_reverse d (a :: l ++ [a])]
    · simp
    · intro i hi j hj
      exact hs i (by simpa [or_comm, or_assoc] using hi) j (by simpa [or_comm, or_assoc] using hj)

/-- The distances do not depend on the direction. -/
def SymmetricDist (D : List (List α)) (n : ℕ) : Prop := ∀ i < n, ∀ j < n, cityDist D i j = cityDist D j i

/-- **C106 (direction).** With symmetric distances the direction of the trip does not matter. -/
theorem C106_reverse (D : List (List α)) (n : ℕ) (x : List ℕ) (h : Route D n x) (hs : SymmetricDist D n) :
    routeLength D x.reverse = routeLength D x := by
  have h' : Route D n x.reverse := ⟨h.size, h.rows, by simpa using h.nonempty, fun i hi => h.inRange i (by simpa using hi)⟩
  rw [C106_value D n x h, C106_value D n _ h', roundTrip_closed, roundTrip_closed, closedLen_reverse]
  exact fun i hi j hj => hs i (h.inRange i hi) j (h.inRange j hj)

/-- **C106 (inversion).** Inverting a segment `s … t` between the cities `u` and `v` (what the inversion mutation does) exchanges two
connections and leaves the rest of the length as it is. -/
theorem C106_inversion (D : List (List α)) (n : ℕ) (p q m : List ℕ) (u s t v : ℕ) (hs : SymmetricDist D n)
    (h : Route D n (p ++ u :: s :: m ++ t :: v :: q)) :
    ∃ before after, routeLength D (p ++ u :: s :: m ++ t :: v :: q) = some before ∧
      routeLength D (p ++ u :: t :: m.reverse ++ s :: v :: q) = some after ∧
      after + cityDist D u s + cityDist D t v = before + cityDist D u t + cityDist D s v := by
  have h' : Route D n (p ++ u :: t :: m.reverse ++ s :: v :: q) := by
    refine ⟨h.size, h.rows, by simp, fun i hi => h.inRange i ?_⟩
    simp only [List.mem_append, List.mem_cons, List.mem_reverse] at hi ⊢
    tauto
  refine ⟨_, _, C106_value D n _ h, C106_value D n _ h', ?_⟩
  rw [roundTrip_closed, roundTrip_closed]
  set d := cityDist D
  have key : ∀ (a b : ℕ) (w : List ℕ), closedLen d (p ++ u :: a :: w ++ b :: v :: q) =
      d u a + pathLen d (a :: w ++ [b]) + d b v + pathLen d (v :: q ++ p ++ [u]) := by
    intro a b w
    have e : p ++ u :: a :: w ++ b :: v :: q = (p ++ [u]) ++ (a :: w ++ b :: v :: q) := by simp
    rw [e, closedLen_swap]
    have e2 : a :: w ++ b :: v :: q ++ (p ++ [u]) = (a :: w ++ b :: v :: q ++ p) ++ [u] := by simp
    rw [e2, closedLen_rotate1]
    simp only [closedLen, List.cons_append, pathLen]
    have := pathLen_append d (a :: w) (v :: (q ++ p ++ [u])) b
    simp only [List.cons_append, List.append_assoc, pathLen] at this ⊢
    rw [this]; abel
  rw [key, key]
  have hseg : pathLen d (t :: m.reverse ++ [s]) = pathLen d (s :: m ++ [t]) := by
    rw [← pathLen_reverse d (s :: m ++ [t])]
    · simp
    · intro i hi j hj
      refine hs i (h.inRange i ?_) j (h.inRange j ?_)
      · simp only [List.mem_append, List.mem_cons, List.not_mem_nil, or_false] at hi ⊢; tauto
      · simp only [List.mem_append, List.mem_cons, List.not_mem_nil, or_false] at hj ⊢; tauto
  rw [hseg]; abel

section Order

variable [LinearOrder α] [IsOrderedAddMonoid α]

/-- Distances of a (pseudo-)metric: zero to itself, symmetric, with the triangle inequality. -/
structure MetricDist (D : List (List α)) (n : ℕ) : Prop where
  self : ∀ i < n, cityDist D i i = 0
  symm : SymmetricDist D n
  triangle : ∀ i < n, ∀ j < n, ∀ k < n, cityDist D i k ≤ cityDist D i j + cityDist D j k

theorem pathLen_direct {D : List (List α)} {n : ℕ} (h : MetricDist D n) (a b : ℕ) (l : List ℕ) (ha : a < n) (hb : b < n)
    (hl : ∀ i ∈ l, i < n) : cityDist D a b ≤ pathLen (cityDist D) (a :: l ++ [b]) := by
  induction l generalizing a with
  | nil => simp [pathLen]
  | cons c l ih =>
    simp only [List.cons_append, pathLen]
    have hc := hl c (List.mem_cons_self ..)
    exact le_trans (h.triangle a ha c hc b hb) (add_le_add_right (ih c hc fun i hi => hl i (List.mem_cons_of_mem _ hi)) _)

/-- **C106 (detour).** With a metric, leaving a city out never makes the trip longer. -/
theorem C106_detour (D : List (List α)) (n : ℕ) (u v : List ℕ) (c : ℕ) (h : Route D n (u ++ c :: v)) (hm : MetricDist D n) (hne : u ++ v ≠ []) :
    ∃ long short, routeLength D (u ++ c :: v) = some long ∧ routeLength D (u ++ v) = some short ∧ short ≤ long := by
  have h' : Route D n (u ++ v) := ⟨h.size, h.rows, hne, fun i hi => h.inRange i (by
    rw [List.mem_append] at hi; rw [List.mem_append]; exact hi.imp id (List.mem_cons_of_mem _))⟩
  refine ⟨_, _, C106_value D n _ h, C106_value D n _ h', ?_⟩
  rw [roundTrip_closed, roundTrip_closed, closedLen_swap, closedLen_swap _ u (c :: v), List.cons_append]
  have hin : ∀ i ∈ v ++ u, i < n := fun i hi => h'.inRange i (by
    rw [List.mem_append] at hi ⊢; exact hi.symm)
  have hc : c < n := h.inRange c (by simp)
  have hw : v ++ u ≠ [] := by simpa [and_comm] using hne
  generalize v ++ u = w at hin hw
  cases w with
  | nil => exact absurd rfl hw
  | cons a l =>
    have ha : a < n := hin a (by simp)
    rw [← closedLen_rotate1 _ c (a :: l)]
    simp only [closedLen, List.cons_append]
    -- both start at a; the last leg of the shorter trip is replaced by a detour
    rcases List.eq_nil_or_concat l with rfl | ⟨l', b, rfl⟩
    · simp only [List.nil_append, List.cons_append, pathLen, add_zero]
      exact hm.triangle a ha c hc a ha
    · have hb : b < n := hin b (by simp)
      have e1 := pathLen_append (cityDist D) (a :: l') [a] b
      have e2 := pathLen_append (cityDist D) (a :: l') [c, a] b
      simp only [List.cons_append, pathLen, add_zero, List.append_assoc, List.nil_append, List.concat_eq_append] at e1 e2 ⊢
      rw [e1, e2]
      exact add_le_add_right (hm.triangle b hb c hc a ha) _

/-- **C106 (lower bound).** With a metric, a round trip through two cities is at least twice as long as their distance. -/
theorem C106_lower_bound (D : List (List α)) (n : ℕ) (x : List ℕ) (h : Route D n x) (hm : MetricDist D n) (i j : ℕ) (hi : i ∈ x) (hj : j ∈ x)
    (len : α) (hl : routeLength D x = some len) : cityDist D i j + cityDist D i j ≤ len := by
  rw [C106_value D n x h, Option.some.injEq, roundTrip_closed] at hl
  subst hl
  obtain ⟨u, v, rfl⟩ := List.append_of_mem hi
  have hin := h.inRange
  have hi' := hin i hi
  have hj' := hin j hj
  rw [closedLen_swap, List.cons_append]
  have hj2 : j = i ∨ j ∈ v ++ u := by
    simp only [List.mem_append, List.mem_cons] at hj ⊢; tauto
  have hw : ∀ k ∈ v ++ u, k < n := fun k hk => hin k (by simp only [List.mem_append, List.mem_cons] at hk ⊢; tauto)
  generalize v ++ u = w at hj2 hw
  rcases hj2 with rfl | hj2
  · have e : cityDist D j j ≤ closedLen (cityDist D) (j :: w) := pathLen_direct hm j j w hj' hj' hw
    rw [hm.self j hj'] at e ⊢
    simpa using e
  · obtain ⟨w1, w2, rfl⟩ := List.append_of_mem hj2
    simp only [closedLen]
    have e := pathLen_append (cityDist D) (i :: w1) (w2 ++ [i]) j
    simp only [List.cons_append, List.append_assoc] at e ⊢
    rw [e]
    refine add_le_add (pathLen_direct hm i j w1 hi' hj' fun k hk => hw k (by simp [hk])) ?_
    rw [hm.symm i hi' j hj']
    exact pathLen_direct hm j i w2 hj' hi' fun k hk => hw k (by simp [hk])

end Order

/-- **C106 (cities in the plane).** The distances `TravelingSalesman` computes from the coordinates are those of a metric, and the
objective of every sequence of cities is the Euclidean length of the round trip. -/
theorem C106_euclidean (cities : List (ℝ × ℝ)) :
    MetricDist (cdist2 cities) cities.length ∧ ∀ x, x ≠ [] → (∀ k ∈ x, k < cities.length) →
      Route (cdist2 cities) cities.length x ∧
      routeLength (cdist2 cities) x = some (roundTrip (fun i j => √(((cities.getD i 0).1 - (cities.getD j 0).1) ^ 2 +
        ((cities.getD i 0).2 - (cities.getD j 0).2) ^ 2)) x) := by
  have hd : ∀ i < cities.length, ∀ j < cities.length, cityDist (cdist2 cities) i j =
      √(((cities.getD i 0).1 - (cities.getD j 0).1) ^ 2 + ((cities.getD i 0).2 - (cities.getD j 0).2) ^ 2) := by
    intro i hi j hj
    unfold cityDist cdist2
    rw [List.getD_eq_getElem cities 0 hi, List.getD_eq_getElem cities 0 hj]
    simp [List.getD_eq_getElem?_getD, List.getElem?_map, List.getElem?_eq_getElem hi, List.getElem?_eq_getElem hj]
  have hc : ∀ i < cities.length, ∀ j < cities.length, cityDist (cdist2 cities) i j =
      dist (⟨(cities.getD i 0).1, (cities.getD i 0).2⟩ : ℂ) ⟨(cities.getD j 0).1, (cities.getD j 0).2⟩ := by
    intro i hi j hj
    rw [hd i hi j hj, Complex.dist_eq_re_im]
  refine ⟨⟨?_, ?_, ?_⟩, ?_⟩
  · intro i hi; rw [hc i hi i hi, dist_self]
  · intro i hi j hj; rw [hc i hi j hj, hc j hj i hi, dist_comm]
  · intro i hi j hj k hk; rw [hc i hi k hk, hc i hi j hj, hc j hj k hk]; exact dist_triangle _ _ _
  · intro x hx hr
    have hR : Route (cdist2 cities) cities.length x := ⟨by simp [cdist2], by
      intro row hrow
      obtain ⟨a, -, rfl⟩ := List.mem_map.1 hrow
      simp, hx, hr⟩
    refine ⟨hR, ?_⟩
    rw [C106_value _ _ _ hR, Option.some.injEq]
    unfold roundTrip
    refine Finset.sum_congr rfl fun k _ => ?_
    exact hd _ (hr _ (List.get_mem _ _)) _ (hr _ (List.get_mem _ _))

/-- Four cities on a line. -/
def exCities : List (List ℚ) := [[0, 1, 3, 6], [1, 0, 2, 5], [3, 2, 0, 3], [6, 5, 3, 0]]

example : Route exCities 4 [2, 0, 3, 1] ∧ MetricDist exCities 4 ∧ routeLength exCities [2, 0, 3, 1] = some 16 ∧
    routeLength exCities [0, 1, 2, 3] = some 12 :=
  ⟨⟨by decide, by decide, by decide, by decide⟩, ⟨by decide +kernel, by unfold SymmetricDist; decide +kernel, by decide +kernel⟩,
    by decide +kernel, by decide +kernel⟩

/-- **C106 (declared bounds, refuted).** The number of cities itself is within the bounds declared for the variables, but it is not a
city: evaluating it raises. -/
theorem C106_bounds_refuted : ∃ (D : List (List ℚ)) (n : ℕ) (x : List ℕ), D.length = n ∧ (∀ row ∈ D, row.length = n) ∧ x.length = n ∧
    x.Nodup ∧ (∀ k ∈ x, (tspBounds n).1 ≤ k ∧ k ≤ (tspBounds n).2) ∧ routeLength D x = none :=
  ⟨exCities, 4, [1, 4, 2, 3], by decide, by decide, by decide, by decide, by decide, by decide +kernel⟩

end Props
