import Verif.Props.EnergySolve
import Verif.Model.RefDirs
import Verif.Props.RefDirs
import Verif.Props.Simplex

/-!
# C118, continued: k-means, construction, layers, reference points
-/

set_option linter.unusedSimpArgs false
set_option linter.unusedVariables false
set_option linter.unusedSectionVars false

namespace Props
open Model Finset

variable {N k d : ℕ}

/-- The mean of points of the simplex is on the simplex. -/
theorem mean_simplex {X : Fin N → Fin d → ℝ} (hX : ∀ i, OnSimplex (X i)) (M : Finset (Fin N)) (hM : M ≠ ∅) :
    OnSimplex fun c => (∑ i ∈ M, X i c) / M.card := by
  have hc : (0:ℝ) < M.card := by exact_mod_cast card_pos.2 (nonempty_iff_ne_empty.2 hM)
  refine ⟨fun c => div_nonneg (sum_nonneg fun i _ => (hX i).1 c) hc.le, ?_⟩
  rw [← sum_div, sum_comm, sum_congr rfl fun i _ => (hX i).2]
  simp [hc.ne']

open Classical in
theorem kmStep_spec (near : (Fin k → Fin d → ℝ) → Fin N → Fin k) (X : Fin N → Fin d → ℝ) (nIgnore : ℕ) (C : Fin k → Fin d → ℝ)
    (hX : ∀ i, OnSimplex (X i)) (hC : ∀ j, OnSimplex (C j)) :
    (∀ C', kmStep near X nIgnore C = some C' → (∀ j, OnSimplex (C' j)) ∧ (∀ j, j.val < nIgnore → C' j = C j)) ∧
    ((∃ C', kmStep near X nIgnore C = some C') ↔ ∀ j, nIgnore ≤ j.val → ∃ i, near C i = j) := by
  unfold kmStep
  simp only []
  have hrow : ∀ j, (nIgnore ≤ j.val → ∃ i, near C i = j) → ∃ y, ((if j.val < nIgnore then some (C j)
      else if (univ.filter fun i => near C i = j) = ∅ then none
      else some fun c => (∑ i ∈ univ.filter fun i => near C i = j, X i c) / (univ.filter fun i => near C i = j).card).bind
        fun x => (spxProject x).bind rowNorm) = some y ∧ OnSimplex y ∧ (j.val < nIgnore → y = C j) := by
    intro j hj
    by_cases h : j.val < nIgnore
    · rw [if_pos h, Option.bind_some, simplex_fix (hC j)]
      exact ⟨_, rfl, hC j, fun _ => rfl⟩
    · obtain ⟨i, hi⟩ := hj (not_lt.1 h)
      have hne : (univ.filter fun i => near C i = j) ≠ ∅ := ne_empty_of_mem (a := i) (by simp [hi])
      rw [if_neg h, if_neg hne, Option.bind_some, simplex_fix (mean_simplex hX _ hne)]
      exact ⟨_, rfl, mean_simplex hX _ hne, fun h' => absurd h' h⟩
  have hnec : ∀ C', (allRows fun j => (if j.val < nIgnore then some (C j)
      else if (univ.filter fun i => near C i = j) = ∅ then none
      else some fun c => (∑ i ∈ univ.filter fun i => near C i = j, X i c) / (univ.filter fun i => near C i = j).card).bind
        fun x => (spxProject x).bind rowNorm) = some C' → ∀ j, nIgnore ≤ j.val → ∃ i, near C i = j := by
    intro C' h j hj
    have := allRows_some.1 h j
    rw [if_neg (not_lt.2 hj)] at this
    by_contra hc
    push Not at hc
    have he : (univ.filter fun i => near C i = j) = ∅ := filter_eq_empty_iff.2 fun i _ => hc i
    rw [if_pos he] at this
    simp at this
  constructor
  · intro C' h
    have hn := hnec C' h
    have hall := allRows_some.1 h
    refine ⟨fun j => ?_, fun j hj => ?_⟩
    · obtain ⟨y, hy, hs, _⟩ := hrow j (hn j)
      rw [hall j] at hy
      rw [Option.some.inj hy]; exact hs
    · obtain ⟨y, hy, _, he⟩ := hrow j (hn j)
      rw [hall j] at hy
      rw [Option.some.inj hy]; exact he hj
  · constructor
    · rintro ⟨C', h⟩; exact hnec C' h
    · intro h
      obtain ⟨g, hg, _⟩ := allRows_exists (P := fun _ _ => True) fun j => (hrow j (h j)).imp fun y hy => ⟨hy.1, trivial⟩
      exact ⟨g, hg⟩

/-- C118: k-means on points of the simplex ends, after any number of iterations, with centroids on the simplex, and does not move the first (edge)
centroids - unless NaN appears. -/
theorem C118_kmeans (near : (Fin k → Fin d → ℝ) → Fin N → Fin k) (X : Fin N → Fin d → ℝ) (nIgnore : ℕ) (tol : ℝ) (hX : ∀ i, OnSimplex (X i)) :
    ∀ (it : ℕ) (C R : Fin k → Fin d → ℝ), (∀ j, OnSimplex (C j)) → kmeansLoop near X nIgnore tol it C = some R →
    (∀ j, OnSimplex (R j)) ∧ ∀ j, j.val < nIgnore → R j = C j := by
  classical
  intro it
  induction it with
  | zero =>
    intro C R hC h
    obtain rfl : C = R := by simpa [kmeansLoop] using h
    exact ⟨hC, fun _ _ => rfl⟩
  | succ it ih =>
    intro C R hC h
    rw [kmeansLoop] at h
    obtain ⟨C', hC', h⟩ := Option.bind_eq_some_iff.1 h
    obtain ⟨h1, h2⟩ := (kmStep_spec near X nIgnore C hX hC).1 C' hC'
    split_ifs at h with hd
    · obtain rfl : C' = R := by simpa using h
      exact ⟨h1, h2⟩
    · obtain ⟨h3, h4⟩ := ih C' R h1 h
      exact ⟨h3, fun j hj => (h4 j hj).trans (h2 j hj)⟩

/-- C118: the factory "reduction" returns points of the simplex; the edge points are among them. -/
theorem C118_reduction (near : (Fin k → Fin d → ℝ) → Fin N → Fin k) (X : Fin N → Fin d → ℝ) (nEdges : ℕ) (sel : Fin k → Fin N) (km : Bool) (maxIter : ℕ)
    (tol : ℝ) (hX : ∀ i, OnSimplex (X i)) (R : Fin k → Fin d → ℝ) (h : redDo near X nEdges sel km maxIter tol = some R) :
    (∀ j, OnSimplex (R j)) ∧ ∀ j, j.val < nEdges → R j = X (sel j) := by
  unfold redDo at h
  split_ifs at h with hk
  · exact C118_kmeans near X nEdges tol hX maxIter _ R (fun j => hX _) h
  · obtain rfl := Option.some.inj h
    exact ⟨fun j => hX _, fun _ _ => rfl⟩

/-- `argmin` of the distances: a nearest centroid, the first of them. -/
def FirstNearest (X : Fin N → Fin d → ℝ) (near : (Fin k → Fin d → ℝ) → Fin N → Fin k) : Prop :=
  ∀ C i j, sqDist (X i) (C (near C i)) ≤ sqDist (X i) (C j) ∧ (j < near C i → sqDist (X i) (C (near C i)) < sqDist (X i) (C j))

/-- C118 is violated when a point was selected twice (which `select_points_with_maximum_distance` does, C52): the second copy has no points, its mean is
NaN. -/
theorem C118_kmeans_refuted (near : (Fin k → Fin d → ℝ) → Fin N → Fin k) (X : Fin N → Fin d → ℝ) (nIgnore it : ℕ) (tol : ℝ) (hn : FirstNearest X near)
    (hX : ∀ i, OnSimplex (X i)) (C : Fin k → Fin d → ℝ) (hC : ∀ j, OnSimplex (C j)) (a b : Fin k) (hab : a < b) (hb : nIgnore ≤ b.val)
    (he : C a = C b) : kmeansLoop near X nIgnore tol (it + 1) C = none := by
  classical
  have : kmStep near X nIgnore C = none := by
    cases h : kmStep near X nIgnore C with
    | none => rfl
    | some C' =>
      obtain ⟨i, hi⟩ := (kmStep_spec near X nIgnore C hX hC).2.1 ⟨C', h⟩ b hb
      have := (hn C i a).2 (by rw [hi]; exact hab)
      rw [hi, he] at this
      exact absurd this (lt_irrefl _)
  rw [kmeansLoop, this]; rfl

/-- Such a selection: two edge points, two sampled points, four points asked for; the first edge point is selected twice whatever was sampled. -/
theorem C118_reduction_refuted (D : ℕ → ℕ → ℚ) (h0 : D 0 0 = 0) (h1 : D 1 1 = 0) (hn : ∀ i j, 0 ≤ D i j) :
    ∃ a, selectMaxDist D 4 4 [0, 1] = [0, 1, a, 0] := by
  have hr : (List.range 4).filter (fun i => i ∉ [0, 1]) = [2, 3] := by decide
  have ham : ∀ x y : ℚ, argmaxFirst [x, y] = if x < y then 1 else 0 := by
    intro x y; simp only [argmaxFirst, List.zipIdx_cons, List.zipIdx_nil, List.foldl_cons, List.foldl_nil, List.headD_cons, lt_irrefl, if_false]
    split_ifs <;> rfl
  have hm : ∀ i, ((([0, 1] : List ℕ).map fun j => D i j).min?).getD 0 = min (D i 0) (D i 1) := fun i => by simp [List.min?_cons']
  have m0 : min (D 0 0) (D 0 1) = 0 := by rw [h0]; exact min_eq_left (hn _ _)
  have m1 : min (D 1 0) (D 1 1) = 0 := by rw [h1]; exact min_eq_right (hn _ _)
  have h2 : ∀ (I : ℕ) (dist : ℕ → ℚ), dist 0 = 0 → dist 1 = 0 →
      argmaxFirst ([0, 1].map fun i => if D I i < dist i then D I i else dist i) = 0 := by
    intro I dist e0 e1
    simp only [List.map_cons, List.map_nil, e0, e1, if_neg (not_lt.2 (hn _ _))]
    rw [ham]; simp
  have key : ∀ dist : ℕ → ℚ, dist 0 = 0 → dist 1 = 0 → ∃ a, maxDistLoop D 2 [0, 1] [2, 3] dist = [0, 1, a, 0] := by
    intro dist e0 e1
    have hp : argmaxFirst ([2, 3].map dist) = 0 ∨ argmaxFirst ([2, 3].map dist) = 1 := by
      simp only [List.map_cons, List.map_nil, ham]; split_ifs <;> simp
    rw [maxDistLoop]
    rcases hp with hp | hp
    · rw [hp]
      have hz : (([2, 3] : List ℕ).zipIdx.filter fun e => decide (e.1 ≠ 0)).map Prod.snd = [0, 1] := by decide
      rw [hz, maxDistLoop]
      rw [h2 _ dist e0 e1]
      exact ⟨_, rfl⟩
    · rw [hp]
      have hz : (([2, 3] : List ℕ).zipIdx.filter fun e => decide (e.1 ≠ 1)).map Prod.snd = [0, 1] := by decide
      rw [hz, maxDistLoop]
      rw [h2 _ dist e0 e1]
      exact ⟨_, rfl⟩
  unfold selectMaxDist
  rw [hr]
  exact key _ ((hm 0).trans m0) ((hm 1).trans m1)

/-- The edge points of "reduction" (`reduction.py:122-125`). -/
def redEdges (fuel nPoints nDim : ℕ) : Option (List (List ℚ)) :=
  (partitionClosest fuel nPoints nDim).map fun p => (uniformDo p nDim none true).filter fun x => x.any (· = 0)


theorem uniform_has_unit (p n : ℕ) (hp : 0 < p) (hn : 2 ≤ n) : ∃ x ∈ uniformDo p n none true, x.any (· = 0) = true := by
  obtain ⟨n, rfl⟩ : ∃ m, n = m + 2 := ⟨n - 2, by omega⟩
  have hmem : ∃ x ∈ dasDennis p (n + 2), (0:ℚ) ∈ x := by
    have hrec : ∀ (m beta : ℕ) (pre : List ℚ), ∃ x ∈ ddRec p m beta pre, pre <+: x := by
      intro m
      induction m with
      | zero => intro beta pre; exact ⟨pre ++ [(beta : ℚ) / p], by simp [ddRec], List.prefix_append _ _⟩
      | succ m ih =>
        intro beta pre
        obtain ⟨x, hx, hpre⟩ := ih beta (pre ++ [((0:ℕ) : ℚ) / p])
        refine ⟨x, ?_, (List.prefix_append _ _).trans hpre⟩
        rw [ddRec]
        exact List.mem_flatMap.2 ⟨0, by simp, by simpa using hx⟩
    obtain ⟨x, hx, hpre⟩ := hrec n p [((0:ℕ) : ℚ) / p]
    refine ⟨x, ?_, hpre.subset (by simp)⟩
    rw [dasDennis, if_neg (by omega), show n + 2 - 1 = n + 1 by omega, ddRec]
    exact List.mem_flatMap.2 ⟨0, by simp, by simpa using hx⟩
  obtain ⟨x, hx, h0⟩ := hmem
  refine ⟨x, ?_, by simpa using h0⟩
  simp only [uniformDo, if_neg (show ¬ n + 2 = 1 by omega), if_true]
  exact (List.mem_insertionSort _).2 hx

/-- C118: the number of points: "reduction" starts with edge points that are not more than asked for and adds points up to the number asked for; they
exist exactly if at least as many points as objectives are asked for. -/
theorem C118_edges (fuel nPoints n : ℕ) (hn : 2 ≤ n) (hk : 1 ≤ nPoints) (hf : nPoints < fuel) :
    ∃ E, redEdges fuel nPoints n = some E ∧ E.length ≤ nPoints ∧ (E ≠ [] ↔ n ≤ nPoints) ∧
      ∀ (D : ℕ → ℕ → ℚ) (N : ℕ), (selectMaxDist D N nPoints (List.range E.length)).length = nPoints := by
  obtain ⟨p, h1, h2, h3⟩ := C30_closest fuel nPoints n hn hk hf
  have hlen : ((uniformDo p n none true).filter fun x => x.any (· = 0)).length ≤ nPoints := by
    refine (List.length_filter_le _ _).trans ?_
    rcases Nat.eq_zero_or_pos p with rfl | hp
    · simp [uniformDo, if_neg (show ¬ n = 1 by omega), dasDennis]; exact hk
    · rw [(C29_factory p n hp (by omega) none (by simp) true).1]; exact h2
  refine ⟨_, by rw [redEdges, h1]; rfl, hlen, ?_, fun D N => (C52_length_partial D N nPoints _ (by simpa using hlen)).1⟩
  constructor
  · intro hE
    by_contra hlt
    have hp : p = 0 := by
      by_contra hp0
      have := (numUniform_strictMono n hn).monotone (show 1 ≤ p by omega)
      have e1 : numUniform 1 n = n := by simp [numUniform]
      omega
    subst hp
    apply hE
    have hn0 : (n:ℚ) ≠ 0 := by exact_mod_cast (by omega : n ≠ 0)
    simp [uniformDo, if_neg (show ¬ n = 1 by omega), dasDennis, hn0]
  · intro hle
    have hp : 0 < p := h3 1 (by simpa [numUniform] using hle)
    obtain ⟨x, hx, h0⟩ := uniform_has_unit p n hp hn
    exact List.ne_nil_of_mem (List.mem_filter.2 ⟨hx, h0⟩)

/-- C118 is violated with fewer points than objectives: there is no edge point, and the random first choice is made with a generator that is `None`. -/
theorem C118_few_points_refuted (n : ℕ) (hn : 3 ≤ n) : redEdges n (n - 1) n = some [] := by
  obtain ⟨E, h, _, he, _⟩ := C118_edges n (n - 1) n (by omega) (by omega) (by omega)
  rw [h]
  by_contra hc
  have : E ≠ [] := fun h => hc (by rw [h])
  have := he.1 this
  omega

/-! ### Construction -/

theorem conDescent_spec {q : ℕ} (near : (Fin d → ℝ) → Fin q) (X : Fin q → Fin d → ℝ) : ∀ (it : ℕ) (st : AdamSt 1 d) (x : Fin d → ℝ), OnSimplex x →
    AdamOk st → 0 ≤ st.alpha → st.alpha ≤ 0.01 →
    (∀ r, conDescent near X it st x = some r → OnSimplex r) ∧ (d ≤ 13 → ∃ r, conDescent near X it st x = some r) := by
  classical
  intro it
  induction it with
  | zero =>
    intro st x hx _ _ _
    exact ⟨fun r h => by obtain rfl : x = r := by simpa [conDescent] using h
                         exact hx, fun _ => ⟨_, rfl⟩⟩
  | succ it ih =>
    intro st x hx hok h0 h1
    obtain ⟨ha, hal, hmove⟩ := C118_adam_step st hok h0 (fun _ => x) fun _ => prjZero (conGrad near X x)
    constructor
    · intro r h
      rw [conDescent] at h
      obtain ⟨x', hx', h⟩ := Option.bind_eq_some_iff.1 h
      have hs := project_norm_inv hx'
      split_ifs at h
      · rw [← Option.some.inj h]; exact hs
      · exact (ih _ x' hs ha (by rw [hal]; exact h0) (by rw [hal]; exact h1)).1 r h
    · intro hd
      obtain ⟨k, hk⟩ := simplex_large hx
      have hd0 : 0 < d := by have := k.2; omega
      have h13 : (1:ℝ) / 13 ≤ 1 / d := one_div_le_one_div_of_le (by exact_mod_cast hd0) (by exact_mod_cast hd)
      obtain ⟨x', hx', hs⟩ := project_norm (x := (adamNext st (fun _ => x) fun _ => prjZero (conGrad near X x)).2 0) ⟨k, by
        have h2 := (abs_le.1 (hmove 0 k)).1
        have : (7.3:ℝ) * 0.01 < 1 / 13 := by norm_num
        linarith⟩
      rw [conDescent]
      rw [hx', Option.bind_some]
      split_ifs
      · exact ⟨_, rfl⟩
      · exact (ih _ x' hs ha (by rw [hal]; exact h0) (by rw [hal]; exact h1)).2 hd

theorem single_simplex (i : Fin d) : OnSimplex (Pi.single i 1 : Fin d → ℝ) :=
  ⟨fun j => by by_cases h : j = i <;> simp [Pi.single_apply, h], by simp⟩

theorem conLoop_spec (cand : List (Fin d → ℝ) → Fin d → ℝ) (near : (X : List (Fin d → ℝ)) → (Fin d → ℝ) → Fin X.length) (gd : Bool) (nPoints : ℕ)
    (hc : ∀ X, OnSimplex (cand X)) : ∀ (fuel : ℕ) (X : List (Fin d → ℝ)), (∀ x ∈ X, OnSimplex x) → nPoints ≤ X.length + fuel →
    (∀ R, conLoop cand near gd nPoints fuel X = some R → (∀ x ∈ R, OnSimplex x) ∧ R.length = max nPoints X.length ∧ X <+: R) ∧
    (d ≤ 13 → ∃ R, conLoop cand near gd nPoints fuel X = some R) := by
  intro fuel
  induction fuel with
  | zero =>
    intro X hX hf
    rw [conLoop, if_neg (by omega)]
    exact ⟨fun R h => by obtain rfl := Option.some.inj h
                         exact ⟨hX, by omega, List.prefix_refl _⟩, fun _ => ⟨_, rfl⟩⟩
  | succ fuel ih =>
    intro X hX hf
    rw [conLoop]
    by_cases hlt : X.length < nPoints
    · rw [if_pos hlt]
      have hstep : (∀ x, (if gd then conDescent (near X) X.get 1000 (adamNew 0.01) (cand X) else some (cand X)) = some x → OnSimplex x) ∧
          (d ≤ 13 → ∃ x, (if gd then conDescent (near X) X.get 1000 (adamNew 0.01) (cand X) else some (cand X)) = some x) := by
        cases gd with
        | true =>
          simp only [if_true]
          exact conDescent_spec (near X) X.get 1000 (adamNew 0.01) (cand X) (hc X) (adamNew_ok _) (by norm_num [adamNew]) (by norm_num [adamNew])
        | false =>
          simp only [Bool.false_eq_true, if_false]
          exact ⟨fun x h => by rw [← Option.some.inj h]; exact hc X, fun _ => ⟨_, rfl⟩⟩
      have hX' : ∀ x, OnSimplex x → ∀ y ∈ X ++ [x], OnSimplex y := fun x hx y hy => by
        rcases List.mem_append.1 hy with h | h
        · exact hX y h
        · rw [List.mem_singleton.1 h]; exact hx
      constructor
      · intro R h
        obtain ⟨x, hx, h⟩ := Option.bind_eq_some_iff.1 h
        obtain ⟨h1, h2, h3⟩ := (ih (X ++ [x]) (hX' x (hstep.1 x hx)) (by simp; omega)).1 R h
        exact ⟨h1, by rw [h2]; simp; omega, (List.prefix_append _ _).trans h3⟩
      · intro hd
        obtain ⟨x, hx⟩ := hstep.2 hd
        rw [hx, Option.bind_some]
        exact (ih (X ++ [x]) (hX' x (hstep.1 x hx)) (by simp; omega)).2 hd
    · rw [if_neg hlt]
      exact ⟨fun R h => by obtain rfl := Option.some.inj h
                           exact ⟨hX, by omega, List.prefix_refl _⟩, fun _ => ⟨_, rfl⟩⟩

/-- C118: "construction" returns points of the simplex, first the corners; there are as many as asked for, but at least one for each objective. -/
theorem C118_construction (cand : List (Fin d → ℝ) → Fin d → ℝ) (near : (X : List (Fin d → ℝ)) → (Fin d → ℝ) → Fin X.length) (gd : Bool) (nPoints : ℕ)
    (hc : ∀ X, OnSimplex (cand X)) (R : List (Fin d → ℝ)) (h : conDo cand near gd nPoints = some R) :
    (∀ x ∈ R, OnSimplex x) ∧ R.length = max nPoints d ∧ ∀ i : Fin d, Pi.single i 1 ∈ R := by
  obtain ⟨h1, h2, h3⟩ := (conLoop_spec cand near gd nPoints hc nPoints ((List.finRange d).map fun i => Pi.single i 1) (fun x hx => by
    obtain ⟨i, _, rfl⟩ := List.mem_map.1 hx
    exact single_simplex i) (by omega)).1 R h
  exact ⟨h1, by simpa using h2, fun i => h3.subset (List.mem_map.2 ⟨i, List.mem_finRange i, rfl⟩)⟩

/-- C118: "construction" ends without an exception for up to 13 objectives. -/
theorem C118_construction_total (cand : List (Fin d → ℝ) → Fin d → ℝ) (near : (X : List (Fin d → ℝ)) → (Fin d → ℝ) → Fin X.length) (gd : Bool)
    (nPoints : ℕ) (hc : ∀ X, OnSimplex (cand X)) (hd : d ≤ 13) : ∃ R, conDo cand near gd nPoints = some R :=
  (conLoop_spec cand near gd nPoints hc nPoints ((List.finRange d).map fun i => Pi.single i 1) (fun x hx => by
    obtain ⟨i, _, rfl⟩ := List.mem_map.1 hx
    exact single_simplex i) (by omega)).2 hd

/-- Candidates on the simplex: the centre. -/
example : ∀ X : List (Fin 3 → ℝ), OnSimplex ((fun _ _ => 1 / 3) X : Fin 3 → ℝ) := fun _ => ⟨fun _ => by norm_num, by norm_num [Fin.sum_univ_succ]⟩

/-! ### Scaling, layers, genetic algorithm, reference points -/

theorem scaleRow_sum (hd : 0 < d) (s : ℝ) {x : Fin d → ℝ} (h : ∑ i, x i = 1) : ∑ i, scaleRow s x i = 1 := by
  have : (d:ℝ) ≠ 0 := by positivity
  simp only [scaleRow]
  rw [sum_add_distrib, ← sum_mul, h]
  simp
  field_simp; ring

theorem scaleRow_simplex {s : ℝ} (h0 : 0 ≤ s) (h1 : s ≤ 1) {x : Fin d → ℝ} (h : OnSimplex x) : OnSimplex (scaleRow s x) := by
  rcases Nat.eq_zero_or_pos d with rfl | hd
  · have := h.2; simp at this
  · refine ⟨fun i => ?_, scaleRow_sum hd s h.2⟩
    have := h.1 i
    have : (0:ℝ) < d := by exact_mod_cast hd
    have : 0 ≤ (1 - s) / d := div_nonneg (by linarith) this.le
    simp only [scaleRow]; nlinarith [mul_nonneg (h.1 i) h0]

theorem layerRows_simplex (hd : 0 < d) (q : ℕ) : ∀ x ∈ layerRows (d := d) q, OnSimplex x := by
  intro x hx
  unfold layerRows at hx
  split_ifs at hx with h1 h2
  · rcases List.mem_append.1 hx with hx | hx
    · obtain ⟨i, _, hx⟩ := List.mem_flatMap.1 hx
      obtain ⟨j, hj, hx⟩ := List.mem_flatMap.1 hx
      obtain ⟨a, ha, rfl⟩ := List.mem_map.1 hx
      have hij : i ≠ j := by
        have := (List.mem_filter.1 hj).2
        simp at this; exact this.ne
      have hq : (0:ℝ) < q := by exact_mod_cast (by omega : 0 < q)
      have ha' : (a:ℝ) + 1 ≤ q := by
        have := List.mem_range.1 ha
        exact_mod_cast (by omega : a + 1 ≤ q)
      have hv : ((a:ℝ) + 1) / q ≤ 1 := (div_le_one hq).2 ha'
      have hv0 : 0 ≤ ((a:ℝ) + 1) / q := by positivity
      constructor
      · intro c
        dsimp only
        split_ifs
        · linarith
        · exact hv0
        · exact le_refl _
      · have : ∀ c, (if c = j then 1 - ((a:ℝ) + 1) / q else if c = i then ((a:ℝ) + 1) / q else 0) =
            (if c = j then 1 - ((a:ℝ) + 1) / q else 0) + (if c = i then ((a:ℝ) + 1) / q else 0) := by
          intro c
          by_cases h : c = j
          · have : c ≠ i := by rintro rfl; exact hij h
            simp [h, this, hij.symm]
          · simp [h]
        rw [sum_congr rfl fun c _ => this c, sum_add_distrib]
        simp
    · obtain ⟨i, _, rfl⟩ := List.mem_map.1 hx
      exact single_simplex i
  · obtain ⟨i, _, rfl⟩ := List.mem_map.1 hx
    exact single_simplex i
  · rw [List.mem_singleton.1 hx]
    have : (0:ℝ) < d := by exact_mod_cast hd
    exact ⟨fun _ => by positivity, by simp [this.ne']⟩

/-- C118: the points of "layer-energy" have coordinates with sum one, whatever the optimiser made of the scalings; they are on the simplex if the
scalings are between zero and one. -/
theorem C118_layers (hd : 0 < d) (qs : List ℕ) (scalings : List ℝ) :
    (∀ x ∈ layerPoints (d := d) (qs.map layerRows) scalings, ∑ i, x i = 1) ∧
    ((∀ s ∈ scalings, 0 ≤ s ∧ s ≤ 1) → ∀ x ∈ layerPoints (d := d) (qs.map layerRows) scalings, OnSimplex x) := by
  have hmem : ∀ x ∈ layerPoints (d := d) (qs.map layerRows) scalings, ∃ s ∈ scalings, ∃ y, OnSimplex y ∧ x = scaleRow s y := by
    intro x hx
    obtain ⟨e, he, hx⟩ := List.mem_flatMap.1 hx
    obtain ⟨y, hy, rfl⟩ := List.mem_map.1 hx
    obtain ⟨q, _, hq⟩ := List.mem_map.1 (List.of_mem_zip he).1
    exact ⟨e.2, (List.of_mem_zip he).2, y, layerRows_simplex hd q y (hq ▸ hy), rfl⟩
  refine ⟨fun x hx => ?_, fun hs x hx => ?_⟩
  · obtain ⟨s, _, y, hy, rfl⟩ := hmem x hx
    exact scaleRow_sum hd s hy.2
  · obtain ⟨s, h, y, hy, rfl⟩ := hmem x hx
    exact scaleRow_simplex (hs s h).1 (hs s h).2 hy

/-- The scalings at the start: 1 and 1/2 for two layers. -/
example : ∀ s ∈ ([1, 1 / 2] : List ℝ), 0 ≤ s ∧ s ≤ 1 := by
  intro s hs; simp at hs; rcases hs with rfl | rfl <;> norm_num

/-- C118: normalised scalings that are not negative are between zero and one. -/
theorem C118_layer_norm (scalings : List ℝ) (mx : ℝ) (hm : 0 < mx) (h : ∀ s ∈ scalings, 0 ≤ s ∧ s ≤ mx) : ∀ s ∈ layerNorm scalings mx, 0 ≤ s ∧ s ≤ 1 := by
  intro s hs
  obtain ⟨u, hu, rfl⟩ := List.mem_map.1 hs
  exact ⟨div_nonneg (h u hu).1 hm.le, (div_le_one hm).2 (h u hu).2⟩

/-- C118: points of the genetic algorithm are on the simplex, unless all their variables are zero (then NaN). -/
theorem C118_genetic (x : Fin d → ℝ) (h : ∃ i, x i ≠ 0) : OnSimplex (gaPoint x) := by
  have hs : 0 < ∑ j, x j ^ (2 : ℕ) := by
    obtain ⟨i, hi⟩ := h
    exact sum_pos' (fun j _ => sq_nonneg _) ⟨i, mem_univ _, by positivity⟩
  exact ⟨fun i => div_nonneg (sq_nonneg _) hs.le, by simp only [gaPoint]; rw [← sum_div, div_self hs.ne']⟩

/-- C118: points around a reference point: the two transformations are inverse to each other, keep the sum of the coordinates, and map the corners of the
simplex to the reference point plus the scaled offsets of the corners from the centre. -/
theorem C118_reference_points (hd : 0 < d) (scale : ℝ) (hs : scale ≠ 0) (ref : Fin d → ℝ) (hr : ∑ i, ref i = 1) (x : Fin d → ℝ) :
    refOut scale ref (refIn scale ref x) = x ∧ (∑ i, x i = 1 → ∑ i, refOut scale ref x i = 1) ∧
    ∀ i, refOut scale ref x i = ref i + scale * (x i - 1 / d) := by
  have hd' : (d:ℝ) ≠ 0 := by positivity
  have h3 : ∀ i, refOut scale ref x i = ref i + scale * (x i - 1 / d) := fun i => by
    simp only [refOut, scaleRow]; field_simp; ring
  refine ⟨funext fun i => ?_, fun hx => ?_, h3⟩
  · simp only [refOut, refIn, scaleRow]; field_simp; ring
  · rw [sum_congr rfl fun i _ => h3 i, sum_add_distrib, hr, ← mul_sum, sum_sub_distrib, hx]
    simp [hd']

end Props
