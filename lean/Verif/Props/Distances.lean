import Verif.Model.Distances
import Mathlib.Algebra.BigOperators.Field
import Mathlib.Data.Fin.VecNotation
import Mathlib.Order.Bounds.Basic
import Mathlib.Tactic.Ring
import Mathlib.Tactic.Linarith
import Mathlib.Tactic.FieldSimp
import Mathlib.Tactic.FinCases

/-!
# C124: distances to directions, niches, compiled stochastic ranking, loading of functions
-/

set_option linter.unusedSimpArgs false
set_option linter.unusedVariables false

namespace Props
open Model Finset

variable {M : ℕ}

theorem rowLen_sq (v : Fin M → ℝ) : rowLen v ^ 2 = ∑ k, v k ^ 2 := by
  unfold rowLen; exact Real.sq_sqrt (sum_nonneg fun k _ => sq_nonneg _)

theorem rowLen_nonneg (v : Fin M → ℝ) : 0 ≤ rowLen v := Real.sqrt_nonneg _

theorem rowLen_pos (v : Fin M → ℝ) (h : v ≠ 0) : 0 < rowLen v := by
  obtain ⟨k, hk⟩ := Function.ne_iff.1 h
  exact Real.sqrt_pos.2 (sum_pos' (fun k _ => sq_nonneg _) ⟨k, mem_univ _, by have : v k ≠ 0 := hk
                                                                              positivity⟩)

theorem rowLen_neg (v : Fin M → ℝ) : rowLen (fun k => -v k) = rowLen v := by unfold rowLen; simp

/-- The parameter of the foot of the perpendicular. -/
noncomputable def footAt (u v : Fin M → ℝ) : ℝ := (∑ k, v k * u k) / ∑ k, u k ^ 2

theorem rowsq_pos (u : Fin M → ℝ) (hu : u ≠ 0) : 0 < ∑ k, u k ^ 2 := by rw [← rowLen_sq]; exact pow_pos (rowLen_pos u hu) 2

theorem perpEntry_eq (u v : Fin M → ℝ) (hu : u ≠ 0) : perpEntry u v = rowLen fun k => v k - footAt u v * u k := by
  unfold perpEntry
  dsimp only
  rw [← rowLen_neg]
  congr 1
  funext k
  have h := rowLen_sq u
  have h0 := (rowLen_pos u hu).ne'
  unfold footAt
  rw [← h]
  field_simp
  ring

theorem shifted_sq (u v : Fin M → ℝ) (hu : u ≠ 0) (t : ℝ) :
    ∑ k, (v k - t * u k) ^ 2 = (∑ k, (v k - footAt u v * u k) ^ 2) + (t - footAt u v) ^ 2 * ∑ k, u k ^ 2 := by
  have hq := (rowsq_pos u hu).ne'
  have e : ∀ s : ℝ, ∑ k, (v k - s * u k) ^ 2 = ∑ k, v k ^ 2 - 2 * s * (∑ k, v k * u k) + s ^ 2 * ∑ k, u k ^ 2 := by
    intro s
    rw [mul_sum, mul_sum, ← sum_sub_distrib, ← sum_add_distrib]
    exact sum_congr rfl fun k _ => by ring
  have hf : ∑ k, v k * u k = footAt u v * ∑ k, u k ^ 2 := by unfold footAt; field_simp
  rw [e, e, hf]
  ring

theorem perpEntry_least (u v : Fin M → ℝ) (hu : u ≠ 0) : IsLeast {r | ∃ t : ℝ, r = rowLen fun k => v k - t * u k} (perpEntry u v) := by
  refine ⟨⟨footAt u v, perpEntry_eq u v hu⟩, ?_⟩
  rintro r ⟨t, rfl⟩
  rw [perpEntry_eq u v hu]
  unfold rowLen
  refine Real.sqrt_le_sqrt ?_
  rw [shifted_sq u v hu t]
  have := mul_nonneg (sq_nonneg (t - footAt u v)) (rowsq_pos u hu).le
  linarith

/-! ### The matrix -/

theorem flatMap_rows {α β : Type*} (g : α → List β) (R : ℕ) (l : List α) (hg : ∀ a ∈ l, (g a).length = R) (i j : ℕ) (hj : j < R) :
    (l.flatMap g)[i * R + j]? = (l[i]?).bind fun a => (g a)[j]? := by
  induction l generalizing i with
  | nil => simp
  | cons a l ih =>
    rw [List.flatMap_cons]
    have ha := hg a (by simp)
    cases i with
    | zero => rw [List.getElem?_append_left (by omega)]; simp
    | succ i =>
      have : (i + 1) * R + j = R + (i * R + j) := by ring
      rw [this, List.getElem?_append_right (by omega), ha, Nat.add_sub_cancel_left, ih fun b hb => hg b (List.mem_cons_of_mem _ hb), List.getElem?_cons_succ]

theorem calcPerp_eq (N dirs : List (Fin M → ℝ)) (i j : ℕ) (hi : i < N.length) (hj : j < dirs.length) : calcPerp N dirs i j = some (perpEntry dirs[j] N[i]) := by
  have h1 : ((List.replicate N.length dirs).flatten)[i * dirs.length + j]? = some dirs[j] := by
    have : (List.replicate N.length dirs).flatten = (List.replicate N.length dirs).flatMap id := by simp
    rw [this, flatMap_rows id dirs.length _ (by intro a ha; rw [List.eq_of_mem_replicate ha]; rfl) i j hj, List.getElem?_replicate, if_pos hi]
    simp [hj]
  have h2 : (N.flatMap fun p => List.replicate dirs.length p)[i * dirs.length + j]? = some N[i] := by
    rw [flatMap_rows _ dirs.length _ (by intro a _; simp) i j hj, List.getElem?_eq_getElem hi]
    simp [hj]
  unfold calcPerp
  simp only [hi, hj, and_self, if_true]
  rw [List.getElem?_zipWith, h1, h2]

/-- C124: entry `(i, j)` of `calc_perpendicular_distance(N, ref_dirs)` is the least distance of point `i` to a point of the line through the origin in
direction `j`. -/
theorem C124_perpendicular (N dirs : List (Fin M → ℝ)) (i j : ℕ) (hi : i < N.length) (hj : j < dirs.length) (h0 : dirs[j] ≠ 0) :
    ∃ d, calcPerp N dirs i j = some d ∧ IsLeast {r | ∃ t : ℝ, r = rowLen fun k => N[i] k - t * dirs[j] k} d :=
  ⟨_, calcPerp_eq N dirs i j hi hj, perpEntry_least _ _ h0⟩

theorem isLeast_scale (u v : Fin M → ℝ) (c : ℝ) (hc : c ≠ 0) :
    {r | ∃ t : ℝ, r = rowLen fun k => v k - t * (c * u k)} = {r | ∃ t : ℝ, r = rowLen fun k => v k - t * u k} := by
  ext r
  constructor
  · rintro ⟨t, rfl⟩; exact ⟨t * c, by simp only [mul_assoc]⟩
  · rintro ⟨t, rfl⟩
    refine ⟨t / c, ?_⟩
    congr 1; funext k; field_simp

/-- C124: the distance does not depend on the length of the direction, is zero for the multiples of the direction and for no other points, and is at most the
distance to the origin. -/
theorem C124_perpendicular_laws (N dirs : List (Fin M → ℝ)) (i j : ℕ) (hi : i < N.length) (hj : j < dirs.length) (h0 : dirs[j] ≠ 0) :
    ∃ d, calcPerp N dirs i j = some d ∧ (∀ c : ℝ, c ≠ 0 → calcPerp N (dirs.map fun u k => c * u k) i j = some d) ∧
      (d = 0 ↔ ∃ t : ℝ, N[i] = fun k => t * dirs[j] k) ∧ 0 ≤ d ∧ d ≤ rowLen N[i] := by
  obtain ⟨d, h1, h2⟩ := C124_perpendicular N dirs i j hi hj h0
  refine ⟨d, h1, fun c hc => ?_, ⟨fun hd => ?_, ?_⟩, ?_, ?_⟩
  · obtain ⟨d', h1', h2'⟩ := C124_perpendicular N (dirs.map fun u k => c * u k) i j hi (by simpa using hj) (by
      rw [List.getElem_map]
      intro hc0
      refine h0 (funext fun k => ?_)
      have := congrFun hc0 k
      simpa [hc] using this)
    rw [List.getElem_map, isLeast_scale _ _ c hc] at h2'
    rw [h1', h2'.unique h2]
  · obtain ⟨t, ht⟩ := h2.1
    refine ⟨t, funext fun k => ?_⟩
    rw [hd] at ht
    by_contra hne
    have : 0 < rowLen fun k => N[i] k - t * dirs[j] k := rowLen_pos _ fun h => hne (by have := congrFun h k; simpa [sub_eq_zero] using this)
    linarith
  · rintro ⟨t, ht⟩
    have hle : d ≤ rowLen fun k => N[i] k - t * dirs[j] k := h2.2 ⟨t, rfl⟩
    have h3 : (rowLen fun k => N[i] k - t * dirs[j] k) = 0 := by
      unfold rowLen; rw [ht]; simp
    obtain ⟨t', ht'⟩ := h2.1
    have := rowLen_nonneg fun k => N[i] k - t' * dirs[j] k
    linarith
  · obtain ⟨t', ht'⟩ := h2.1
    rw [ht']; exact rowLen_nonneg _
  · have : rowLen N[i] = rowLen fun k => N[i] k - 0 * dirs[j] k := by simp
    rw [this]; exact h2.2 ⟨0, rfl⟩

example : ∃ (N dirs : List (Fin 2 → ℝ)), 0 < N.length ∧ ∃ h : 1 < dirs.length, dirs[1] ≠ 0 ∧ calcPerp N dirs 0 1 = some 4 := by
  refine ⟨[![3, 4]], [![0, 1], ![2, 0]], by simp, by simp, ?_, ?_⟩
  · intro h; have := congrFun h 0; simp at this
  · rw [calcPerp_eq _ _ 0 1 (by simp) (by simp), perpEntry_eq _ _ (by intro h; have := congrFun h 0; simp at this)]
    simp only [List.getElem_cons_succ, List.getElem_cons_zero, footAt, rowLen, Fin.sum_univ_two, Matrix.cons_val_zero, Matrix.cons_val_one]
    norm_num
    rw [show (16:ℝ) = 4 ^ 2 by norm_num]; exact Real.sqrt_sq (by norm_num)

theorem foldl_sum (f : Fin M → ℝ) : (List.finRange M).foldl (fun acc k => acc + f k) 0 = ∑ k, f k := by
  rw [Fin.sum_univ_def, List.sum_eq_foldl, List.foldl_map]

theorem cNorm_eq (v : Fin M → ℝ) : cNorm v = rowLen v := by unfold cNorm rowLen; rw [foldl_sum]

theorem cPerpEntry_eq (u v : Fin M → ℝ) : cPerpEntry u v = perpEntry u v := by
  unfold cPerpEntry perpEntry
  simp only [foldl_sum, cNorm_eq]
  unfold rowLen
  congr 1
  refine sum_congr rfl fun k _ => ?_
  rw [sum_congr rfl fun k _ => mul_comm (u k) (v k)]
  ring

theorem cPerp_inner (l : Fin M → ℝ) (i : ℕ) (P : List (Fin M → ℝ)) (s : ℕ) (m : ℕ → ℕ → ℝ) (a b : ℕ) :
    (P.zipIdx s).foldl (fun m (p, j) => fun a b => if a = j ∧ b = i then cPerpEntry l p else m a b) m a b =
      if b = i ∧ s ≤ a then (P[a - s]?).elim (m a b) (cPerpEntry l) else m a b := by
  induction P generalizing s m with
  | nil => simp
  | cons p P ih =>
    rw [List.zipIdx_cons, List.foldl_cons, ih]
    dsimp only
    by_cases hb : b = i
    · rcases lt_trichotomy a s with h | h | h
      · rw [if_neg (by omega), if_neg (by omega), if_neg (by omega)]
      · subst h; rw [if_neg (by omega), if_pos ⟨rfl, hb⟩, if_pos ⟨hb, le_rfl⟩]; simp
      · have : a - s = (a - (s + 1)) + 1 := by omega
        rw [if_pos ⟨hb, by omega⟩, if_neg (by omega), if_pos ⟨hb, by omega⟩, this, List.getElem?_cons_succ]
    · simp [hb]

theorem cPerp_outer (P L : List (Fin M → ℝ)) (s : ℕ) (m : ℕ → ℕ → ℝ) (a b : ℕ) (ha : a < P.length) :
    (L.zipIdx s).foldl (fun m (l, i) => (P.zipIdx).foldl (fun m (p, j) => fun a b => if a = j ∧ b = i then cPerpEntry l p else m a b) m) m a b =
      if s ≤ b then (L[b - s]?).elim (m a b) (fun l => cPerpEntry l P[a]) else m a b := by
  induction L generalizing s m with
  | nil => simp
  | cons l L ih =>
    rw [List.zipIdx_cons, List.foldl_cons, ih]
    dsimp only
    rw [cPerp_inner l s P 0 m a b]
    rcases lt_trichotomy b s with h | h | h
    · rw [if_neg (by omega), if_neg (by omega), if_neg (by omega)]
    · subst h; rw [if_neg (by omega), if_pos ⟨rfl, by omega⟩, if_pos le_rfl]; simp [ha]
    · have : b - s = (b - (s + 1)) + 1 := by omega
      rw [if_pos (by omega), if_neg (by omega), if_pos (by omega), this, List.getElem?_cons_succ]

/-- C124: the compiled `calc_perpendicular_distance` gives the same matrix. -/
theorem C124_perpendicular_compiled (N dirs : List (Fin M → ℝ)) (i j : ℕ) (hi : i < N.length) (hj : j < dirs.length) :
    calcPerp N dirs i j = some (cCalcPerp N dirs i j) := by
  rw [calcPerp_eq N dirs i j hi hj]
  unfold cCalcPerp
  rw [cPerp_outer N dirs 0 _ i j hi, if_pos (by omega)]
  simp [hj, cPerpEntry_eq]

/-! ### Distances to weights -/

/-- C124: both versions of `calc_distance_to_weights` agree; the second result is the distance of the point, seen from the utopian point, to the line of the
weights, and the first one the length along this line. -/
theorem C124_weights (utopian : Option (Fin M → ℝ)) (F w : Fin M → ℝ) (h0 : w ≠ 0) :
    cWeightDists utopian F w = weightDists utopian F w ∧
    IsLeast {r | ∃ t : ℝ, r = rowLen fun k => F k - (utopian.getD fun _ => 0) k - t * w k} (weightDists utopian F w).2 ∧
    (weightDists utopian F w).2 = rowLen (fun k => F k - (utopian.getD fun _ => 0) k - (weightDists utopian F w).1 * (w k / rowLen w)) ∧
    (weightDists utopian F w).1 ^ 2 + (weightDists utopian F w).2 ^ 2 = ∑ k, (F k - (utopian.getD fun _ => 0) k) ^ 2 := by
  obtain ⟨G, hG⟩ : ∃ G : Fin M → ℝ, G = fun k => F k - (utopian.getD fun _ => 0) k := ⟨_, rfl⟩
  have hn := (rowLen_pos w h0).ne'
  have hw : weightDists utopian F w = ((∑ k, G k * w k) / rowLen w, rowLen fun k => G k - (∑ k, G k * w k) / rowLen w * w k / rowLen w) := by
    rw [hG]; cases utopian <;> simp [weightDists]
  have hperp : (weightDists utopian F w).2 = perpEntry w G := by
    rw [hw]; unfold perpEntry; dsimp only; rw [← rowLen_neg]; congr 1; funext k; ring
  have hGk : ∀ k, F k - (utopian.getD fun _ => 0) k = G k := fun k => by rw [hG]
  simp only [hGk]
  refine ⟨?_, ?_, ?_, ?_⟩
  · rw [hw]
    unfold cWeightDists
    simp only [foldl_sum, hGk]
    rfl
  · rw [hperp]; exact perpEntry_least w G h0
  · rw [hw]; dsimp only; congr 1; funext k; ring
  · rw [hperp, perpEntry_eq w G h0, rowLen_sq]
    have h1 := shifted_sq w G h0 0
    simp only [zero_mul, sub_zero, zero_sub, neg_sq] at h1
    rw [h1, hw]
    dsimp only
    unfold footAt
    rw [div_pow, div_pow, rowLen_sq]
    have := (rowsq_pos w h0).ne'
    field_simp
    ring

/-- C124: the compiled `pbi` is the sum of the length along the line and `theta` times the distance to it, with the utopian point `ideal - eps`. -/
theorem C124_pbi_compiled (ideal : Fin M → ℝ) (theta eps : ℝ) (F w : Fin M → ℝ) :
    cPbi ideal theta eps F w = (weightDists (some fun k => ideal k - eps) F w).1 + theta * (weightDists (some fun k => ideal k - eps) F w).2 := by
  unfold cPbi weightDists
  simp only [foldl_sum, cNorm_eq]
  have e : ∀ k, F k - (ideal k - eps) = F k - ideal k + eps := fun k => by ring
  simp only [e]
  rfl

/-! ### Niches -/

theorem firstMin_spec (D : ℕ → ℝ) (r : ℕ) (hr : 0 < r) : firstMin D r < r ∧ (∀ k < r, D (firstMin D r) ≤ D k) ∧ ∀ k < firstMin D r, D (firstMin D r) < D k := by
  classical
  obtain ⟨m, hm, hmin⟩ := exists_min_image (range r) D ⟨0, by simpa using hr⟩
  unfold firstMin
  cases h : (List.range r).find? (fun j => decide (∀ k < r, D j ≤ D k)) with
  | none =>
    have := List.find?_eq_none.1 h m (by simpa using hm)
    simp only [decide_eq_true_eq] at this
    exact absurd (fun k hk => hmin k (by simpa using hk)) this
  | some j =>
    have h1 := List.find?_some h
    simp only [decide_eq_true_eq] at h1
    have h2 := List.mem_of_find?_eq_some h
    rw [List.mem_range] at h2
    refine ⟨h2, h1, fun k hk => ?_⟩
    have h3 : k < r := lt_trans hk h2
    refine lt_of_le_of_ne (h1 k h3) fun he => ?_
    have hk' : ∀ k' < r, D k ≤ D k' := fun k' hk'' => by
      have := h1 k' hk''
      simp only [Option.getD_some] at he
      rw [← he]; exact this
    obtain ⟨_, as, bs, heq, hno⟩ := List.find?_eq_some_iff_append.1 h
    have hkas : k ∈ as := by
      have hs : (List.range r).Pairwise (· < ·) := List.pairwise_lt_range
      have hmem : k ∈ as ++ j :: bs := by rw [← heq]; simpa using h3
      rw [heq, List.pairwise_append] at hs
      rcases List.mem_append.1 hmem with h | h
      · exact h
      · rcases List.mem_cons.1 h with h | h
        · simp only [Option.getD_some] at hk; omega
        · have := (List.pairwise_cons.1 hs.2.1).1 k h
          simp only [Option.getD_some] at hk; omega
    have := hno k hkas
    simp only [Bool.not_eq_true', decide_eq_false_iff_not] at this
    exact this hk'

/-- C124: `associate_to_niches` gives each individual the first of the directions whose line is nearest to its normalised objectives, and the distance to it. -/
theorem C124_niches (F niches : List (Fin M → ℝ)) (ideal nadir : Fin M → ℝ) (eps : ℝ) (i : ℕ) (hi : i < F.length) (hr : niches ≠ []) (h0 : ∀ u ∈ niches, u ≠ 0) :
    ∃ (k : ℕ) (d : ℝ) (row : ℕ → ℝ) (hk : k < niches.length), associateToNiches F niches ideal nadir eps i = (k, d, row) ∧ row k = d ∧
      (∀ j (hj : j < niches.length), IsLeast {r | ∃ t : ℝ, r = rowLen fun c => nicheNorm ideal nadir eps F[i] c - t * niches[j] c} (row j)) ∧
      (∀ j < niches.length, d ≤ row j) ∧ ∀ j < k, d < row j := by
  obtain ⟨h1, h2, h3⟩ := firstMin_spec (fun j => (calcPerp (F.map (nicheNorm ideal nadir eps)) niches i j).getD 0) niches.length (List.length_pos_iff.2 hr)
  refine ⟨_, _, _, h1, rfl, rfl, fun j hj => ?_, h2, h3⟩
  obtain ⟨d, e1, e2⟩ := C124_perpendicular (F.map (nicheNorm ideal nadir eps)) niches i j (by simpa using hi) hj (h0 _ (List.getElem_mem hj))
  rw [e1]
  simpa using e2

/-- C124: the association does not change if all objectives, the ideal and the nadir point are moved and (without epsilon) stretched, provided ideal and
nadir point differ in every objective. -/
theorem C124_niches_units (F niches : List (Fin M → ℝ)) (ideal nadir a b : Fin M → ℝ) (ha : ∀ k, 0 < a k) (hne : ∀ k, nadir k ≠ ideal k) (i : ℕ) :
    associateToNiches (F.map fun x k => a k * x k + b k) niches (fun k => a k * ideal k + b k) (fun k => a k * nadir k + b k) 0 i =
      associateToNiches F niches ideal nadir 0 i := by
  have e : ∀ x : Fin M → ℝ, nicheNorm (fun k => a k * ideal k + b k) (fun k => a k * nadir k + b k) 0 (fun k => a k * x k + b k) = nicheNorm ideal nadir 0 x := by
    intro x
    funext k
    unfold nicheNorm
    dsimp only
    have h1 : nadir k - ideal k ≠ 0 := sub_ne_zero.2 (hne k)
    have h2 : a k * nadir k + b k - (a k * ideal k + b k) = a k * (nadir k - ideal k) := by ring
    have h3 := (ha k).ne'
    simp only [sub_zero]
    rw [h2, if_neg (mul_ne_zero h3 h1), if_neg h1]
    field_simp
    ring
  unfold associateToNiches
  simp only [List.map_map, Function.comp_def, e]

/-- Two directions and a point nearer to the second. -/
example : ([![1, 0], ![0, 1]] : List (Fin 2 → ℝ)) ≠ [] ∧ ∀ u ∈ ([![1, 0], ![0, 1]] : List (Fin 2 → ℝ)), u ≠ 0 := by
  refine ⟨by simp, fun u hu h => ?_⟩
  simp only [List.mem_cons, List.not_mem_nil, or_false] at hu
  rcases hu with rfl | rfl
  · have := congrFun h 0; simp at this
  · have := congrFun h 1; simp at this

/-! ### Stochastic ranking -/

section Ranking
variable {ι α : Type*} [LinearOrder α] {β : Type*} [LinearOrder β] [Zero β] {κ : Type*} [LinearOrder κ]

theorem cSwap_at [Inhabited ι] (pre rest : List ι) (a b : ι) : cSwap (pre ++ a :: b :: rest) pre.length (pre.length + 1) = pre ++ b :: a :: rest := by
  unfold cSwap
  have h1 : (pre ++ a :: b :: rest).getD (pre.length + 1) default = b := by
    rw [List.getD_eq_getElem?_getD, List.getElem?_append_right (by omega)]; simp
  have h2 : (pre ++ a :: b :: rest).getD pre.length default = a := by
    rw [List.getD_eq_getElem?_getD, List.getElem?_append_right (by omega)]; simp
  rw [h1, h2]
  simp [List.set_append]

theorem cSrPass_eq [Inhabited ι] (f : ι → α) (phi : ι → β) (pr : κ) (uu : ℕ → κ) (I : List ι) :
    cSrPass f phi pr uu I.length I = srPass (fun j => srSwap f phi (decide (uu j < pr))) 0 I := by
  have key : ∀ (rest pre : List ι) (x : ι) (s : Bool),
      (List.range' pre.length rest.length).foldl (fun (I, swapped) j =>
        let a := I.getD j default
        let b := I.getD (j + 1) default
        if uu j < pr ∨ (phi a = 0 ∧ phi b = 0) then
          if f a > f b then (cSwap I j (j + 1), true) else (I, swapped)
        else if phi a > phi b then (cSwap I j (j + 1), true) else (I, swapped)) (pre ++ x :: rest, s) =
      (pre ++ (srPass (fun j => srSwap f phi (decide (uu j < pr))) pre.length (x :: rest)).1,
        s || (srPass (fun j => srSwap f phi (decide (uu j < pr))) pre.length (x :: rest)).2) := by
    intro rest
    induction rest with
    | nil => intro pre x s; simp [srPass]
    | cons y rest ih =>
      intro pre x s
      rw [List.length_cons, List.range'_succ, List.foldl_cons]
      have h1 : (pre ++ x :: y :: rest).getD (pre.length + 1) default = y := by
        rw [List.getD_eq_getElem?_getD, List.getElem?_append_right (by omega)]; simp
      have h2 : (pre ++ x :: y :: rest).getD pre.length default = x := by
        rw [List.getD_eq_getElem?_getD, List.getElem?_append_right (by omega)]; simp
      have h3 : (pre.length + 1) = (pre ++ [y]).length := by simp
      have h4 : (pre.length + 1) = (pre ++ [x]).length := by simp
      rw [srPass]
      dsimp only
      rw [h1, h2, cSwap_at]
      by_cases hg : srSwap f phi (decide (uu pre.length < pr)) x y = true
      · have : (if uu pre.length < pr ∨ (phi x = 0 ∧ phi y = 0) then
              if f x > f y then (pre ++ y :: x :: rest, true) else (pre ++ x :: y :: rest, s)
            else if phi x > phi y then (pre ++ y :: x :: rest, true) else (pre ++ x :: y :: rest, s)) = ((pre ++ [y]) ++ x :: rest, true) := by
          unfold srSwap at hg
          by_cases c : uu pre.length < pr ∨ (phi x = 0 ∧ phi y = 0)
          · rw [if_pos (by simpa only [decide_eq_true_eq] using c), decide_eq_true_eq] at hg
            rw [if_pos c, if_pos hg, List.append_assoc]; rfl
          · rw [if_neg (by simpa only [decide_eq_true_eq] using c), decide_eq_true_eq] at hg
            rw [if_neg c, if_pos hg, List.append_assoc]; rfl
        rw [this, if_pos hg]
        have h := ih (pre ++ [y]) x true
        rw [h3, h]
        simp
      · have : (if uu pre.length < pr ∨ (phi x = 0 ∧ phi y = 0) then
              if f x > f y then (pre ++ y :: x :: rest, true) else (pre ++ x :: y :: rest, s)
            else if phi x > phi y then (pre ++ y :: x :: rest, true) else (pre ++ x :: y :: rest, s)) = ((pre ++ [x]) ++ y :: rest, s) := by
          unfold srSwap at hg
          by_cases c : uu pre.length < pr ∨ (phi x = 0 ∧ phi y = 0)
          · rw [if_pos (by simpa only [decide_eq_true_eq] using c), decide_eq_true_eq] at hg
            rw [if_pos c, if_neg hg, List.append_assoc]; rfl
          · rw [if_neg (by simpa only [decide_eq_true_eq] using c), decide_eq_true_eq] at hg
            rw [if_neg c, if_neg hg, List.append_assoc]; rfl
        rw [this, if_neg hg]
        have h := ih (pre ++ [x]) y s
        rw [h4, h]
        simp
  cases I with
  | nil => simp [cSrPass, srPass]
  | cons x rest =>
    have := key rest [] x false
    simp only [List.nil_append, List.length_nil, Bool.false_or] at this
    unfold cSrPass
    rw [List.length_cons, Nat.add_sub_cancel, List.range_eq_range', this]

theorem srPass_congr {g h : ℕ → ι → ι → Bool} (j : ℕ) (I : List ι) (e : ∀ k, j ≤ k → k + 1 < j + I.length → g k = h k) : srPass g j I = srPass h j I := by
  induction hn : I.length generalizing j I with
  | zero => rw [List.length_eq_zero_iff.1 hn]; simp [srPass]
  | succ n ih =>
    cases I with
    | nil => simp at hn
    | cons a I =>
      cases I with
      | nil => simp [srPass]
      | cons b I =>
        simp only [List.length_cons] at hn e
        rw [srPass, srPass, e j le_rfl (by omega)]
        rw [ih (j + 1) (a :: I) (fun k h1 h2 => e k (by omega) (by simp only [List.length_cons] at h2; omega)) (by simp only [List.length_cons]; omega),
          ih (j + 1) (b :: I) (fun k h1 h2 => e k (by omega) (by simp only [List.length_cons] at h2; omega)) (by simp only [List.length_cons]; omega)]

theorem srPass_length (g : ℕ → ι → ι → Bool) (j : ℕ) (I : List ι) : (srPass g j I).1.length = I.length := by
  induction hn : I.length generalizing j I with
  | zero => rw [List.length_eq_zero_iff.1 hn]; simp [srPass]
  | succ n ih =>
    cases I with
    | nil => simp at hn
    | cons a I =>
      cases I with
      | nil => simp [srPass] at hn ⊢; exact hn
      | cons b I =>
        simp only [List.length_cons] at hn
        rw [srPass]
        split_ifs
        · simp only [List.length_cons]; rw [ih (j + 1) (a :: I) (by simp only [List.length_cons]; omega)]
        · simp only [List.length_cons]; rw [ih (j + 1) (b :: I) (by simp only [List.length_cons]; omega)]

theorem cSrLoop_eq [Inhabited ι] (f : ι → α) (phi : ι → β) (pr : κ) (u : ℕ → κ) (lam rounds i : ℕ) (coin : ℕ → ℕ → Bool) (I : List ι) (hI : I.length = lam)
    (hc : ∀ i j, j + 1 < lam → coin i j = decide (u (i * lam + j) < pr)) :
    cSrLoop f phi pr u lam rounds i I = srLoop (fun i j => srSwap f phi (coin i j)) rounds i I := by
  induction rounds generalizing i I with
  | zero => rfl
  | succ rounds ih =>
    rw [cSrLoop, srLoop]
    have h1 : cSrPass f phi pr (fun j => u (i * lam + j)) lam I = srPass (fun j => srSwap f phi (coin i j)) 0 I := by
      rw [← hI, cSrPass_eq]
      refine srPass_congr 0 I fun k _ hk => ?_
      rw [hc i k (by omega), hI]
    rw [h1]
    split_ifs with h
    · exact ih _ _ (by rw [srPass_length]; exact hI)
    · rfl

/-- C124: the compiled `stochastic_ranking` is the ranking of C90 with other numbers of the stream for the comparisons. -/
theorem C124_ranking_compiled [Inhabited ι] (f : ι → α) (phi : ι → β) (pr : κ) (u : ℕ → κ) (I : List ι) :
    cStochasticRanking f phi pr u I = stochasticRanking f phi (fun i j => decide (u (i * I.length + j) < pr)) I :=
  cSrLoop_eq f phi pr u I.length I.length 0 _ I rfl fun i j _ => rfl

/-- C124: both versions have the same outcomes: what one of them returns for a stream, the other returns for a stream made of the same numbers. -/
theorem C124_ranking_outcomes [Inhabited ι] (f : ι → α) (phi : ι → β) (pr : κ) (u : ℕ → κ) (I : List ι) :
    (∃ g : ℕ → ℕ, cStochasticRanking f phi pr u I = pyStochasticRanking f phi pr (fun k => u (g k)) I) ∧
    ∃ g : ℕ → ℕ, pyStochasticRanking f phi pr u I = cStochasticRanking f phi pr (fun k => u (g k)) I := by
  rcases Nat.lt_or_ge I.length 2 with h | h
  · refine ⟨⟨id, ?_⟩, id, ?_⟩
    · exact cSrLoop_eq f phi pr u I.length I.length 0 _ I rfl fun i j hj => by omega
    · exact (cSrLoop_eq f phi pr u I.length I.length 0 _ I rfl fun i j hj => by omega).symm
  · obtain ⟨m, hm⟩ : ∃ m, I.length = m + 2 := ⟨I.length - 2, by omega⟩
    constructor
    · refine ⟨fun k => k / (m + 1) * (m + 2) + k % (m + 1), cSrLoop_eq f phi pr u I.length I.length 0 _ I rfl fun i j hj => ?_⟩
      have h1 : I.length - 1 = m + 1 := by omega
      have h2 : (i * (m + 1) + j) / (m + 1) = i := by
        rw [mul_comm, Nat.mul_add_div (by omega), Nat.div_eq_of_lt (by omega)]; omega
      have h3 : (i * (m + 1) + j) % (m + 1) = j := by
        rw [mul_comm, Nat.mul_add_mod, Nat.mod_eq_of_lt (by omega)]
      simp only [h1, h2, h3]
      rw [hm]
    · refine ⟨fun k => k / (m + 2) * (m + 1) + k % (m + 2), (cSrLoop_eq f phi pr _ I.length I.length 0 _ I rfl fun i j hj => ?_).symm⟩
      have h1 : I.length - 1 = m + 1 := by omega
      have h2 : (i * (m + 2) + j) / (m + 2) = i := by
        rw [mul_comm, Nat.mul_add_div (by omega), Nat.div_eq_of_lt (by omega)]; omega
      have h3 : (i * (m + 2) + j) % (m + 2) = j := by
        rw [mul_comm, Nat.mul_add_mod, Nat.mod_eq_of_lt (by omega)]
      rw [hm]
      simp only [h2, h3, Nat.add_sub_cancel, show m + 2 - 1 = m + 1 by omega]

end Ranking

/-! ### Loading -/

/-- C124: in pure Python every registered function can be loaded; with compiled modules every one but the tree-based sorting, from a module that has it. -/
theorem C124_load (selfMode name module : String) (h : (name, module) ∈ registry) :
    loadFunction false selfMode name = .python name ∧
    (name ≠ "tree_based_non_dominated_sort" → loadFunction true selfMode name = .compiled module name) := by
  simp only [registry, List.mem_cons, List.not_mem_nil, or_false, Prod.mk.injEq] at h
  rcases h with h | h | h | h | h | h | h | h | h | h | h | h <;> obtain ⟨rfl, rfl⟩ := h <;> simp [loadFunction, loaderLoad, registry, compiledDefs, ndsModule, List.lookup]

/-- C124: a name that is not registered is refused in every mode, and so is an unknown mode. -/
theorem C124_load_refused (isCompiled : Bool) (selfMode name type : String) :
    ((∀ module, (name, module) ∉ registry) → loadFunction isCompiled selfMode name type = .notFound) ∧
    (type ∉ ["auto", "python", "cython"] → loadFunction isCompiled selfMode name type = .notFound ∨ loadFunction isCompiled selfMode name type = .noMode) := by
  constructor
  · intro h
    have : registry.lookup name = none := by
      rw [List.lookup_eq_none_iff]
      intro p hp
      by_contra hc
      simp only [bne_iff_ne, ne_eq, Bool.not_eq_true, bne_eq_false_iff_eq, beq_eq_false_iff_ne, Decidable.not_not] at hc
      exact h p.2 (by rw [hc]; exact hp)
    unfold loadFunction loaderLoad
    simp only [this]
  · intro h
    simp only [List.mem_cons, List.not_mem_nil, or_false, not_or] at h
    unfold loadFunction loaderLoad
    simp only [Option.getD_some, h.1, if_false]
    cases registry.lookup name with
    | none => exact Or.inl rfl
    | some m => right; simp [h.2.1, h.2.2]

/-- C124, refuted: with compiled modules the tree-based sorting cannot be loaded, and without them the loaded best-order sorting is a stub; setting the mode of
the loader has no effect on `load_function`. -/
theorem C124_load_refuted :
    (∃ m, ("tree_based_non_dominated_sort", m) ∈ registry) ∧ (∀ s, loadFunction true s "tree_based_non_dominated_sort" = .attributeError) ∧
    (∃ m, ("fast_best_order_sort", m) ∈ registry) ∧ (∀ s, loadFunction false s "fast_best_order_sort" = .python "fast_best_order_sort") ∧ "fast_best_order_sort" ∈ pythonStubs ∧
    (∀ c s name, loadFunction c s name = loadFunction c "auto" name) ∧ loadFunction true "python" "calc_pcd" ≠ loaderLoad true "python" "calc_pcd" none := by
  refine ⟨⟨_, by simp [registry]; rfl⟩, fun s => ?_, ⟨_, by simp [registry]; rfl⟩, fun s => ?_, by simp [pythonStubs], fun c s name => rfl, ?_⟩
  · simp [loadFunction, loaderLoad, registry, compiledDefs, ndsModule, List.lookup]
  · simp [loadFunction, loaderLoad, registry, compiledDefs, ndsModule, List.lookup]
  · simp [loadFunction, loaderLoad, registry, compiledDefs, ndsModule, List.lookup]

/-- C124, refuted: the same seed gives different rankings with and without compiled modules. -/
theorem C124_ranking_seed_refuted : ∃ (f phi : Fin 3 → ℤ) (u : ℕ → ℤ), cStochasticRanking f phi 1 u [0, 1, 2] ≠ pyStochasticRanking f phi 1 u [0, 1, 2] :=
  ⟨fun i => 3 - i, fun i => i + 1, fun k => if k = 0 ∨ k = 2 then 0 else 1, by decide +kernel⟩

end Props
