import Verif.Model.Decomposition
import Mathlib.Tactic.Linarith
import Mathlib.Tactic.Ring
import Mathlib.Tactic.FieldSimp
import Mathlib.Tactic.NormNum
import Mathlib.Tactic.Positivity
import Mathlib.Algebra.Order.Ring.Rat

/-!
# C32 — scalarisations
-/

namespace Props
open Model

set_option linter.unusedSimpArgs false
set_option linter.unusedSectionVars false

section
variable {K : Type*} [Field K] [LinearOrder K] [IsStrictOrderedRing K]

/-- `a` is at least as good as `b` in every objective. -/
def WeaklyDom (a b : List K) : Prop := List.Forall₂ (· ≤ ·) a b

theorem rowMax_spec (l : List K) (hne : l ≠ []) : rowMax l ∈ l ∧ ∀ x ∈ l, x ≤ rowMax l := by
  unfold rowMax
  rcases h : l.max? with _ | m
  · exact absurd (List.max?_eq_none_iff.1 h) hne
  · rw [List.max?_eq_some_iff] at h
    exact h

theorem rowMax_mono (a b : List K) (h : List.Forall₂ (· ≤ ·) a b) : rowMax a ≤ rowMax b := by
  by_cases hne : a = []
  · subst hne
    cases h
    exact le_refl _
  · have hb : b ≠ [] := by rintro rfl; cases h; exact hne rfl
    obtain ⟨i, hi, he⟩ := List.getElem_of_mem (rowMax_spec a hne).1
    have hl := h.length_eq
    rw [← he]
    have := (List.forall₂_iff_get.1 h).2 i hi (hl ▸ hi)
    simp only [List.get_eq_getElem] at this
    exact this.trans ((rowMax_spec b hb).2 _ (List.getElem_mem _))

/-- C32. A weighted sum with non-negative weights is monotone. -/
theorem C32_weighted_sum_mono (a b w : List K) (h : WeaklyDom a b) (hw : ∀ v ∈ w, 0 ≤ v) : weightedSum a w ≤ weightedSum b w := by
  unfold weightedSum WeaklyDom at *
  induction h generalizing w with
  | nil => simp
  | cons hab _ ih =>
    cases w with
    | nil => simp
    | cons v w =>
      simp only [List.zipWith_cons_cons, List.sum_cons]
      have := ih w fun x hx => hw x (by simp [hx])
      have := mul_le_mul_of_nonneg_right hab (hw v (by simp))
      linarith

/-- C32. A weighted sum with positive weights is strictly monotone: if `a` is at least as good everywhere and different, its
weighted sum is smaller. -/
theorem C32_weighted_sum_strict (a b w : List K) (h : WeaklyDom a b) (hne : a ≠ b) (hw : ∀ v ∈ w, 0 < v)
    (hlen : w.length = a.length) : weightedSum a w < weightedSum b w := by
  induction h generalizing w with
  | nil => exact absurd rfl hne
  | @cons x y a b hab hrest ih =>
    cases w with
    | nil => simp at hlen
    | cons v w =>
      have hv := hw v (by simp)
      simp only [weightedSum, List.zipWith_cons_cons, List.sum_cons]
      by_cases hxy : x = y
      · subst hxy
        have := ih w (fun hc => hne (by rw [hc])) (fun x hx => hw x (by simp [hx])) (by simpa using hlen)
        unfold weightedSum at this
        linarith
      · have h1 := mul_lt_mul_of_pos_right (lt_of_le_of_ne hab hxy) hv
        have h2 := C32_weighted_sum_mono a b w hrest fun x hx => (hw x (by simp [hx])).le
        unfold weightedSum at h2
        linarith

/-- C32. So a point that minimises the weighted sum with positive weights over a set is not dominated in it. -/
theorem C32_weighted_sum_pareto (S : List (List K)) (w p : List K) (hw : ∀ v ∈ w, 0 < v) (hS : ∀ q ∈ S, q.length = w.length)
    (hmin : ∀ q ∈ S, weightedSum p w ≤ weightedSum q w) : ¬ ∃ q ∈ S, WeaklyDom q p ∧ q ≠ p := by
  rintro ⟨q, hq, hd, hne⟩
  exact absurd (C32_weighted_sum_strict q p w hd hne hw (hS q hq).symm) (not_lt.2 (hmin q hq))

example : WeaklyDom ([1, 2, 3] : List ℚ) [1, 4, 3] ∧ weightedSum ([1, 2, 3] : List ℚ) [1, 1 / 2, 2] = 8 ∧
    weightedSum ([1, 4, 3] : List ℚ) [1, 1 / 2, 2] = 9 := by
  refine ⟨?_, ?_, ?_⟩
  · unfold WeaklyDom; decide +kernel
  · decide +kernel
  · decide +kernel

theorem forall₂_zip_mono (f g : K → K → K) (a b w : List K) (h : List.Forall₂ (· ≤ ·) a b)
    (hfg : ∀ x y v, x ≤ y → v ∈ w → f x v ≤ g y v) : List.Forall₂ (· ≤ ·) (List.zipWith f a w) (List.zipWith g b w) := by
  induction h generalizing w with
  | nil => simp
  | cons hab _ ih =>
    cases w with
    | nil => simp
    | cons v w =>
      simp only [List.zipWith_cons_cons]
      exact List.Forall₂.cons (hfg _ _ v hab (by simp)) (ih w fun x y u hxy hu => hfg x y u hxy (by simp [hu]))

theorem sub_mono (u a b : List K) (h : List.Forall₂ (· ≤ ·) a b) :
    List.Forall₂ (· ≤ ·) (List.zipWith (· - ·) a u) (List.zipWith (· - ·) b u) :=
  forall₂_zip_mono _ _ a b u h fun x y v hxy _ => by linarith

/-- C32. Tchebicheff is monotone for points that are not better than the utopian point. -/
theorem C32_tchebicheff_mono (u a b w : List K) (h : WeaklyDom a b) (hu : WeaklyDom u a) (hw : ∀ v ∈ w, 0 ≤ v) :
    tchebicheff u a w ≤ tchebicheff u b w := by
  unfold tchebicheff WeaklyDom at *
  apply rowMax_mono
  apply forall₂_zip_mono
  · induction hu generalizing b with
    | nil => cases h; simp
    | cons hua _ ih =>
      cases h with
      | cons hab hrest =>
        simp only [List.zipWith_cons_cons, List.map_cons]
        refine List.Forall₂.cons ?_ (ih _ hrest)
        rw [abs_of_nonneg (by linarith), abs_of_nonneg (by linarith)]
        linarith
  · intro x y v hxy hv
    exact mul_le_mul_of_nonneg_right hxy (hw v hv)

/-- Without that assumption it is not: a point better than the utopian point can have a larger value than a point it dominates. -/
theorem C32_tchebicheff_needs_utopian : WeaklyDom ([-5] : List ℚ) [0] ∧ tchebicheff ([0] : List ℚ) [-5] [1] = 5 ∧
    tchebicheff ([0] : List ℚ) [0] [1] = 0 := by
  refine ⟨?_, ?_, ?_⟩
  · unfold WeaklyDom; decide +kernel
  · decide +kernel
  · decide +kernel

example : WeaklyDom ([1, 2] : List ℚ) [1, 4] ∧ WeaklyDom ([0, 0] : List ℚ) [1, 2] ∧
    tchebicheff ([0, 0] : List ℚ) [1, 2] [1, 1 / 2] = 1 ∧ tchebicheff ([0, 0] : List ℚ) [1, 4] [1, 1 / 2] = 2 := by
  refine ⟨?_, ?_, ?_, ?_⟩
  · unfold WeaklyDom; decide +kernel
  · unfold WeaklyDom; decide +kernel
  · decide +kernel
  · decide +kernel

/-- C32. The Tchebicheff value is the largest of `|f_i - u_i| w_i`. -/
theorem C32_tchebicheff_value (u f w : List K) (n : ℕ) (hn : 0 < n) (hf : f.length = n) (hu : u.length = n) (hw : w.length = n) :
    (∃ (i : ℕ) (a b c : K), f[i]? = some a ∧ u[i]? = some b ∧ w[i]? = some c ∧ tchebicheff u f w = |a - b| * c) ∧
    ∀ (i : ℕ) (a b c : K), f[i]? = some a → u[i]? = some b → w[i]? = some c → |a - b| * c ≤ tchebicheff u f w := by
  unfold tchebicheff
  set l := List.zipWith (· * ·) ((List.zipWith (· - ·) f u).map fun v => |v|) w with hl
  have hll : l.length = n := by simp [hl, hf, hu, hw]
  have hne : l ≠ [] := by rintro h; rw [h] at hll; simp at hll; omega
  obtain ⟨h1, h2⟩ := rowMax_spec l hne
  have hget : ∀ (i : ℕ) (a b c : K), f[i]? = some a → u[i]? = some b → w[i]? = some c → l[i]? = some (|a - b| * c) := by
    intro i a b c ha hb hc
    simp [hl, List.getElem?_zipWith, ha, hb, hc]
  constructor
  · obtain ⟨i, hi, he⟩ := List.getElem_of_mem h1
    have hi' : i < n := by omega
    refine ⟨i, f[i], u[i], w[i], List.getElem?_eq_getElem _, List.getElem?_eq_getElem _, List.getElem?_eq_getElem _, ?_⟩
    have := hget i f[i] u[i] w[i] (List.getElem?_eq_getElem _) (List.getElem?_eq_getElem _) (List.getElem?_eq_getElem _)
    rw [List.getElem?_eq_getElem hi] at this
    rw [← he]
    exact Option.some.inj this
  · intro i a b c ha hb hc
    exact h2 _ (List.mem_of_getElem? (hget i a b c ha hb hc))

/-- C32. ASF is monotone for non-negative weights (zero weights are replaced by a positive `weight_0`). -/
theorem C32_asf_mono (w0 : K) (u a b w : List K) (h : WeaklyDom a b) (hw0 : 0 < w0) (hw : ∀ v ∈ w, 0 ≤ v) :
    asf w0 u a w ≤ asf w0 u b w := by
  unfold asf WeaklyDom at *
  apply rowMax_mono
  apply forall₂_zip_mono _ _ _ _ _ (sub_mono u a b h)
  intro x y v hxy hv
  obtain ⟨z, hz, rfl⟩ := List.mem_map.1 hv
  have : 0 < (if z = 0 then w0 else z) := by
    split_ifs with h0
    · exact hw0
    · exact lt_of_le_of_ne (hw z hz) (Ne.symm h0)
  exact div_le_div_of_nonneg_right hxy this.le

/-- C32. The ASF value is the largest of `(f_i - u_i) / w_i`, with `weight_0` for a zero weight. -/
theorem C32_asf_value (w0 : K) (u f w : List K) (n : ℕ) (hn : 0 < n) (hf : f.length = n) (hu : u.length = n) (hw : w.length = n) :
    (∃ (i : ℕ) (a b c : K), f[i]? = some a ∧ u[i]? = some b ∧ w[i]? = some c ∧
      asf w0 u f w = (a - b) / (if c = 0 then w0 else c)) ∧
    ∀ (i : ℕ) (a b c : K), f[i]? = some a → u[i]? = some b → w[i]? = some c →
      (a - b) / (if c = 0 then w0 else c) ≤ asf w0 u f w := by
  unfold asf
  set l := List.zipWith (· / ·) (List.zipWith (· - ·) f u) (w.map fun v => if v = 0 then w0 else v) with hl
  have hll : l.length = n := by simp [hl, hf, hu, hw]
  have hne : l ≠ [] := by rintro h; rw [h] at hll; simp at hll; omega
  obtain ⟨h1, h2⟩ := rowMax_spec l hne
  have hget : ∀ (i : ℕ) (a b c : K), f[i]? = some a → u[i]? = some b → w[i]? = some c →
      l[i]? = some ((a - b) / (if c = 0 then w0 else c)) := by
    intro i a b c ha hb hc
    simp [hl, List.getElem?_zipWith, ha, hb, hc]
  constructor
  · obtain ⟨i, hi, he⟩ := List.getElem_of_mem h1
    have hi' : i < n := by omega
    refine ⟨i, f[i], u[i], w[i], List.getElem?_eq_getElem _, List.getElem?_eq_getElem _, List.getElem?_eq_getElem _, ?_⟩
    have := hget i f[i] u[i] w[i] (List.getElem?_eq_getElem _) (List.getElem?_eq_getElem _) (List.getElem?_eq_getElem _)
    rw [List.getElem?_eq_getElem hi] at this
    rw [← he]
    exact Option.some.inj this
  · intro i a b c ha hb hc
    exact h2 _ (List.mem_of_getElem? (hget i a b c ha hb hc))

theorem sum_mono (a b : List K) (h : List.Forall₂ (· ≤ ·) a b) : a.sum ≤ b.sum := by
  induction h with
  | nil => simp
  | cons hab _ ih => simp only [List.sum_cons]; linarith

/-- C32. The augmented ASF is monotone for a non-negative augmentation. -/
theorem C32_aasf_mono (w0 c rho : K) (u a b w : List K) (h : WeaklyDom a b) (hw0 : 0 < w0) (hc : 0 < c) (hrho : 0 ≤ rho)
    (hw : ∀ v ∈ w, 0 ≤ v) : aasf w0 c rho u a w ≤ aasf w0 c rho u b w := by
  unfold aasf
  have h1 := C32_asf_mono w0 u a b w h hw0 hw
  have h2 : (List.zipWith (· / ·) (List.zipWith (· - ·) a u) (w.map fun v => max c v)).sum ≤
      (List.zipWith (· / ·) (List.zipWith (· - ·) b u) (w.map fun v => max c v)).sum := by
    apply sum_mono
    apply forall₂_zip_mono _ _ _ _ _ (sub_mono u a b h)
    intro x y v hxy hv
    obtain ⟨z, hz, rfl⟩ := List.mem_map.1 hv
    exact div_le_div_of_nonneg_right hxy (hc.le.trans (le_max_left _ _))
  have := mul_le_mul_of_nonneg_left h2 hrho
  linarith

theorem sum_strict (a b : List K) (h : List.Forall₂ (· ≤ ·) a b) (hne : a ≠ b) : a.sum < b.sum := by
  induction h with
  | nil => exact absurd rfl hne
  | @cons x y a b hab hrest ih =>
    simp only [List.sum_cons]
    by_cases hxy : x = y
    · subst hxy
      have := ih fun hc => hne (by rw [hc])
      linarith
    · have := sum_mono a b hrest
      have := lt_of_le_of_ne hab hxy
      linarith

/-- C32. With a positive augmentation it is strictly monotone, which is why its minimisers are not dominated. -/
theorem C32_aasf_strict (w0 c rho : K) (u a b w : List K) (h : WeaklyDom a b) (hne : a ≠ b) (hw0 : 0 < w0) (hc : 0 < c)
    (hrho : 0 < rho) (hw : ∀ v ∈ w, 0 ≤ v) (hu : u.length = a.length) (hwl : w.length = a.length) :
    aasf w0 c rho u a w < aasf w0 c rho u b w := by
  unfold aasf
  have h1 := C32_asf_mono w0 u a b w h hw0 hw
  have hl := h.length_eq
  have h2 : (List.zipWith (· / ·) (List.zipWith (· - ·) a u) (w.map fun v => max c v)).sum <
      (List.zipWith (· / ·) (List.zipWith (· - ·) b u) (w.map fun v => max c v)).sum := by
    apply sum_strict
    · apply forall₂_zip_mono _ _ _ _ _ (sub_mono u a b h)
      intro x y v hxy hv
      obtain ⟨z, hz, rfl⟩ := List.mem_map.1 hv
      exact div_le_div_of_nonneg_right hxy (hc.le.trans (le_max_left _ _))
    · intro heq
      apply hne
      apply List.ext_getElem hl
      intro i hi hi'
      have := congrArg (fun l => l[i]?) heq
      simp only [List.getElem?_zipWith, List.getElem?_map] at this
      have hui : i < u.length := by omega
      have hwi : i < w.length := by omega
      rw [List.getElem?_eq_getElem hi, List.getElem?_eq_getElem hi', List.getElem?_eq_getElem hui,
        List.getElem?_eq_getElem hwi] at this
      simp only [Option.map_some, Option.some.injEq] at this
      have hpos : (0 : K) < max c w[i] := lt_of_lt_of_le hc (le_max_left _ _)
      rw [div_left_inj' hpos.ne'] at this
      linarith
  have := mul_lt_mul_of_pos_left h2 hrho
  linarith

example : WeaklyDom ([1, 2] : List ℚ) [1, 4] ∧ asf (1 / 10 ^ 10 : ℚ) [0, 0] [1, 2] [1, 4] = 1 ∧
    asf (1 / 10 ^ 10 : ℚ) [0, 0] [1, 4] [1, 4] = 1 ∧ aasf (1 / 10 ^ 10 : ℚ) (1 / 10 ^ 12) (1 / 2) [0, 0] [1, 2] [1, 4] = 7 / 4 ∧
    aasf (1 / 10 ^ 10 : ℚ) (1 / 10 ^ 12) (1 / 2) [0, 0] [1, 4] [1, 4] = 2 := by
  refine ⟨?_, ?_, ?_, ?_, ?_⟩
  · unfold WeaklyDom; decide +kernel
  all_goals decide +kernel

/-! ### The shapes -/

variable (s : List K → List K → K)

theorem getElem?_chunks {α β : Type*} (f : α → List β) (m : ℕ) (l : List α) (hm : ∀ a ∈ l, (f a).length = m) (i j : ℕ) (hj : j < m) :
    (l.flatMap f)[i * m + j]? = (l[i]?).bind fun a => (f a)[j]? := by
  induction l generalizing i with
  | nil => simp
  | cons a l ih =>
    rw [List.flatMap_cons]
    have ha := hm a (by simp)
    cases i with
    | zero =>
      rw [List.getElem?_append_left (by omega)]
      simp
    | succ i =>
      rw [List.getElem?_append_right (by rw [ha]; nlinarith), ha]
      rw [show (i + 1) * m + j - m = i * m + j from by rw [Nat.add_mul, Nat.one_mul]; omega]
      rw [ih (fun a ha => hm a (by simp [ha])) i]
      simp

theorem repeatRows_get (n : ℕ) (A : List (List K)) (i j : ℕ) (hj : j < n) : (repeatRows n A)[i * n + j]? = A[i]? := by
  unfold repeatRows
  rw [getElem?_chunks _ n A (by simp) i j hj]
  rcases A[i]? with _ | a <;> simp [hj]

theorem tileRows_get (n : ℕ) (A : List (List K)) (i j : ℕ) (hi : i < n) (hj : j < A.length) :
    (tileRows n A)[i * A.length + j]? = A[j]? := by
  unfold tileRows
  rw [← List.flatMap_id, getElem?_chunks _ A.length _ (by intro a ha; rw [List.eq_of_mem_replicate ha]; rfl) i j hj]
  simp [hi]

theorem repeatRows_length (n : ℕ) (A : List (List K)) : (repeatRows n A).length = A.length * n := by
  unfold repeatRows
  induction A with
  | nil => simp
  | cons a A ih => rw [List.flatMap_cons, List.length_append, ih]; simp; ring

theorem tileRows_length (n : ℕ) (A : List (List K)) : (tileRows n A).length = n * A.length := by
  simp [tileRows]

/-- C32. `many_to_many`: entry `(i, j)` of the returned matrix is the scalar value of point `i` with weight `j`. -/
theorem C32_many_to_many (F W : DecompArg K) : ∃ rows, decompDo s .manyToMany F W = some (.mat rows) ∧
    rows.length = F.rows.length ∧ ∀ i < F.rows.length, ∃ row, rows[i]? = some row ∧ row.length = W.rows.length ∧
      ∀ (j : ℕ) (f w : List K), F.rows[i]? = some f → W.rows[j]? = some w → row[j]? = some (s f w) := by
  have hlen : (repeatRows W.rows.length F.rows).length = (tileRows F.rows.length W.rows).length := by
    rw [repeatRows_length, tileRows_length]
  refine ⟨reshapeMat F.rows.length W.rows.length (List.zipWith s (repeatRows W.rows.length F.rows) (tileRows F.rows.length W.rows)),
    ?_, ?_, ?_⟩
  · simp [decompDo, rowwise, hlen]
  · simp [reshapeMat]
  · intro i hi
    have hrow : ∀ l : List K, (reshapeMat F.rows.length W.rows.length l)[i]? =
        some ((l.drop (i * W.rows.length)).take W.rows.length) := by
      intro l
      simp only [reshapeMat, List.getElem?_map, List.getElem?_range hi, Option.map_some]
    refine ⟨_, hrow _, ?_, ?_⟩
    · rw [List.length_take, List.length_drop, List.length_zipWith, repeatRows_length, tileRows_length]
      have : i * W.rows.length + W.rows.length ≤ F.rows.length * W.rows.length := by nlinarith
      simp only [Nat.min_self]
      omega
    · intro j f w hf hw
      have hj : j < W.rows.length := (List.getElem?_eq_some_iff.1 hw).1
      rw [List.getElem?_take_of_lt hj, List.getElem?_drop, List.getElem?_zipWith, repeatRows_get _ _ _ _ hj,
        tileRows_get _ _ _ _ hi hj, hf, hw]

/-- C32. `one_to_many` with one point, `many_to_one` with one weight, `one_to_one` with as many points as weights: the entries
of the returned vector. -/
theorem C32_vectors (F W : DecompArg K) (f0 w0 : List K) :
    (F.rows = [f0] → decompDo s .oneToMany F W = some (.vec (W.rows.map fun w => s f0 w))) ∧
    (W.rows = [w0] → decompDo s .manyToOne F W = some (.vec (F.rows.map fun f => s f w0))) ∧
    (F.rows.length = W.rows.length → decompDo s .oneToOne F W = some (.vec (List.zipWith s F.rows W.rows))) := by
  refine ⟨?_, ?_, ?_⟩
  · intro h
    simp [decompDo, rowwise, h, repeatRows]
    generalize W.rows = w
    induction w with
    | nil => rfl
    | cons a w ih => simp [List.replicate_succ, ih]
  · intro h
    simp [decompDo, rowwise, h, repeatRows]
    generalize F.rows = f
    induction f with
    | nil => rfl
    | cons a w ih => simp [List.replicate_succ, ih]
  · intro h
    simp [decompDo, rowwise, h]

/-- C32. What is returned without a `_type`, for a matrix of points with at least two rows and columns: against a single weight
vector the vector of values, against a matrix of weights with another number of rows the matrix of all combinations, and
against a matrix with as many weights as points only the values of the pairs with equal index. -/
theorem C32_auto (n m k : ℕ) (rows wrows : List (List K)) (w : List K) (hn : rows.length = n) (hk : wrows.length = k) (hn2 : 2 ≤ n)
    (hk2 : 2 ≤ k) (hm : 2 ≤ m) (f : List K) :
    decompAuto (.mat m rows) (.vec w) = .manyToOne ∧
    decompAuto (.vec f) (.mat m wrows) = .oneToMany ∧
    decompAuto (.mat m [f]) (.mat m wrows) = .oneToMany ∧
    decompAuto (.mat m rows) (.mat m [w]) = .manyToOne ∧
    (k = n → decompAuto (.mat m rows) (.mat m wrows) = .oneToOne) ∧
    (k ≠ n → decompAuto (.mat m rows) (.mat m wrows) = .manyToMany) := by
  have h1 : (rows.length == 1) = false := by simp; omega
  have h2 : (wrows.length == 1) = false := by simp; omega
  have h3 : (m == 1) = false := by simp; omega
  refine ⟨?_, ?_, ?_, ?_, ?_, ?_⟩ <;> simp [decompAuto, DecompArg.is1d, DecompArg.rows, h1, h2, h3]
  · omega
  · omega

example : (([[1, 2], [3, 4]] : List (List ℚ)).length = 2) ∧
    decompDo weightedSum .manyToMany (.mat 2 [[1, 2], [3, 4]]) (.mat 2 [[1, 0], [0, 1], [1, 1]]) =
      some (.mat [[1, 2, 3], [3, 4, (7 : ℚ)]]) := by
  refine ⟨rfl, ?_⟩
  simp [decompDo, rowwise, DecompArg.rows, repeatRows, tileRows, reshapeMat, List.replicate_succ, List.range_succ, weightedSum]
  norm_num

/-- C32. The reference point: the utopian point if given, else the ideal point (zero by default) minus `eps`. -/
theorem C32_utopian (n : ℕ) (eps : K) (ideal u : List K) (i : ℕ) :
    decompUtopian n eps (some ideal) (some u) = u ∧ decompUtopian n eps none (some u) = u ∧
    (∀ v, ideal[i]? = some v → (decompUtopian n eps (some ideal) none)[i]? = some (v - eps)) ∧
    (i < n → (decompUtopian n eps none none)[i]? = some (-eps)) := by
  refine ⟨rfl, rfl, ?_, ?_⟩
  · intro v hv; simp [decompUtopian, hv]
  · intro hi; simp [decompUtopian, hi]

end

/-! ### Penalty boundary intersection -/

theorem norm2_nonneg (v : List ℝ) : 0 ≤ norm2 v := Real.sqrt_nonneg _

theorem sumsq_nonneg (v : List ℝ) : 0 ≤ (v.map fun x => x * x).sum := by
  apply List.sum_nonneg
  intro x hx
  obtain ⟨y, -, rfl⟩ := List.mem_map.1 hx
  exact mul_self_nonneg y

theorem norm2_sq (v : List ℝ) : norm2 v * norm2 v = (v.map fun x => x * x).sum :=
  Real.mul_self_sqrt (sumsq_nonneg v)

theorem sub_scaled_sq (c : ℝ) (g w : List ℝ) (h : g.length = w.length) :
    ((List.zipWith (· - ·) g (w.map fun v => c * v)).map fun x => x * x).sum =
      (g.map fun x => x * x).sum - 2 * c * (List.zipWith (· * ·) g w).sum + c * c * (w.map fun x => x * x).sum := by
  induction g generalizing w with
  | nil => cases w <;> simp_all
  | cons a g ih =>
    cases w with
    | nil => simp at h
    | cons b w =>
      simp only [List.map_cons, List.zipWith_cons_cons, List.sum_cons]
      rw [ih w (by simpa using h)]
      ring

theorem sumsq_pos (w : List ℝ) (h : ∃ v ∈ w, v ≠ 0) : 0 < (w.map fun x => x * x).sum := by
  induction w with
  | nil => obtain ⟨v, hv, -⟩ := h; simp at hv
  | cons a w ih =>
    simp only [List.map_cons, List.sum_cons]
    have h1 := sumsq_nonneg w
    have h2 := mul_self_nonneg a
    obtain ⟨v, hv, hne⟩ := h
    rcases List.mem_cons.1 hv with rfl | hv
    · have := mul_self_pos.2 hne
      linarith
    · have := ih ⟨v, hv, hne⟩
      linarith

/-- C32. The two distances of the PBI: they are the lengths of the two legs of a right triangle whose hypotenuse is the
distance of the point to the reference point, and the second one is not negative. -/
theorem C32_pbi_pythagoras (u f w : List ℝ) (hu : u.length = f.length) (hw : w.length = f.length) (h0 : ∃ v ∈ w, v ≠ 0) :
    (distToWeights u f w).1 ^ 2 + (distToWeights u f w).2 ^ 2 = ((List.zipWith (· - ·) f u).map fun x => x * x).sum ∧
    0 ≤ (distToWeights u f w).2 := by
  refine ⟨?_, norm2_nonneg _⟩
  unfold distToWeights
  set g := List.zipWith (· - ·) f u with hg
  set N := norm2 w with hN
  have hgl : g.length = w.length := by simp [hg, hu, hw]
  have hNN : N * N = (w.map fun x => x * x).sum := norm2_sq w
  have hNpos : 0 < N := by
    have := sumsq_pos w h0
    rcases (norm2_nonneg w).lt_or_eq with h | h
    · exact h
    · rw [← hNN, hN, ← h] at this; simp at this
  set d := (List.zipWith (· * ·) g w).sum with hd
  simp only
  have hmap : (w.map fun v => d / N * v / N) = w.map fun v => (d / (N * N)) * v := by
    apply List.map_congr_left
    intro v _
    field_simp
  rw [hmap, pow_two, pow_two, norm2_sq, sub_scaled_sq _ g w hgl, ← hNN, ← hd]
  field_simp
  ring

theorem sumsq_eq_zero (v : List ℝ) (h : (v.map fun x => x * x).sum = 0) : ∀ x ∈ v, x = 0 := by
  intro x hx
  by_contra hne
  exact absurd h (sumsq_pos v ⟨x, hx, hne⟩).ne'

/-- C32. The second distance is zero exactly for the points on the line through the reference point in the direction of the
weights. -/
theorem C32_pbi_on_ray (u f w : List ℝ) (hu : u.length = f.length) (hw : w.length = f.length) (h0 : ∃ v ∈ w, v ≠ 0) :
    (distToWeights u f w).2 = 0 ↔ ∃ c : ℝ, List.zipWith (· - ·) f u = w.map fun v => c * v := by
  unfold distToWeights
  set g := List.zipWith (· - ·) f u with hg
  set N := norm2 w with hN
  have hgl : g.length = w.length := by simp [hg, hu, hw]
  have hNN : N * N = (w.map fun x => x * x).sum := norm2_sq w
  have hNpos : 0 < N := by
    have := sumsq_pos w h0
    rcases (norm2_nonneg w).lt_or_eq with h | h
    · exact h
    · rw [← hNN, hN, ← h] at this; simp at this
  set d := (List.zipWith (· * ·) g w).sum with hd
  simp only
  have hmap : (w.map fun v => d / N * v / N) = w.map fun v => (d / (N * N)) * v := by
    apply List.map_congr_left
    intro v _
    field_simp
  rw [hmap]
  constructor
  · intro h
    refine ⟨d / (N * N), ?_⟩
    have hz : ((List.zipWith (· - ·) g (w.map fun v => (d / (N * N)) * v)).map fun x => x * x).sum = 0 := by
      rw [← norm2_sq, h]; simp
    have hall := sumsq_eq_zero _ hz
    apply List.ext_getElem (by simp [hgl])
    intro i h1 h2
    have h3 : i < (List.zipWith (· - ·) g (w.map fun v => (d / (N * N)) * v)).length := by
      rw [List.length_zipWith]; simp at h2; simp; omega
    have := hall _ (List.getElem_mem h3)
    rw [List.getElem_zipWith] at this
    linarith
  · rintro ⟨c, hc⟩
    have hdc : d = c * (N * N) := by
      rw [hd, hc, hNN]
      clear * -
      induction w with
      | nil => simp
      | cons a w ih => simp only [List.map_cons, List.zipWith_cons_cons, List.sum_cons, ih]; ring
    have : d / (N * N) = c := by rw [hdc]; field_simp
    have hz : ((List.zipWith (· - ·) g (w.map fun v => (d / (N * N)) * v)).map fun x => x * x).sum = 0 := by
      rw [this, ← hc]
      clear * -
      induction g with
      | nil => simp
      | cons a g ih => simp [List.zipWith_cons_cons, ih]
    unfold norm2
    rw [hz, Real.sqrt_zero]

/-- PBI is not monotone: `(0, 4)` dominates `(3, 4)` but has the larger value for the weights `(3, 4)` and the default
`theta = 5`. -/
theorem C32_pbi_not_monotone : WeaklyDom ([0, 4] : List ℝ) [3, 4] ∧ pbi 5 [0, 0] [3, 4] [3, 4] < pbi 5 [0, 0] [0, 4] [3, 4] := by
  constructor
  · unfold WeaklyDom
    exact List.Forall₂.cons (by norm_num) (List.Forall₂.cons (le_refl _) List.Forall₂.nil)
  · have hN : norm2 [3, 4] = 5 := by
      unfold norm2
      rw [show (([3, 4] : List ℝ).map fun x => x * x).sum = 5 ^ 2 by simp; norm_num, Real.sqrt_sq (by norm_num)]
    have h1 : pbi 5 [0, 0] [3, 4] [3, 4] = 5 := by
      unfold pbi distToWeights
      simp only [hN, List.zipWith_cons_cons, List.zipWith_nil_left, List.zipWith_nil_right, List.map_cons, List.map_nil, List.sum_cons, List.sum_nil]
      norm_num [norm2]
    have h2 : pbi 5 [0, 0] [0, 4] [3, 4] = 76 / 5 := by
      unfold pbi distToWeights
      simp only [hN, List.zipWith_cons_cons, List.zipWith_nil_left, List.zipWith_nil_right, List.map_cons, List.map_nil, List.sum_cons, List.sum_nil]
      have : norm2 [0 - 0 - ((0 - 0) * 3 + ((4 - 0) * 4 + 0)) / 5 * 3 / 5, 4 - 0 - ((0 - 0) * 3 + ((4 - 0) * 4 + 0)) / 5 * 4 / 5] = 12 / 5 := by
        unfold norm2
        rw [show ((([0 - 0 - ((0 - 0) * 3 + ((4 - 0) * 4 + 0)) / 5 * 3 / 5, 4 - 0 - ((0 - 0) * 3 + ((4 - 0) * 4 + 0)) / 5 * 4 / 5] : List ℝ).map fun x => x * x).sum) = (12 / 5) ^ 2 by simp; norm_num,
          Real.sqrt_sq (by norm_num)]
      rw [this]
      norm_num
    rw [h1, h2]
    norm_num

example : (∃ v ∈ ([3, 4] : List ℝ), v ≠ 0) ∧ ([0, 0] : List ℝ).length = [3, 4].length := ⟨⟨3, by simp, by norm_num⟩, rfl⟩

end Props
