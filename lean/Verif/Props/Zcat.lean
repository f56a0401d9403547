import Verif.Props.ZcatDist
import Verif.Props.ZcatRecords
import Verif.Spec.TestProblem

/-!
# C143: the Pareto sets and fronts of ZCAT1-ZCAT20
-/

set_option linter.unusedSimpArgs false
set_option linter.unusedVariables false

namespace Props
open Model Spec

/-- The variables after the first `dim` ones are on the surface the problem prescribes: entry `j` of the g-function. -/
def ZcOnSurface (c : Zcat) (x : List ℝ) : Prop := ∀ j, c.dim (zcY x 0) + j < c.n → zcG c.gId (zcY x) (c.dim (zcY x 0)) c.n (j + 1) = some (zcY x (c.dim (zcY x 0) + j))

theorem zcY_eq (x : List ℝ) (i : ℕ) : zcY x i = x.getD i 0 / ((i : ℝ) + 1) + 1 / 2 := by
  have h : (0 : ℝ) < (i : ℝ) + 1 := by positivity
  have e : (0.5 : ℝ) * ((i : ℝ) + 1) - -0.5 * ((i : ℝ) + 1) = (i : ℝ) + 1 := by norm_num; ring
  unfold zcY
  rw [e]
  field_simp
  norm_num
  ring

theorem zcY_unit {n : ℕ} {x : List ℝ} (h : WideningBox n x) (N : ℕ) : ZcUnit N (zcY x) := by
  intro i _
  have hp : (0 : ℝ) < (i : ℝ) + 1 := by positivity
  rw [zcY_eq]
  by_cases hi : i < n
  · have hb := h.2 i hi
    have h1 : -(1 / 2) ≤ x.getD i 0 / ((i : ℝ) + 1) := by rw [le_div_iff₀ hp]; linarith
    have h2 : x.getD i 0 / ((i : ℝ) + 1) ≤ 1 / 2 := by rw [div_le_iff₀ hp]; linarith
    constructor <;> linarith
  · have : x.getD i 0 = 0 := by
      rw [List.getD_eq_getElem?_getD, List.getElem?_eq_none (by rw [h.1]; omega)]
      rfl
    rw [this]
    norm_num

theorem zcG_congr {id : ℕ} {y y' : ℕ → ℝ} {m n j : ℕ} (h : ∀ i < m, y i = y' i) : zcG id y m n j = zcG id y' m n j := by
  have hs : ∀ f : ℝ → ℝ, ∑ i ∈ Finset.range m, f (y i) = ∑ i ∈ Finset.range m, f (y' i) := fun f => Finset.sum_congr rfl fun i hi => by rw [h i (Finset.mem_range.1 hi)]
  have hmu : zcMu y m = zcMu y' m := by unfold zcMu; rw [hs fun v => v]
  unfold zcG
  split
  · rfl
  · dsimp only
    rw [hs fun v => Real.sin (1.5 * Real.pi * v + zcTheta j m n)]
  · dsimp only
    rw [hs fun v => v ^ 2 * Real.sin (4.5 * Real.pi * v + zcTheta j m n)]
  · dsimp only
    rw [hs fun v => Real.cos (Real.pi * v + zcTheta j m n) ^ 2]
  · dsimp only
    rw [hmu]
  · dsimp only
    rw [hs fun v => Real.sin (2 * Real.pi * v - 1 + zcTheta j m n) ^ 3]
  · dsimp only
    rw [hs fun v => v ^ 2, hs fun v => Real.cos (11 * Real.pi * v + zcTheta j m n) ^ 3]
  · dsimp only
    rw [hmu]
  · dsimp only
    rw [hs fun v => |Real.sin (2.5 * Real.pi * (v - 0.5) + zcTheta j m n)|]
  · dsimp only
    rw [hmu, hs fun v => |Real.sin (2.5 * Real.pi * v - Real.pi / 2 + zcTheta j m n)|]
  · dsimp only
    rw [hs fun v => Real.sin ((4 * v - 2) * Real.pi + zcTheta j m n)]
  · rfl

theorem zcProd_congr {a b : ℝ → ℝ} {M : ℕ} {y y' : ℕ → ℝ} (h : ∀ i < M - 1, y i = y' i) {j : ℕ} (h1 : 1 ≤ j) (h2 : j ≠ M) (h3 : j ≤ M) : zcProd a b M y j = zcProd a b M y' j := by
  have hs : ∀ k, k ≤ M - 1 → ∏ i ∈ Finset.range k, a (y i) = ∏ i ∈ Finset.range k, a (y' i) := fun k hk =>
    Finset.prod_congr rfl fun i hi => by rw [h i (by have := Finset.mem_range.1 hi; omega)]
  unfold zcProd
  split_ifs with hj
  · exact hs _ le_rfl
  · rw [hs _ (by omega), h (M - j) (by omega)]

theorem zcMean_congr {a b : ℝ → ℝ} {M : ℕ} {y y' : ℕ → ℝ} (h : ∀ i < M - 1, y i = y' i) {j : ℕ} (h1 : 1 ≤ j) (h2 : j ≠ M) (h3 : j ≤ M) : zcMean a b M y j = zcMean a b M y' j := by
  have hs : ∀ k, k ≤ M - 1 → ∑ i ∈ Finset.range k, a (y i) = ∑ i ∈ Finset.range k, a (y' i) := fun k hk =>
    Finset.sum_congr rfl fun i hi => by rw [h i (by have := Finset.mem_range.1 hi; omega)]
  unfold zcMean
  split_ifs with hj
  · rw [hs _ le_rfl]
  · rw [hs _ (by omega), h (M - j) (by omega)]

theorem zc_ite {P Q : Prop} {a b : ℝ} {dP : Decidable P} {dQ : Decidable Q} (h : P = Q) : (some (if P then a else b) : Option ℝ) = some (if Q then a else b) := by
  subst h
  congr

/-- The shape depends on the first `M - 1` entries. -/
theorem zcF_congr {id M : ℕ} (hM : 2 ≤ M) {y y' : ℕ → ℝ} (h : ∀ i < M - 1, y i = y' i) {j : ℕ} (h1 : 1 ≤ j) (h3 : j ≤ M) : zcF id M y j = zcF id M y' j := by
  have h0 : y 0 = y' 0 := h 0 (by omega)
  have hs : ∀ f : ℝ → ℝ, ∑ i ∈ Finset.range (M - 1), f (y i) = ∑ i ∈ Finset.range (M - 1), f (y' i) := fun f => Finset.sum_congr rfl fun i hi => by rw [h i (Finset.mem_range.1 hi)]
  have hid := hs fun v => v
  have hco := hs fun v => 1 - v
  have hq : zcQuintic M y = zcQuintic M y' := by unfold zcQuintic; rw [hs fun v => (0.5 - v) ^ 5]
  have hw17 : zcWedge17 M y = zcWedge17 M y' := by
    unfold zcWedge17
    refine propext ⟨fun g i hi => ?_, fun g i hi => ?_⟩
    · rw [← h i hi]; exact g i hi
    · rw [h i hi]; exact g i hi
  have hw18 : zcWedge18 M y = zcWedge18 M y' := by
    unfold zcWedge18
    have e : ∀ lo hi : ℝ, (∀ i < M - 1, zcIn (y i) lo hi) = ∀ i < M - 1, zcIn (y' i) lo hi := fun lo hi =>
      propext ⟨fun g i hi' => by rw [← h i hi']; exact g i hi', fun g i hi' => by rw [h i hi']; exact g i hi'⟩
    rw [e, e]
  have hd19 : zcDeg19 (y 0) = zcDeg19 (y' 0) := by rw [h0]
  have hd20 : zcDeg20 (y 0) = zcDeg20 (y' 0) := by rw [h0]
  by_cases hj : j = M
  · unfold zcF
    split <;> simp only [if_pos hj, h0, hid, hco, hq] <;> first | exact zc_ite hw17 | exact zc_ite hw18 | exact zc_ite hd19 | exact zc_ite hd20
  · have hj' : y (j - 1) = y' (j - 1) := h _ (by omega)
    have hP : ∀ a b, zcProd a b M y j = zcProd a b M y' j := fun a b => zcProd_congr h h1 hj h3
    have hA : ∀ a b, zcMean a b M y j = zcMean a b M y' j := fun a b => zcMean_congr h h1 hj h3
    unfold zcF
    split <;> simp only [if_neg hj, h0, hP, hA, hj'] <;> first | exact zc_ite hw17 | exact zc_ite hw18 | exact zc_ite hd19 | exact zc_ite hd20

/-- The shape depends on the first `dim` entries. -/
theorem zcF_dim (c : Zcat) (hc : c.Accepted) {y y' : ℕ → ℝ} (h : ∀ i < c.dim (y 0), y i = y' i) {j : ℕ} (h1 : 1 ≤ j) (h3 : j ≤ c.M) : zcF c.id c.M y j = zcF c.id c.M y' j := by
  obtain ⟨hid, hM, hn, hdim⟩ := hc
  by_cases hd : c.dim (y 0) = c.M - 1
  · exact zcF_congr hM (fun i hi => h i (by omega)) h1 h3
  · have hd1 : c.dim (y 0) = 1 := by
      unfold Zcat.dim at hd ⊢
      split_ifs at hd ⊢ <;> first | rfl | exact absurd rfl hd
    have h0 : y 0 = y' 0 := h 0 (by omega)
    unfold Zcat.dim at hd
    by_cases a : c.id = 14 ∨ c.id = 15 ∨ c.id = 16
    · rcases a with a | a | a <;> rw [a] <;> simp only [zcF, h0]
    · rw [if_neg a] at hd
      by_cases b : c.id = 19
      · rw [if_pos b] at hd
        by_cases d : zcDeg19 (y 0)
        · rw [b]
          have d' : zcDeg19 (y' 0) := h0 ▸ d
          simp only [zcF, if_pos d, if_pos d', h0]
        · rw [if_neg d] at hd; exact absurd rfl hd
      · rw [if_neg b] at hd
        by_cases b : c.id = 20
        · rw [if_pos b] at hd
          by_cases d : zcDeg20 (y 0)
          · rw [b]
            have d' : zcDeg20 (y' 0) := h0 ▸ d
            simp only [zcF, if_pos d, if_pos d', h0]
          · rw [if_neg d] at hd; exact absurd rfl hd
        · rw [if_neg b] at hd; exact absurd rfl hd

theorem zc_dim_pos (c : Zcat) (hc : c.Accepted) (v : ℝ) : 0 < c.dim v := by
  have := hc.2.1
  unfold Zcat.dim
  split_ifs <;> omega

theorem zc_dim_le (c : Zcat) (hc : c.Accepted) (v : ℝ) : c.dim v ≤ c.n := by
  obtain ⟨hid, hM, hn, hdim⟩ := hc
  unfold Zcat.dim
  by_cases a : c.id = 14 ∨ c.id = 15 ∨ c.id = 16
  · rw [if_pos a]; omega
  · rw [if_neg a] at hdim ⊢
    split_ifs <;> omega

theorem zc_gid (c : Zcat) (hc : c.Accepted) : c.gId ≤ 10 := by
  unfold Zcat.gId
  split_ifs
  · obtain ⟨⟨h1, h2⟩, -⟩ := hc
    generalize c.id = i at h1 h2
    interval_cases i <;> decide
  · omega

theorem zcF_some {id M : ℕ} (h1 : 1 ≤ id) (h20 : id ≤ 20) (y : ℕ → ℝ) (j : ℕ) : ∃ v, zcF id M y j = some v := by
  interval_cases id <;> exact ⟨_, rfl⟩

/-- The added terms: not negative, all zero on the surface only. -/
theorem zc_beta (c : Zcat) (hc : c.Accepted) (hN : c.level = 6 → c.n ≤ 10 ^ 50) {x : List ℝ} (hx : WideningBox c.n x) :
    (∀ k : Fin c.M, 0 ≤ c.beta (zcY x) (k + 1)) ∧ ((∀ k : Fin c.M, c.beta (zcY x) (k + 1) = 0) ↔ ZcOnSurface c x) := by
  have hM := hc.2.1
  set y := zcY x with hy
  set m := c.dim (y 0) with hm
  have hun : ∀ i, 0 ≤ y i ∧ y i ≤ 1 := fun i => zcY_unit hx (i + 1) i (by omega)
  have hmpos := zc_dim_pos c hc (y 0)
  have hmle := zc_dim_le c hc (y 0)
  by_cases hmn : m = c.n
  · have hb : ∀ k : Fin c.M, c.beta y (k + 1) = 0 := fun k => if_pos hmn
    refine ⟨fun k => (hb k).ge, ⟨fun _ j hj => ?_, fun _ => hb⟩⟩
    have : m + j < c.n := hj
    omega
  · have hlt : m < c.n := lt_of_le_of_ne hmle hmn
    have hsz : 0 < c.n - m := by omega
    have hg := fun j => zcG_unit c.gId y m c.n j (zc_gid c hc) hmpos (fun i _ => hun i)
    have hw : ∀ i, ∃ g, zcG c.gId y m c.n (i + 1) = some g ∧ |(c.w y i).getD 0| ≤ 1 ∧ ((c.w y i).getD 0 = 0 ↔ zcG c.gId y m c.n (i + 1) = some (y (m + i))) := by
      intro i
      obtain ⟨g, e, g0, g1⟩ := hg (i + 1)
      have hyi := hun (m + i)
      have hab : |y (m + i) - g| ≤ 1 := abs_le.2 ⟨by linarith, by linarith⟩
      refine ⟨g, e, ?_⟩
      have ev : c.w y i = some (if c.bias then |y (m + i) - g| ^ (0.05 : ℝ) else y (m + i) - g) := by
        unfold Zcat.w
        rw [← hm, e]
        rfl
      rw [ev]
      simp only [Option.getD_some, e, Option.some.injEq]
      split_ifs with hbias
      · constructor
        · rw [abs_of_nonneg (Real.rpow_nonneg (abs_nonneg _) _)]
          exact Real.rpow_le_one (abs_nonneg _) hab (by norm_num)
        · rw [Real.rpow_eq_zero (abs_nonneg _) (by norm_num), abs_eq_zero, sub_eq_zero]
          exact eq_comm
      · exact ⟨hab, by rw [sub_eq_zero]; exact eq_comm⟩
    have hz : ∀ k : ℕ, c.beta y k = zcZ (zcJ k c.M (fun i => (c.w y i).getD 0) (c.n - m)) k c.imbalance c.level := fun k => if_neg hmn
    have hok : ∀ k : ℕ, DistOk (c.beta y k) (zcJ k c.M (fun i => (c.w y i).getD 0) (c.n - m)) := by
      intro k
      rw [hz]
      obtain ⟨h1, h2⟩ := zcJ_mem k c.M (fun i => (c.w y i).getD 0) (c.n - m) hsz
      refine zcZ_ok _ k c.imbalance c.level h1 (fun v hv => ?_) (fun h6 => ?_)
      · obtain ⟨i, -, rfl⟩ := h2 v hv
        exact (hw i).choose_spec.2.1
      · exact le_trans (zcJ_length _ _ _ _ hsz) (le_trans (Nat.sub_le _ _) (hN h6))
    refine ⟨fun k => (hok _).1, ?_, ?_⟩
    · intro h j hj
      obtain ⟨k, hk⟩ := zcJ_cover c.M (by omega) (fun i => (c.w y i).getD 0) (c.n - m) j (by have : m + j < c.n := hj; omega)
      have := ((hok (k + 1)).2.1 (h k)) _ hk
      exact (hw j).choose_spec.2.2.1 this
    · intro h k
      refine (hok _).2.2 fun v hv => ?_
      obtain ⟨i, hi, rfl⟩ := (zcJ_mem (k + 1) c.M (fun i => (c.w y i).getD 0) (c.n - m) hsz).2 v hv
      exact (hw i).choose_spec.2.2.2 (h i (by have : i < c.n - m := hi; show m + i < c.n; omega))

theorem zc_eval (c : Zcat) (x : List ℝ) (k : Fin c.M) : c.eval x k = ((k : ℝ) + 1) ^ 2 * (zcS c.id c.M (zcY x) k + c.beta (zcY x) (k + 1)) := by
  unfold Zcat.eval zcS; ring

/-- The solution on the surface that has given first coordinates. -/
theorem zc_complete (c : Zcat) (hc : c.Accepted) (y : ℕ → ℝ) (hy : ∀ i, 0 ≤ y i ∧ y i ≤ 1) :
    ∃ x, WideningBox c.n x ∧ ZcOnSurface c x ∧ (∀ i < c.dim (y 0), zcY x i = y i) := by
  classical
  set m := c.dim (y 0) with hm
  have hmpos := zc_dim_pos c hc (y 0)
  have hmle := zc_dim_le c hc (y 0)
  have hg := fun j => zcG_unit c.gId y m c.n j (zc_gid c hc) hmpos (fun i _ => hy i)
  let q : ℕ → ℝ := fun i => if i < m then y i else (zcG c.gId y m c.n (i - m + 1)).getD 0
  have hq : ∀ i, 0 ≤ q i ∧ q i ≤ 1 := by
    intro i
    by_cases h : i < m
    · simp only [q, if_pos h]; exact hy i
    · simp only [q, if_neg h]
      obtain ⟨g, e, g0, g1⟩ := hg (i - m + 1)
      rw [e]
      exact ⟨g0, g1⟩
  let x : List ℝ := (List.range c.n).map fun i : ℕ => (q i - 1 / 2) * ((i : ℝ) + 1)
  have hx : ∀ i < c.n, x.getD i 0 = (q i - 1 / 2) * ((i : ℝ) + 1) := by
    intro i hi
    simp [x, List.getD_eq_getElem?_getD, hi]
  have hY : ∀ i < c.n, zcY x i = q i := by
    intro i hi
    have hp : (0 : ℝ) < (i : ℝ) + 1 := by positivity
    rw [zcY_eq, hx i hi]
    field_simp
    ring
  have hfirst : ∀ i < m, zcY x i = y i := fun i hi => by
    rw [hY i (by omega)]; simp only [q, if_pos hi]
  refine ⟨x, ⟨by simp [x], fun i hi => ?_⟩, ?_, hfirst⟩
  · rw [hx i hi]
    have hp : (0 : ℝ) < (i : ℝ) + 1 := by positivity
    have := hq i
    constructor <;> nlinarith
  · intro j hj
    have h0 : zcY x 0 = y 0 := hfirst 0 hmpos
    rw [h0, ← hm] at hj ⊢
    rw [zcG_congr hfirst, hY _ hj]
    obtain ⟨g, e, -, -⟩ := hg (j + 1)
    have : ¬ m + j < m := by omega
    simp only [q, if_neg this, show m + j - m = j by omega, e, Option.getD_some]

/-- Only the first `M - 1` entries count for the shape. -/
theorem zcS_unit_ext {id M : ℕ} (hM : 2 ≤ M) (y : ℕ → ℝ) (hy : ZcUnit (M - 1) y) :
    ∃ y', (∀ i, 0 ≤ y' i ∧ y' i ≤ 1) ∧ y' 0 = y 0 ∧ zcS id M y' = zcS id M y := by
  refine ⟨fun i => if i < M - 1 then y i else 0, fun i => ?_, ?_, ?_⟩
  · dsimp only
    split_ifs with h
    · exact hy i h
    · norm_num
  · simp [show 0 < M - 1 by omega]
  · funext k
    unfold zcS
    rw [zcF_congr (y := fun i => if i < M - 1 then y i else 0) (y' := y) hM (fun i hi => by simp [hi]) (by omega) (by have := k.2; omega)]

/-- A point of the problem for every shape point. -/
theorem zc_attain (c : Zcat) (hc : c.Accepted) (hN : c.level = 6 → c.n ≤ 10 ^ 50) (y : ℕ → ℝ) (hy : ZcUnit (c.M - 1) y) :
    ∃ x, WideningBox c.n x ∧ ZcOnSurface c x ∧ zcY x 0 = y 0 ∧ ∀ k, c.eval x k = ((k : ℝ) + 1) ^ 2 * zcS c.id c.M y k := by
  obtain ⟨y', hy', h0, hS⟩ := zcS_unit_ext (id := c.id) hc.2.1 y hy
  obtain ⟨x, hx, hs, hf⟩ := zc_complete c hc y' hy'
  refine ⟨x, hx, hs, by rw [hf 0 (zc_dim_pos c hc _), h0], fun k => ?_⟩
  have hb := ((zc_beta c hc hN hx).2.2 hs) k
  rw [zc_eval, hb, add_zero, ← hS]
  unfold zcS
  rw [zcF_dim c hc (fun i hi => (hf i hi).symm) (by omega) (by have := k.2; omega)]

/-! ### The theorems -/

/-- Every objective of a feasible point is at least the scaled shape function of the first variables; it is attained in all objectives exactly on the surface of the g-function. `10 ^ 50` bounds the
number of variables for the level 6 only. -/
theorem C143_distance (c : Zcat) (hc : c.Accepted) (hN : c.level = 6 → c.n ≤ 10 ^ 50) {x : List ℝ} (hx : WideningBox c.n x) :
    ∃ s : Fin c.M → ℝ, (∀ k : Fin c.M, zcF c.id c.M (zcY x) (k + 1) = some (s k)) ∧ (∀ k : Fin c.M, ((k : ℝ) + 1) ^ 2 * s k ≤ c.eval x k) ∧
      ((∀ k : Fin c.M, c.eval x k = ((k : ℝ) + 1) ^ 2 * s k) ↔ ZcOnSurface c x) := by
  obtain ⟨h0, hz⟩ := zc_beta c hc hN hx
  refine ⟨zcS c.id c.M (zcY x), fun k => ?_, fun k => ?_, ?_⟩
  · obtain ⟨v, hv⟩ := zcF_some hc.1.1 hc.1.2 (M := c.M) (zcY x) (k + 1)
    simp [zcS, hv]
  · rw [zc_eval]
    exact mul_le_mul_of_nonneg_left (by linarith [h0 k]) (by positivity)
  · rw [← hz]
    refine forall_congr' fun k => ?_
    rw [zc_eval]
    have hp : ((k : ℝ) + 1) ^ 2 ≠ 0 := by positivity
    constructor
    · intro h
      have := mul_left_cancel₀ hp h
      linarith
    · intro h; rw [h, add_zero]

/-- The Pareto-optimal solutions: on the surface, with an admissible first variable. -/
theorem C143_pareto_set (c : Zcat) (hc : c.Accepted) (hN : c.level = 6 → c.n ≤ 10 ^ 50) (x : List ℝ) :
    ParetoSolution (WideningBox c.n) c.eval x ↔ WideningBox c.n x ∧ ZcOnSurface c x ∧ ZcAdmissible c.id c.M (zcY x 0) := by
  have pos : ∀ k : Fin c.M, 0 < ((k : ℝ) + 1) ^ 2 := fun k => by positivity
  constructor
  · rintro ⟨hx, hno⟩
    obtain ⟨h0, hz⟩ := zc_beta c hc hN hx
    refine ⟨hx, ?_, ?_⟩
    · by_contra hsurf
      obtain ⟨x', hx', hs', hy0, he⟩ := zc_attain c hc hN (zcY x) (zcY_unit hx _)
      apply hno x' hx'
      refine ⟨fun k => ?_, ?_⟩
      · rw [he, zc_eval]
        exact mul_le_mul_of_nonneg_left (by linarith [h0 k]) (pos k).le
      · have : ¬ ∀ k : Fin c.M, c.beta (zcY x) (k + 1) = 0 := fun h => hsurf (hz.1 h)
        push Not at this
        obtain ⟨k, hk⟩ := this
        have hkp := lt_of_le_of_ne (h0 k) (Ne.symm hk)
        exact ⟨k, by rw [he, zc_eval]; exact mul_lt_mul_of_pos_left (by linarith) (pos k)⟩
    · rw [← zc_rigid_iff hc.1.1 hc.1.2 hc.2.1 (zcY_unit hx _), rigid_iff]
      rintro y' hy' ⟨d1, k, d2⟩
      obtain ⟨x', hx', hs', hy0, he⟩ := zc_attain c hc hN y' hy'
      apply hno x' hx'
      refine ⟨fun i => ?_, k, ?_⟩
      · rw [he, zc_eval]
        exact mul_le_mul_of_nonneg_left (by linarith [h0 i, d1 i]) (pos i).le
      · rw [he, zc_eval]
        exact mul_lt_mul_of_pos_left (by linarith [h0 k, d2]) (pos k)
  · rintro ⟨hx, hs, ha⟩
    refine ⟨hx, fun x' hx' ⟨d1, k, d2⟩ => ?_⟩
    have hb := (zc_beta c hc hN hx).2.2 hs
    have hb' := (zc_beta c hc hN hx').1
    rw [← zc_rigid_iff hc.1.1 hc.1.2 hc.2.1 (zcY_unit hx _), rigid_iff] at ha
    apply ha (zcY x') (zcY_unit hx' _)
    refine ⟨fun i => ?_, k, ?_⟩
    · have := d1 i
      rw [zc_eval, zc_eval, hb i, add_zero] at this
      have := le_of_mul_le_mul_left this (pos i)
      linarith [hb' i]
    · rw [zc_eval, zc_eval, hb k, add_zero] at d2
      have := lt_of_mul_lt_mul_left d2 (pos k).le
      linarith [hb' k]

/-- The Pareto front: the scaled shape points of the admissible parameters. -/
theorem C143_front (c : Zcat) (hc : c.Accepted) (hN : c.level = 6 → c.n ≤ 10 ^ 50) (f : Fin c.M → ℝ) :
    ParetoPoint (WideningBox c.n) c.eval f ↔
      ∃ y : ℕ → ℝ, (∀ i < c.M - 1, 0 ≤ y i ∧ y i ≤ 1) ∧ ZcAdmissible c.id c.M (y 0) ∧ ∀ k : Fin c.M, zcF c.id c.M y (k + 1) = some (f k / ((k : ℝ) + 1) ^ 2) := by
  have pos : ∀ k : Fin c.M, 0 < ((k : ℝ) + 1) ^ 2 := fun k => by positivity
  constructor
  · rintro ⟨⟨x, hx, rfl⟩, hno⟩
    obtain ⟨hx, hs, ha⟩ := (C143_pareto_set c hc hN x).1 ⟨hx, hno⟩
    obtain ⟨s, hs1, -, hs2⟩ := C143_distance c hc hN hx
    refine ⟨zcY x, zcY_unit hx _, ha, fun k => ?_⟩
    rw [hs1, hs2.2 hs k, mul_div_cancel_left₀ _ (pos k).ne']
  · rintro ⟨y, hy, ha, hf⟩
    obtain ⟨x, hx, hs, h0, he⟩ := zc_attain c hc hN y hy
    have hev : c.eval x = f := by
      funext k
      rw [he]
      simp only [zcS, hf k, Option.getD_some]
      have := (pos k).ne'
      field_simp
    rw [← hev]
    have := (C143_pareto_set c hc hN x).2 ⟨hx, hs, by rw [h0]; exact ha⟩
    exact ⟨⟨x, hx, rfl⟩, this.2⟩

/-- The chosen rows of a longer reference front: as many as asked for, in strictly growing order, beginning with the first row and, for two or more, ending with the last one. -/
theorem C143_rows (L N : ℕ) (h1 : 1 ≤ N) (h2 : N < L) :
    (zcRows L N).length = N ∧ (zcRows L N).Pairwise (· < ·) ∧ (∀ r ∈ zcRows L N, r < L) ∧ (zcRows L N).head? = some 0 ∧ (2 ≤ N → (zcRows L N).getLast? = some (L - 1)) := by
  have hlen : (zcRows L N).length = N := by simp [zcRows]
  have hget : ∀ i (hi : i < N), (zcRows L N)[i]? = some (if N = 1 then 0 else i * (L - 1) / (N - 1)) := fun i hi => by simp [zcRows, hi]
  refine ⟨hlen, ?_, ?_, ?_, ?_⟩
  · unfold zcRows
    rw [List.pairwise_map]
    refine List.Pairwise.imp_of_mem ?_ (List.pairwise_lt_range (n := N))
    intro i j hi hj hij
    have hi := List.mem_range.1 hi
    have hj := List.mem_range.1 hj
    have hN1 : ¬ N = 1 := by omega
    simp only [if_neg hN1]
    have hk : 0 < N - 1 := by omega
    have hstep : i * (L - 1) / (N - 1) + 1 ≤ j * (L - 1) / (N - 1) := by
      rw [Nat.le_div_iff_mul_le hk]
      have e : i * (L - 1) / (N - 1) * (N - 1) ≤ i * (L - 1) := Nat.div_mul_le_self _ _
      calc (i * (L - 1) / (N - 1) + 1) * (N - 1) = i * (L - 1) / (N - 1) * (N - 1) + (N - 1) := by ring
        _ ≤ i * (L - 1) + (L - 1) := by omega
        _ = (i + 1) * (L - 1) := by ring
        _ ≤ j * (L - 1) := Nat.mul_le_mul_right _ hij
    omega
  · intro r hr
    unfold zcRows at hr
    obtain ⟨i, hi, rfl⟩ := List.mem_map.1 hr
    have hi := List.mem_range.1 hi
    split_ifs with hN1
    · omega
    · have hk : 0 < N - 1 := by omega
      have : i * (L - 1) / (N - 1) ≤ L - 1 := by
        apply Nat.div_le_of_le_mul
        exact Nat.mul_le_mul_right _ (by omega)
      omega
  · rw [List.head?_eq_getElem?, hget 0 (by omega)]
    simp
  · intro hN2
    rw [List.getLast?_eq_getElem?, hlen, hget (N - 1) (by omega), if_neg (by omega), Nat.mul_div_cancel_left _ (by omega)]

/-- ZCAT4 written out: the front is the part of a hyperplane. -/
theorem C143_zcat4 (c : Zcat) (hc : c.Accepted) (h4 : c.id = 4) (hN : c.level = 6 → c.n ≤ 10 ^ 50) (f : Fin c.M → ℝ) :
    ParetoPoint (WideningBox c.n) c.eval f ↔
      (∀ k : Fin c.M, (k : ℕ) + 1 < c.M → 0 ≤ f k ∧ f k ≤ ((k : ℝ) + 1) ^ 2) ∧
      ∑ k : Fin c.M, (if (k : ℕ) + 1 < c.M then f k / ((k : ℝ) + 1) ^ 2 else ((c.M : ℝ) - 1) * (f k / ((k : ℝ) + 1) ^ 2)) = (c.M : ℝ) - 1 := by
  have hM := hc.2.1
  have hp := zc_mpos hM
  have pos : ∀ k : ℕ, (0 : ℝ) < ((k : ℝ) + 1) ^ 2 := fun k => by positivity
  let u : ℕ → ℝ := fun i => if h : i < c.M then f ⟨i, h⟩ / ((i : ℝ) + 1) ^ 2 else 0
  have hu : ∀ k : Fin c.M, u k = f k / ((k : ℝ) + 1) ^ 2 := fun k => by simp [u]
  have hsum : ∑ k : Fin c.M, (if (k : ℕ) + 1 < c.M then f k / ((k : ℝ) + 1) ^ 2 else ((c.M : ℝ) - 1) * (f k / ((k : ℝ) + 1) ^ 2)) =
      (∑ i ∈ Finset.range (c.M - 1), u i) + ((c.M : ℝ) - 1) * u (c.M - 1) := by
    have e : ∑ k : Fin c.M, (if (k : ℕ) + 1 < c.M then f k / ((k : ℝ) + 1) ^ 2 else ((c.M : ℝ) - 1) * (f k / ((k : ℝ) + 1) ^ 2)) =
        ∑ i ∈ Finset.range c.M, (if i + 1 < c.M then u i else ((c.M : ℝ) - 1) * u i) := by
      rw [Finset.sum_range]
      exact Finset.sum_congr rfl fun k _ => by rw [hu]
    rw [e, show c.M = c.M - 1 + 1 by omega, Finset.sum_range_succ, Nat.add_sub_cancel]
    congr 1
    · refine Finset.sum_congr rfl fun i hi => ?_
      rw [if_pos (by have := Finset.mem_range.1 hi; omega)]
    · rw [if_neg (by omega)]
  rw [hsum, C143_front c hc hN]
  have adm : ∀ v, ZcAdmissible c.id c.M v := fun v => by simp [ZcAdmissible, h4]
  constructor
  · rintro ⟨y, hy, -, hf⟩
    rw [h4] at hf
    have hlast := hf ⟨c.M - 1, by omega⟩
    have hmid : ∀ i (hi : i < c.M - 1), y i = u i := by
      intro i hi
      have := hf ⟨i, by omega⟩
      simp only [zcF, Option.some.injEq] at this
      rw [if_neg (by omega), Nat.add_sub_cancel] at this
      rw [this, hu ⟨i, by omega⟩]
    constructor
    · intro k hk
      have h1 := hmid k (by omega)
      have h2 := hy k (by omega)
      rw [h1, hu] at h2
      rw [le_div_iff₀ (pos k), div_le_one (pos k), zero_mul] at h2
      exact h2
    · simp only [zcF, Option.some.injEq] at hlast
      rw [if_pos (by omega), ← hu ⟨c.M - 1, by omega⟩] at hlast
      have e : ∑ i ∈ Finset.range (c.M - 1), u i = ∑ i ∈ Finset.range (c.M - 1), y i := Finset.sum_congr rfl fun i hi => (hmid i (Finset.mem_range.1 hi)).symm
      rw [e]
      have : u (c.M - 1) = 1 - (∑ i ∈ Finset.range (c.M - 1), y i) / ((c.M : ℝ) - 1) := hlast.symm
      rw [this]
      field_simp
      ring
  · rintro ⟨h1, h2⟩
    refine ⟨u, fun i hi => ?_, adm _, fun k => ?_⟩
    · have := h1 ⟨i, by omega⟩ (by show i + 1 < c.M; omega)
      rw [hu ⟨i, by omega⟩, le_div_iff₀ (pos i), div_le_one (pos i), zero_mul]
      exact this
    · rw [h4, ← hu]
      simp only [zcF, Option.some.injEq, Nat.add_sub_cancel]
      split_ifs with hk
      · have : (k : ℕ) = c.M - 1 := by omega
        rw [this]
        field_simp
        linarith
      · rfl

/-! ### Examples -/

/-- ZCAT4 with three variables and three objectives is accepted, and a solution with free first variables is Pareto-optimal. -/
example : ParetoSolution (WideningBox 3) (Zcat.eval ⟨4, 3, 3, false, 3, true, false⟩) [0.3, -1, -0.837] := by
  have hc : Zcat.Accepted ⟨4, 3, 3, false, 3, true, false⟩ := by simp [Zcat.Accepted]
  refine (C143_pareto_set _ hc (by intro h; simp at h) _).2 ⟨⟨rfl, fun i hi => ?_⟩, fun j hj => ?_, by simp [ZcAdmissible]⟩
  · interval_cases i <;> norm_num
  · have hd : ∀ v, Zcat.dim ⟨4, 3, 3, false, 3, true, false⟩ v = 2 := fun v => by simp [Zcat.dim]
    rw [hd] at hj ⊢
    have : j = 0 := by have : 2 + j < 3 := hj
                       omega
    subst this
    simp only [Zcat.gId, zcG, zcY_eq]
    norm_num

/-- The waves make part of the first variable's range useless: ZCAT15 at `y0 = 2 / 5` is no better than at `1 / 5`. -/
example : ¬ ZcAdmissible 15 3 (2 / 5) ∧ ZcAdmissible 15 3 0 := by
  constructor
  · intro h
    simp only [ZcAdmissible] at h
    norm_num at h
    have := h (1 / 5) (by norm_num) (by norm_num)
    unfold rippled at this
    have e1 : (2 * 3 - 1) * (Real.pi * (1 / 5)) = Real.pi := by ring
    have e2 : (2 * 3 - 1) * (Real.pi * (2 / 5)) = 2 * Real.pi := by ring
    rw [e1, e2, Real.cos_pi, Real.cos_two_pi] at this
    norm_num at this
  · simp only [ZcAdmissible]
    norm_num
    intro t h0 h1
    linarith

example : zcRows 10 4 = [0, 3, 6, 9] := by decide

/-! ### The parts of the formulas -/

/-- C143. The phases of the shifts of the `n - m` distance variables start at zero and divide the full turn into `n - m` equal parts. -/
theorem C143_phases (m n j : ℕ) (h : m < n) :
    zcTheta 1 m n = 0 ∧ zcTheta (j + 1) m n - zcTheta j m n = 2 * Real.pi / ((n : ℝ) - m) ∧ zcTheta (n - m + 1) m n = 2 * Real.pi := by
  have hp : (0 : ℝ) < (n : ℝ) - m := by
    have : (m : ℝ) < n := by exact_mod_cast h
    linarith
  have hc : (((n - m : ℕ) : ℝ)) = (n : ℝ) - m := by rw [Nat.cast_sub h.le]
  refine ⟨by simp [zcTheta], ?_, ?_⟩
  · unfold zcTheta
    push_cast
    field_simp
    ring
  · unfold zcTheta
    push_cast
    rw [hc]
    field_simp
    ring

/-- C143. The comparisons with a tolerance: a value is taken to be in `[lo, hi]` exactly if it is less than the machine epsilon `2⁻⁵²` (its decimal expansion in the code)
outside. -/
theorem C143_region (v lo hi : ℝ) : zcIn v lo hi ↔ lo - 2.220446049250313e-16 < v ∧ v < hi + 2.220446049250313e-16 := by
  have he : zcEps = 2.220446049250313e-16 := rfl
  have hp : (0 : ℝ) < 2.220446049250313e-16 := by norm_num
  unfold zcIn zcLeq
  rw [he]
  have key : ∀ a b : ℝ, (a < b ∨ |b - a| < 2.220446049250313e-16) ↔ a < b + 2.220446049250313e-16 := by
    intro a b
    rw [abs_lt]
    constructor
    · rintro (h | ⟨h, -⟩) <;> linarith
    · intro h
      by_cases hab : a < b
      · exact Or.inl hab
      · exact Or.inr ⟨by linarith, by linarith⟩
  rw [key, key]
  constructor <;> rintro ⟨h1, h2⟩ <;> exact ⟨by linarith, by linarith⟩

/-- C143. In the degenerate regions of the problems 19 (`[0, 0.2]` and `[0.4, 0.6]`) and 20 (`[0.1, 0.4]` and `[0.6, 0.9]`) the front is a curve: all objectives on it depend on the first variable only. -/
theorem C143_degenerate (M : ℕ) (y y' : ℕ → ℝ) (h : y 0 = y' 0) (j : ℕ) :
    ((0 ≤ y 0 ∧ y 0 ≤ 0.2 ∨ 0.4 ≤ y 0 ∧ y 0 ≤ 0.6) → zcF 19 M y j = zcF 19 M y' j) ∧
    ((0.1 ≤ y 0 ∧ y 0 ≤ 0.4 ∨ 0.6 ≤ y 0 ∧ y 0 ≤ 0.9) → zcF 20 M y j = zcF 20 M y' j) := by
  constructor
  · intro hr
    have hd : zcDeg19 (y 0) := by
      unfold zcDeg19
      rw [C143_region, C143_region]
      rcases hr with ⟨h1, h2⟩ | ⟨h1, h2⟩
      · exact Or.inl ⟨by linarith, by linarith⟩
      · exact Or.inr ⟨by linarith, by linarith⟩
    have hd' := h ▸ hd
    simp only [zcF, if_pos hd, if_pos hd', h]
  · intro hr
    have hd : zcDeg20 (y 0) := by
      unfold zcDeg20
      rw [C143_region, C143_region]
      rcases hr with ⟨h1, h2⟩ | ⟨h1, h2⟩
      · exact Or.inl ⟨by linarith, by linarith⟩
      · exact Or.inr ⟨by linarith, by linarith⟩
    have hd' := h ▸ hd
    simp only [zcF, if_pos hd, if_pos hd', h]

/-- Two points that differ in the second variable only: at `y₁ = 1/2` ZCAT19 does not tell them apart. -/
example : zcF 19 3 (fun i => if i = 0 then 1 / 2 else 0) 2 = zcF 19 3 (fun i => if i = 0 then 1 / 2 else 1) 2 :=
  (C143_degenerate 3 _ _ (by simp) 2).1 (Or.inr ⟨by norm_num, by norm_num⟩)

end Props
