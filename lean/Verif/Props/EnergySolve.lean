import Verif.Props.EnergyDirs

/-!
# C118, continued: the optimiser, energy minimisation, k-means and construction
-/

set_option linter.unusedSimpArgs false
set_option linter.unusedVariables false
set_option linter.unusedSectionVars false

namespace Props
open Model Finset

variable {p d : ℕ}

/-! ### The step of the optimiser is bounded -/

/-- The second moment bounds the first. -/
def AdamOk (st : AdamSt p d) : Prop := ∀ i k, 0 ≤ st.v i k ∧ st.m i k ^ 2 ≤ 53 * st.v i k

theorem adamNew_ok (a : ℝ) : AdamOk (adamNew a : AdamSt p d) := fun i k => by simp [adamNew]

theorem moment_step (m v g : ℝ) (hv : 0 ≤ v) (h : m ^ 2 ≤ 53 * v) :
    0 ≤ 0.999 * v + (1 - 0.999) * (g * g) ∧ (0.9 * m + (1 - 0.9) * g) ^ 2 ≤ 53 * (0.999 * v + (1 - 0.999) * (g * g)) := by
  constructor
  · nlinarith [mul_self_nonneg g]
  · nlinarith [sq_nonneg (m - 2.1 * g), sq_nonneg (0.189 * m - 0.09 * g), mul_self_nonneg g]

theorem bias_le (t : ℕ) : √(1 - 0.999 ^ (t + 1)) ≤ 1 - 0.9 ^ (t + 1) := by
  have h1 : (0.9:ℝ) ^ (t + 1) ≤ 1 := pow_le_one₀ (by norm_num) (by norm_num)
  refine Real.sqrt_le_iff.2 ⟨by linarith, ?_⟩
  have h2 := one_add_mul_le_pow (show (-2:ℝ) ≤ 0.11 by norm_num) (t + 1)
  have h3 := one_add_mul_le_pow (show (-2:ℝ) ≤ -0.1 by norm_num) (t + 1)
  have e1 : (0.999:ℝ) ^ (t + 1) = (1 + 0.11) ^ (t + 1) * 0.9 ^ (t + 1) := by rw [← mul_pow]; norm_num
  have e2 : ((0.9:ℝ) ^ (t + 1)) ^ 2 = (1 + -0.1) ^ (t + 1) * 0.9 ^ (t + 1) := by rw [← mul_pow, ← pow_mul, mul_comm, pow_mul]; norm_num
  have h0 : (0:ℝ) < 0.9 ^ (t + 1) := by positivity
  have : (2:ℝ) ≤ (1 + 0.11) ^ (t + 1) + (1 + -0.1) ^ (t + 1) := by
    have ht : (0:ℝ) ≤ ((t + 1 : ℕ) : ℝ) := by positivity
    linarith
  have := mul_le_mul_of_nonneg_right this h0.le
  nlinarith

theorem adam_ratio (m v : ℝ) (t : ℕ) (hv : 0 ≤ v) (h : m ^ 2 ≤ 53 * v) :
    |m / (1 - 0.9 ^ (t + 1)) / (√(v / (1 - 0.999 ^ (t + 1))) + 1e-8)| ≤ 7.3 := by
  have hA : (0:ℝ) < 1 - 0.9 ^ (t + 1) := sub_pos.2 (pow_lt_one₀ (by norm_num) (by norm_num) (Nat.succ_ne_zero t))
  have hB : (0:ℝ) < 1 - 0.999 ^ (t + 1) := sub_pos.2 (pow_lt_one₀ (by norm_num) (by norm_num) (Nat.succ_ne_zero t))
  have hAB := bias_le t
  have hs : 0 ≤ √(v / (1 - 0.999 ^ (t + 1))) := Real.sqrt_nonneg _
  have hm : |m| ≤ 7.3 * √v := by
    rw [← Real.sqrt_sq_eq_abs, show (7.3:ℝ) = √(7.3 ^ 2) by rw [Real.sqrt_sq]; norm_num, ← Real.sqrt_mul (by norm_num)]
    exact Real.sqrt_le_sqrt (by nlinarith)
  have hv' : √v = √(v / (1 - 0.999 ^ (t + 1))) * √(1 - 0.999 ^ (t + 1)) := by
    rw [← Real.sqrt_mul (by positivity), div_mul_cancel₀ _ hB.ne']
  rw [abs_div, abs_div, abs_of_pos hA, abs_of_pos (show 0 < √(v / (1 - 0.999 ^ (t + 1))) + 1e-8 by positivity), div_div, div_le_iff₀ (by positivity)]
  have : √v ≤ √(v / (1 - 0.999 ^ (t + 1))) * (1 - 0.9 ^ (t + 1)) := by
    rw [hv']; exact mul_le_mul_of_nonneg_left hAB hs
  nlinarith

/-- C118: one step of the optimiser moves every coordinate by at most 7.3 times the learning rate, whatever the gradients were. -/
theorem C118_adam_step (st : AdamSt p d) (h : AdamOk st) (ha : 0 ≤ st.alpha) (X G : Fin p → Fin d → ℝ) :
    AdamOk (adamNext st X G).1 ∧ (adamNext st X G).1.alpha = st.alpha ∧
    ∀ i k, |(adamNext st X G).2 i k - X i k| ≤ 7.3 * st.alpha := by
  refine ⟨fun i k => moment_step _ _ _ (h i k).1 (h i k).2, rfl, fun i k => ?_⟩
  obtain ⟨h0, h1⟩ := moment_step (st.m i k) (st.v i k) (G i k) (h i k).1 (h i k).2
  have hr := adam_ratio _ _ st.t h0 h1
  simp only [adamNext]
  rw [sub_sub_cancel_left, abs_neg, mul_div_assoc, abs_mul, abs_of_nonneg ha, mul_comm]
  exact mul_le_mul_of_nonneg_right hr ha

/-- Gradients that are zero in all steps do not move a row. -/
theorem adam_still (st : AdamSt p d) (X G : Fin p → Fin d → ℝ) (i : Fin p) (hm : ∀ k, st.m i k = 0) (hg : ∀ k, G i k = 0) :
    (∀ k, (adamNext st X G).1.m i k = 0) ∧ (adamNext st X G).2 i = X i := by
  refine ⟨fun k => by simp [adamNext, hm k, hg k], funext fun k => by simp [adamNext, hm k, hg k]⟩

/-! ### Rows -/

theorem allRows_some {α : Type*} {f : Fin p → Option α} {g : Fin p → α} : allRows f = some g ↔ ∀ i, f i = some (g i) := by
  classical
  unfold allRows
  split_ifs with h
  · simp only [Option.some.injEq]
    constructor
    · rintro rfl i; simp
    · intro hg; funext i; simp [hg i]
  · simp only [reduceCtorEq, false_iff]
    intro hg
    exact h fun i => by simp [hg i]

theorem allRows_exists {α : Type*} {f : Fin p → Option α} {P : Fin p → α → Prop} (h : ∀ i, ∃ a, f i = some a ∧ P i a) :
    ∃ g, allRows f = some g ∧ ∀ i, P i (g i) := by
  choose g hg using h
  exact ⟨g, allRows_some.2 fun i => (hg i).1, fun i => (hg i).2⟩

theorem rowNorm_sum_one {x : Fin d → ℝ} (h : ∑ i, x i = 1) : rowNorm x = some x := by
  classical
  unfold rowNorm; rw [h]; simp

/-- A row with a positive coordinate ends on the simplex. -/
theorem project_norm {x : Fin d → ℝ} (h : ∃ i, 0 < x i) : ∃ r, (spxProject x).bind rowNorm = some r ∧ OnSimplex r := by
  classical
  by_cases hn : ∃ i, x i < 0
  · obtain ⟨r, hr, hs⟩ := (C118_project x).1 hn h
    exact ⟨r, by rw [hr, Option.bind_some, rowNorm_sum_one hs.2], hs⟩
  · push Not at hn
    have hs : 0 < ∑ i, x i := by
      obtain ⟨i, hi⟩ := h
      exact sum_pos' (fun j _ => hn j) ⟨i, mem_univ _, hi⟩
    refine ⟨fun i => x i / ∑ j, x j, ?_, fun i => div_nonneg (hn i) hs.le, ?_⟩
    · rw [(C118_project x).2.1 hn, Option.bind_some]; unfold rowNorm; rw [if_neg hs.ne']
    · rw [← sum_div, div_self hs.ne']

theorem project_norm_inv {x r : Fin d → ℝ} (h : (spxProject x).bind rowNorm = some r) : OnSimplex r := by
  classical
  by_cases hp : ∃ i, 0 < x i
  · obtain ⟨r', hr', hs⟩ := project_norm hp
    rw [hr'] at h
    obtain rfl : r' = r := by simpa using h
    exact hs
  · push Not at hp
    by_cases hn : ∃ i, x i < 0
    · rw [(C118_project x).2.2 hn hp] at h; simp at h
    · push Not at hn
      rw [(C118_project x).2.1 hn, Option.bind_some] at h
      have : ∑ i, x i = 0 := sum_eq_zero fun i _ => le_antisymm (hp i) (hn i)
      unfold rowNorm at h
      rw [if_pos this] at h
      simp at h

theorem simplex_fix {x : Fin d → ℝ} (h : OnSimplex x) : (spxProject x).bind rowNorm = some x := by
  rw [(C118_project x).2.1 h.1, Option.bind_some, rowNorm_sum_one h.2]

theorem simplex_large {x : Fin d → ℝ} (h : OnSimplex x) : ∃ i, 1 / (d:ℝ) ≤ x i := by
  by_contra hc
  push Not at hc
  rcases Nat.eq_zero_or_pos d with rfl | hd
  · have := h.2; simp at this
  · have hd' : (0:ℝ) < d := by exact_mod_cast hd
    have : ∑ i, x i < ∑ i : Fin d, 1 / (d:ℝ) := sum_lt_sum_of_nonempty ⟨⟨0, hd⟩, mem_univ _⟩ fun i _ => hc i
    rw [h.2] at this
    simp [hd'.ne'] at this

/-! ### Energy -/

/-- The invariant of the energy minimisation: free rows on the simplex, frozen rows as at the beginning (`X0`), on the plane. -/
structure EnInv (freeze : Fin p → Bool) (X0 X : Fin p → Fin d → ℝ) : Prop where
  free : ∀ i, freeze i = false → OnSimplex (X i)
  frozen : ∀ i, freeze i = true → X i = X0 i
  plane : ∀ i, ∑ k, X i k = 1

/-- The state of the optimiser during a run. -/
structure AdamInv (freeze : Fin p → Bool) (st : AdamSt p d) : Prop where
  ok : AdamOk st
  pos : 0 ≤ st.alpha
  small : st.alpha ≤ 0.005
  still : ∀ i, freeze i = true → ∀ k, st.m i k = 0

theorem prjZero_zero : prjZero (fun _ : Fin d => (0:ℝ)) = fun _ => 0 := by
  funext k; simp [prjZero, prjOnto]

theorem enDir_frozen (cfg : EnCfg) (freeze : Fin p → Bool) (X : Fin p → Fin d → ℝ) (i : Fin p) (h : freeze i = true) (k : Fin d) :
    enDir cfg freeze X i k = 0 := by
  unfold enDir
  split_ifs <;> simp [h, prjZero_zero]

theorem enStep_inv (cfg : EnCfg) (freeze : Fin p → Bool) (X0 X : Fin p → Fin d → ℝ) (st : AdamSt p d) (hX : EnInv freeze X0 X) (hst : AdamInv freeze st) :
    (∀ r, enStep cfg freeze st X = some r → EnInv freeze X0 r.2 ∧ AdamInv freeze r.1) ∧
    (d ≤ 27 → ∃ r, enStep cfg freeze st X = some r) := by
  obtain ⟨ha, hal, hmove⟩ := C118_adam_step st hst.ok hst.pos X (enDir cfg freeze X)
  have hstill : ∀ i, freeze i = true → (∀ k, (adamNext st X (enDir cfg freeze X)).1.m i k = 0) ∧ (adamNext st X (enDir cfg freeze X)).2 i = X i :=
    fun i hi => adam_still st X _ i (hst.still i hi) (enDir_frozen cfg freeze X i hi)
  constructor
  · intro r hr
    unfold enStep at hr
    simp only [Option.map_eq_some_iff] at hr
    obtain ⟨X', hX', rfl⟩ := hr
    rw [allRows_some] at hX'
    have hrow : ∀ i, (freeze i = false → OnSimplex (X' i)) ∧ (freeze i = true → X' i = X i) := by
      intro i
      have h := hX' i
      constructor
      · intro hf
        simp only [hf, Bool.false_eq_true, if_false] at h
        exact project_norm_inv h
      · intro hf
        simp only [hf, if_true, Option.bind_some, (hstill i hf).2, rowNorm_sum_one (hX.plane i), Option.some.injEq] at h
        exact h.symm
    refine ⟨⟨fun i hi => (hrow i).1 hi, fun i hi => ((hrow i).2 hi).trans (hX.frozen i hi), fun i => ?_⟩, ⟨ha, ?_, ?_, fun i hi => (hstill i hi).1⟩⟩
    · cases hf : freeze i with
      | false => exact ((hrow i).1 hf).2
      | true => show ∑ k, X' i k = 1; rw [(hrow i).2 hf]; exact hX.plane i
    · rw [hal]; exact hst.pos
    · rw [hal]; exact hst.small
  · intro hd
    have : ∃ g, allRows (fun i => (if freeze i then some ((adamNext st X (enDir cfg freeze X)).2 i)
        else spxProject ((adamNext st X (enDir cfg freeze X)).2 i)).bind rowNorm) = some g ∧ ∀ _ : Fin p, True := by
      refine allRows_exists (P := fun _ _ => True) fun i => ?_
      cases hf : freeze i with
      | true =>
        simp only [if_true, Option.bind_some]
        rw [(hstill i hf).2, rowNorm_sum_one (hX.plane i)]
        exact ⟨_, rfl, trivial⟩
      | false =>
        simp only [Bool.false_eq_true, if_false]
        obtain ⟨k, hk⟩ := simplex_large (hX.free i hf)
        have hd0 : 0 < d := by have := k.2; omega
        have h27 : (1:ℝ) / 27 ≤ 1 / d := one_div_le_one_div_of_le (by exact_mod_cast hd0) (by exact_mod_cast hd)
        obtain ⟨r, hr, _⟩ := project_norm (x := (adamNext st X (enDir cfg freeze X)).2 i) ⟨k, by
          have h1 := (abs_le.1 (hmove i k)).1
          have h2 := hst.small
          have : (7.3:ℝ) * 0.005 < 1 / 27 := by norm_num
          linarith⟩
        exact ⟨r, hr, trivial⟩
    obtain ⟨g, hg, _⟩ := this
    exact ⟨_, by unfold enStep; simp only []; rw [hg]; rfl⟩

theorem enLoop_inv (cfg : EnCfg) (nPts : ℕ) (freeze : Fin p → Bool) (X0 : Fin p → Fin d → ℝ) : ∀ (k : ℕ) (s : EnSt p d),
    EnInv freeze X0 s.X → EnInv freeze X0 s.ret → AdamInv freeze s.adam →
    (∀ R, enLoop cfg nPts freeze k s = some R → EnInv freeze X0 R) ∧ (d ≤ 27 → ∃ R, enLoop cfg nPts freeze k s = some R) := by
  classical
  intro k
  induction k with
  | zero =>
    intro s _ hret _
    refine ⟨fun R h => ?_, fun _ => ⟨_, rfl⟩⟩
    obtain rfl : s.ret = R := by simpa [enLoop] using h
    exact hret
  | succ k ih =>
    intro s hX hret hst
    obtain ⟨h1, h2⟩ := enStep_inv cfg freeze X0 s.X s.adam hX hst
    have main : ∀ r, enStep cfg freeze s.adam s.X = some r →
        (∀ R, enLoop cfg nPts freeze (k + 1) s = some R → EnInv freeze X0 R) ∧ (d ≤ 27 → ∃ R, enLoop cfg nPts freeze (k + 1) s = some R) := by
      intro r hr
      obtain ⟨hr1, hr2⟩ := h1 r hr
      rw [enLoop, hr, Option.bind_some]
      simp only []
      have hret' : ∀ b : Prop, [Decidable b] → EnInv freeze X0 (if b then r.2 else s.ret) := fun b _ => by split_ifs <;> assumption
      by_cases hstop : enDelta nPts s.X r.2 < cfg.precision ∨ p < 2
      · rw [if_pos hstop]
        refine ⟨fun R hR => ?_, fun _ => ⟨_, rfl⟩⟩
        rw [← Option.some.inj hR]
        exact hret' _
      · rw [if_neg hstop]
        generalize hb : (if 2 ≤ p ∧ (s.best.all fun b => decide (enLog cfg.eps cfg.e s.X < b)) = true then some (enLog cfg.eps cfg.e s.X) else s.best) = best
        generalize hc : (if 2 ≤ p ∧ (s.best.all fun b => decide (enLog cfg.eps cfg.e s.X < b)) = true then 0 else s.nNot + 1) = cnt
        by_cases hre : cfg.restarts = true ∧ cnt > cfg.maxNot
        · rw [if_pos hre]
          exact ih _ (hret' _) (hret' _) ⟨adamNew_ok _, by have := hr2.pos; show (0:ℝ) ≤ r.1.alpha / 2; linarith,
            by have := hr2.small; have := hr2.pos; show r.1.alpha / 2 ≤ (0.005:ℝ); linarith, fun i _ k => rfl⟩
        · rw [if_neg hre]
          exact ih _ hr1 (hret' _) hr2
    constructor
    · intro R hR
      cases hs : enStep cfg freeze s.adam s.X with
      | none => rw [enLoop, hs] at hR; simp at hR
      | some r => exact (main r hs).1 R hR
    · intro hd
      obtain ⟨r, hr⟩ := h2 hd
      exact (main r hr).2 hd

/-- C118: minimising the energy keeps the rows on the simplex: whatever the settings and the number of iterations, if it starts with rows of the simplex
(and additional rows on the plane) every own row of the result is on the simplex; additional rows, and with `freeze_edges` rows of the border, are not
moved. -/
theorem C118_energy (cfg : EnCfg) (nMaxIter nPts : ℕ) (fe : Bool) (X R : Fin p → Fin d → ℝ) (hX : ∀ i, i.val < nPts → OnSimplex (X i))
    (hF : ∀ i, ∑ k, X i k = 1) (h : enSolve cfg nMaxIter nPts fe X = some R) :
    (∀ i, i.val < nPts → OnSimplex (R i)) ∧ (∀ i, nPts ≤ i.val → R i = X i) ∧
    (fe = true → ∀ i, (∃ k, X i k = 0) → R i = X i) := by
  classical
  unfold enSolve at h
  simp only [] at h
  split_ifs at h with hall
  · obtain rfl : X = R := by simpa using h
    exact ⟨hX, fun _ _ => rfl, fun _ _ _ => rfl⟩
  · have hinv := (enLoop_inv cfg nPts _ X nMaxIter _ ⟨fun i hi => ?_, fun _ _ => rfl, hF⟩ ⟨fun i hi => ?_, fun _ _ => rfl, hF⟩
      ⟨adamNew_ok _, by norm_num [adamNew], by norm_num [adamNew], fun _ _ _ => rfl⟩).1 R h
    · refine ⟨fun i hi => ?_, fun i hi => hinv.frozen i (by simp [not_lt.2 hi]), fun hfe i hk => ?_⟩
      · by_cases hf : fe = true ∧ ∃ k, X i k < 1e-16
        · rw [hinv.frozen i (by simp only [hi, if_true, hf.1, Bool.true_and, decide_eq_true_eq]; exact hf.2)]; exact hX i hi
        · refine hinv.free i ?_
          simp only [hi, if_true, Bool.and_eq_false_iff, decide_eq_false_iff_not]
          rw [not_and_or] at hf
          rcases hf with hf | hf
          · left; simpa using hf
          · right; exact hf
      · obtain ⟨k, hk⟩ := hk
        refine hinv.frozen i ?_
        by_cases hi : i.val < nPts
        · simp only [hi, if_true, hfe, Bool.true_and, decide_eq_true_eq]; exact ⟨k, by rw [hk]; norm_num⟩
        · simp [hi]
    all_goals
      refine hX i ?_
      by_contra hc
      simp [hc] at hi

/-- C118: for up to 27 objectives the minimisation ends without an exception or NaN. -/
theorem C118_energy_total (cfg : EnCfg) (nMaxIter nPts : ℕ) (fe : Bool) (X : Fin p → Fin d → ℝ) (hX : ∀ i, i.val < nPts → OnSimplex (X i))
    (hF : ∀ i, ∑ k, X i k = 1) (hd : d ≤ 27) : ∃ R, enSolve cfg nMaxIter nPts fe X = some R := by
  classical
  unfold enSolve
  simp only []
  split_ifs with hall
  · exact ⟨_, rfl⟩
  · refine (enLoop_inv cfg nPts _ X nMaxIter _ ⟨fun i hi => ?_, fun _ _ => rfl, hF⟩ ⟨fun i hi => ?_, fun _ _ => rfl, hF⟩
      ⟨adamNew_ok _, by norm_num [adamNew], by norm_num [adamNew], fun _ _ _ => rfl⟩).2 hd
    all_goals
      refine hX i ?_
      by_contra hc
      simp [hc] at hi

/-- Three rows of the simplex with two columns. -/
example : ∀ i : Fin 3, i.val < 3 → OnSimplex ((![![1, 0], ![0.5, 0.5], ![0.2, 0.8]] : Fin 3 → Fin 2 → ℝ) i) := by
  intro i _
  fin_cases i <;> refine ⟨fun k => ?_, ?_⟩ <;> first | (fin_cases k <;> norm_num) | norm_num [Fin.sum_univ_succ]

end Props
