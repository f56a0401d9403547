import Verif.Model.EnergyDirs
import Mathlib.Tactic.Linarith
import Mathlib.Tactic.Positivity
import Mathlib.Tactic.FieldSimp
import Mathlib.Tactic.FinCases
import Mathlib.Tactic.NormNum

/-!
# C118: reference directions by projection, k-means and energy minimisation lie on the unit simplex
-/

set_option linter.unusedSimpArgs false
set_option linter.unusedVariables false
set_option linter.unusedSectionVars false

namespace Props
open Model Finset

/-- A point of the unit simplex. -/
def OnSimplex {d : ℕ} (x : Fin d → ℝ) : Prop := (∀ i, 0 ≤ x i) ∧ ∑ i, x i = 1

/-- The squared euclidean distance. -/
def sqDist {d : ℕ} (x y : Fin d → ℝ) : ℝ := ∑ i, (x i - y i) ^ 2

variable {d : ℕ}

theorem prjOnto_ones (S : Finset (Fin d)) (hS : S.Nonempty) (y p : Fin d → ℝ) (i : Fin d) :
    prjOnto S y p (fun _ => 1) i = y i - (∑ j ∈ S, y j - ∑ j ∈ S, p j) / S.card := by
  have hc : (0:ℝ) < S.card := by exact_mod_cast hS.card_pos
  have hs : √(S.card : ℝ) * √(S.card : ℝ) = S.card := Real.mul_self_sqrt hc.le
  have hs0 : √(S.card : ℝ) ≠ 0 := (Real.sqrt_pos.2 hc).ne'
  simp only [prjOnto, one_pow, sum_const, nsmul_eq_mul, mul_one]
  rw [← sum_mul, sum_sub_distrib]
  congr 1
  field_simp
  rw [pow_two, hs]
  ring

theorem prjOne_some (S : Finset (Fin d)) (hS : S.Nonempty) (y : Fin d → ℝ) :
    prjOne S y = some fun i => y i - (∑ j ∈ S, y j - 1) / S.card := by
  unfold prjOne
  rw [dif_pos hS]
  congr 1
  funext i
  rw [prjOnto_ones S hS]
  congr 3
  simp [Pi.single_apply, S.min'_mem hS]

theorem sub_const_sum (y : Fin d → ℝ) (c : ℝ) : ∑ i, (y i - c) = ∑ i, y i - d * c := by
  rw [sum_sub_distrib]; simp

theorem nearest_shift (y : Fin d → ℝ) (c s : ℝ) (hs : ∑ i, (y i - c) = s) (z : Fin d → ℝ) (hz : ∑ i, z i = s) :
    sqDist y (fun i => y i - c) ≤ sqDist y z := by
  have h : sqDist y z - sqDist y (fun i => y i - c) = sqDist (fun i => y i - c) z + 2 * c * (∑ i, (y i - c) - ∑ i, z i) := by
    simp only [sqDist]
    rw [← sum_sub_distrib, ← sum_sub_distrib, mul_sum, ← sum_add_distrib]
    exact sum_congr rfl fun i _ => by ring
  have : 0 ≤ sqDist (fun i => y i - c) z := sum_nonneg fun i _ => sq_nonneg _
  rw [hs, hz] at h
  linarith

/-- C118: projecting onto the plane "sum of the coordinates equals one" gives the nearest point of that plane. -/
theorem C118_plane_one (hd : 0 < d) (y : Fin d → ℝ) :
    ∃ q, prjOne univ y = some q ∧ ∑ i, q i = 1 ∧ ∀ z : Fin d → ℝ, ∑ i, z i = 1 → sqDist y q ≤ sqDist y z := by
  haveI : Nonempty (Fin d) := ⟨⟨0, hd⟩⟩
  have hd' : (d:ℝ) ≠ 0 := by positivity
  have hs : ∑ i, (y i - (∑ j, y j - 1) / (univ : Finset (Fin d)).card) = 1 := by
    rw [sub_const_sum]; simp only [card_univ, Fintype.card_fin]; field_simp; ring
  exact ⟨_, prjOne_some univ univ_nonempty y, hs, fun z hz => nearest_shift y _ 1 hs z hz⟩

/-- C118: projecting onto the plane "sum of the coordinates equals zero" gives the nearest point of that plane. -/
theorem C118_plane_zero (y : Fin d → ℝ) :
    ∑ i, prjZero y i = 0 ∧ ∀ z : Fin d → ℝ, ∑ i, z i = 0 → sqDist y (prjZero y) ≤ sqDist y z := by
  rcases Nat.eq_zero_or_pos d with rfl | hd
  · simp [sqDist]
  · haveI : Nonempty (Fin d) := ⟨⟨0, hd⟩⟩
    have hd' : (d:ℝ) ≠ 0 := by positivity
    have e : prjZero y = fun i => y i - (∑ j, y j) / (univ : Finset (Fin d)).card := by
      funext i; rw [prjZero, prjOnto_ones univ univ_nonempty]; simp
    have hs : ∑ i, (y i - (∑ j, y j) / (univ : Finset (Fin d)).card) = 0 := by
      rw [sub_const_sum]; simp only [card_univ, Fintype.card_fin]; field_simp; ring
    rw [e]
    exact ⟨hs, fun z hz => nearest_shift y _ 0 hs z hz⟩

/-! ### The loop onto the simplex -/

open Classical in
/-- The columns of `x` that are positive. -/
noncomputable def posCols (x : Fin d → ℝ) : Finset (Fin d) := univ.filter fun i => 0 < x i

/-- The amount that is subtracted in a round. -/
noncomputable def spxTau (x : Fin d → ℝ) : ℝ := (∑ j ∈ posCols x, x j - 1) / (posCols x).card

open Classical in
/-- The row after a round. -/
noncomputable def spxNext (x : Fin d → ℝ) (i : Fin d) : ℝ := if 0 < x i then x i - spxTau x else 0

open Classical in
theorem spxLoop_step (k : ℕ) (x : Fin d → ℝ) (h : ∃ i, 0 < x i) :
    spxLoop (k + 1) x = if ∀ i, 0 ≤ spxNext x i then some (some (spxNext x)) else spxLoop k (spxNext x) := by
  have hc : ∀ i, (0 < (if x i < 0 then 0 else x i)) ↔ 0 < x i := fun i => by split_ifs with h1 <;> constructor <;> intro h2 <;> linarith
  have hv : ∀ i, 0 < x i → (if x i < 0 then 0 else x i) = x i := fun i h2 => if_neg (not_lt.2 h2.le)
  have hS : (univ.filter fun i => 0 < (if x i < 0 then 0 else x i)) = posCols x := by
    unfold posCols; exact filter_congr fun i _ => hc i
  have hne : (posCols x).Nonempty := by obtain ⟨i, hi⟩ := h; exact ⟨i, by simp [posCols, hi]⟩
  have hsum : ∑ j ∈ posCols x, (if x j < 0 then 0 else x j) = ∑ j ∈ posCols x, x j :=
    sum_congr rfl fun j hj => hv j (by simpa [posCols] using hj)
  rw [spxLoop]
  simp only []
  rw [hS, prjOne_some _ hne]
  have hx : (fun i => if i ∈ posCols x then (if x i < 0 then 0 else x i) - (∑ j ∈ posCols x, (if x j < 0 then 0 else x j) - 1) / (posCols x).card
      else (if x i < 0 then 0 else x i)) = spxNext x := by
    funext i
    rw [hsum]
    by_cases hi : 0 < x i
    · rw [if_pos (show i ∈ posCols x by simp [posCols, hi]), hv i hi]; simp [spxNext, hi, spxTau]
    · rw [if_neg (show i ∉ posCols x by simp [posCols]; linarith)]
      simp only [spxNext, hi, if_false]
      split_ifs with h1
      · rfl
      · linarith
  rw [← hx]

theorem spxNext_sum (x : Fin d → ℝ) (h : ∃ i, 0 < x i) : ∑ i, spxNext x i = 1 := by
  classical
  have hne : (posCols x).Nonempty := by obtain ⟨i, hi⟩ := h; exact ⟨i, by simp [posCols, hi]⟩
  have hc : ((posCols x).card : ℝ) ≠ 0 := by exact_mod_cast hne.card_pos.ne'
  have : ∑ i, spxNext x i = ∑ i ∈ posCols x, (x i - spxTau x) := by
    unfold spxNext posCols; rw [sum_filter]
  rw [this, sum_sub_distrib, sum_const, nsmul_eq_mul, spxTau]
  field_simp; ring

theorem exists_pos_of_sum {x : Fin d → ℝ} (h : 0 < ∑ i, x i) : ∃ i, 0 < x i := by
  by_contra hc
  push Not at hc
  linarith [sum_nonpos (fun i (_ : i ∈ univ) => hc i)]

theorem posCols_next {x : Fin d → ℝ} (hn : ¬ ∀ i, 0 ≤ spxNext x i) : (posCols (spxNext x)).card < (posCols x).card := by
  classical
  push Not at hn
  obtain ⟨i, hi⟩ := hn
  refine card_lt_card ((ssubset_iff_of_subset fun j hj => ?_).2 ⟨i, ?_, ?_⟩)
  · simp only [posCols, mem_filter, mem_univ, true_and] at hj ⊢
    by_contra hc
    simp [spxNext, hc] at hj
  · simp only [posCols, mem_filter, mem_univ, true_and]
    by_contra hc
    simp [spxNext, hc] at hi
  · simp only [posCols, mem_filter, mem_univ, true_and]; linarith

theorem spxLoop_ok : ∀ (k : ℕ) (x : Fin d → ℝ), (∃ i, 0 < x i) → (posCols x).card < k → ∃ r, spxLoop k x = some (some r) ∧ OnSimplex r := by
  intro k
  induction k with
  | zero => intro x _ h; omega
  | succ k ih =>
    intro x hx hk
    rw [spxLoop_step k x hx]
    by_cases hn : ∀ i, 0 ≤ spxNext x i
    · rw [if_pos hn]; exact ⟨_, rfl, hn, spxNext_sum x hx⟩
    · rw [if_neg hn]
      refine ih _ (exists_pos_of_sum (by rw [spxNext_sum x hx]; norm_num)) ?_
      have := posCols_next hn
      omega

theorem posCols_card (x : Fin d → ℝ) : (posCols x).card ≤ d := by
  simpa using card_le_univ (posCols x)

theorem spxLoop_none (k : ℕ) (x : Fin d → ℝ) (h : ∀ i, x i ≤ 0) : spxLoop (k + 1) x = some none := by
  classical
  have hS : (univ.filter fun i => 0 < (if x i < 0 then 0 else x i)) = (∅ : Finset (Fin d)) := by
    refine filter_eq_empty_iff.2 fun i _ => ?_
    have := h i
    split_ifs <;> linarith
  rw [spxLoop]
  simp only []
  rw [hS]
  simp [prjOne]

/-- C118: the loop onto the simplex ends after at most as many rounds as there are columns (plus one), whatever the row. -/
theorem C118_terminates (y : Fin d → ℝ) : ∃ r, spxLoop (d + 1) y = some r := by
  by_cases h : ∃ i, 0 < y i
  · obtain ⟨r, hr, _⟩ := spxLoop_ok (d + 1) y h (by have := posCols_card y; omega)
    exact ⟨_, hr⟩
  · push Not at h
    exact ⟨_, spxLoop_none d y h⟩

/-- C118: a row with a positive and a negative coordinate is moved onto the simplex; a row without negative coordinate is not changed; a row with
negative but without positive coordinates raises an exception. -/
theorem C118_project (x : Fin d → ℝ) :
    ((∃ i, x i < 0) → (∃ i, 0 < x i) → ∃ r, spxProject x = some r ∧ OnSimplex r) ∧
    ((∀ i, 0 ≤ x i) → spxProject x = some x) ∧
    ((∃ i, x i < 0) → (∀ i, x i ≤ 0) → spxProject x = none) := by
  classical
  refine ⟨fun hn hp => ?_, fun h => ?_, fun hn h => ?_⟩
  · obtain ⟨r, hr, hs⟩ := spxLoop_ok (d + 1) x hp (by have := posCols_card x; omega)
    exact ⟨r, by unfold spxProject; rw [if_pos hn, hr]; rfl, hs⟩
  · unfold spxProject; rw [if_neg (by push Not; exact h)]
  · unfold spxProject; rw [if_pos hn, spxLoop_none d x h]; rfl

/-! ### It is the euclidean projection for points on or above the plane -/

/-- `x` is `y` lowered by `tau`, except for columns that would not be positive. -/
def Lowered (y : Fin d → ℝ) (tau : ℝ) (x : Fin d → ℝ) : Prop := ∀ i, (0 < x i → x i = y i - tau) ∧ (x i ≤ 0 → y i - tau ≤ 0)

theorem spxNext_lowered {y x : Fin d → ℝ} {tau : ℝ} (h : Lowered y tau x) (ht : 0 ≤ spxTau x) : Lowered y (tau + spxTau x) (spxNext x) := by
  intro i
  by_cases hi : 0 < x i
  · have := (h i).1 hi
    simp only [spxNext, hi, if_true]
    exact ⟨fun _ => by linarith, fun _ => by linarith⟩
  · have := (h i).2 (not_lt.1 hi)
    simp only [spxNext, hi, if_false]
    exact ⟨fun h => absurd h (lt_irrefl _), fun _ => by linarith⟩

theorem posCols_sum_ge (x : Fin d → ℝ) : ∑ i, x i ≤ ∑ i ∈ posCols x, x i := by
  classical
  unfold posCols
  rw [sum_filter]
  exact sum_le_sum fun i _ => by split_ifs with h <;> linarith

theorem spxTau_nonneg {x : Fin d → ℝ} (h : 1 ≤ ∑ i, x i) : 0 ≤ spxTau x :=
  div_nonneg (by linarith [posCols_sum_ge x]) (by positivity)

theorem spxLoop_lowered : ∀ (k : ℕ) (y x r : Fin d → ℝ) (tau : ℝ), Lowered y tau x → 1 ≤ ∑ i, x i → spxLoop k x = some (some r) →
    ∃ tau', ∀ i, r i = max (y i - tau') 0 := by
  intro k
  induction k with
  | zero => intro y x r tau _ _ h; simp [spxLoop] at h
  | succ k ih =>
    intro y x r tau hl hs h
    have hp := exists_pos_of_sum (show 0 < ∑ i, x i by linarith)
    have hl' := spxNext_lowered hl (spxTau_nonneg hs)
    rw [spxLoop_step k x hp] at h
    by_cases hn : ∀ i, 0 ≤ spxNext x i
    · rw [if_pos hn] at h
      obtain rfl : spxNext x = r := by simpa using h
      refine ⟨tau + spxTau x, fun i => ?_⟩
      rcases (hn i).lt_or_eq with hi | hi
      · rw [(hl' i).1 hi, max_eq_left]; have := (hl' i).1 hi; linarith
      · rw [← hi, max_eq_right ((hl' i).2 hi.ge)]
    · rw [if_neg hn] at h
      exact ih y _ r _ hl' (by rw [spxNext_sum x hp]) h

/-- C118: for a row on or above the plane "sum equals one" the result is the nearest point of the simplex. -/
theorem C118_nearest (x r : Fin d → ℝ) (hs : 1 ≤ ∑ i, x i) (hn : ∃ i, x i < 0) (h : spxProject x = some r) (z : Fin d → ℝ) (hz : OnSimplex z) :
    sqDist x r ≤ sqDist x z := by
  classical
  unfold spxProject at h
  rw [if_pos hn] at h
  have hp := exists_pos_of_sum (show 0 < ∑ i, x i by linarith)
  obtain ⟨r', hr', hsr⟩ := spxLoop_ok (d + 1) x hp (by have := posCols_card x; omega)
  rw [hr'] at h
  obtain rfl : r' = r := by simpa using h
  obtain ⟨tau, ht⟩ := spxLoop_lowered (d + 1) x x r' 0 (fun i => ⟨fun _ => by ring, fun h => by linarith⟩) hs hr'
  have key : 0 ≤ ∑ i, (x i - r' i) * (r' i - z i) := by
    have : ∑ i, tau * (r' i - z i) ≤ ∑ i, (x i - r' i) * (r' i - z i) := by
      refine sum_le_sum fun i _ => ?_
      have hzi := hz.1 i
      rw [ht i]
      rcases le_total (x i - tau) 0 with h0 | h0
      · rw [max_eq_right h0]; nlinarith
      · rw [max_eq_left h0]; nlinarith
    have e : ∑ i, tau * (r' i - z i) = 0 := by rw [← mul_sum, sum_sub_distrib, hsr.2, hz.2]; ring
    linarith
  have e : sqDist x z - sqDist x r' = sqDist r' z + 2 * ∑ i, (x i - r' i) * (r' i - z i) := by
    simp only [sqDist]
    rw [← sum_sub_distrib, mul_sum, ← sum_add_distrib]
    exact sum_congr rfl fun i _ => by ring
  have : 0 ≤ sqDist r' z := sum_nonneg fun i _ => sq_nonneg _
  linarith

/-- Such a row: 1.2, 0.1, -0.3. -/
example : (1:ℝ) ≤ ∑ i, (![1.2, 0.1, -0.3] : Fin 3 → ℝ) i ∧ ∃ i, (![1.2, 0.1, -0.3] : Fin 3 → ℝ) i < 0 :=
  ⟨by norm_num [Fin.sum_univ_succ], 2, by show (-0.3:ℝ) < 0; norm_num⟩

/-- C118 is violated below the plane: the result for (0.2, -0.1) is (1, 0), but (0.65, 0.35) is nearer. -/
theorem C118_nearest_refuted : ∃ x r z : Fin 2 → ℝ, spxProject x = some r ∧ OnSimplex z ∧ sqDist x z < sqDist x r := by
  classical
  refine ⟨![0.2, -0.1], ![1, 0], ![0.65, 0.35], ?_, ⟨?_, ?_⟩, ?_⟩
  · have hp : posCols (![0.2, -0.1] : Fin 2 → ℝ) = {0} := by
      ext i; fin_cases i <;> norm_num [posCols]
    have hx : spxNext (![0.2, -0.1] : Fin 2 → ℝ) = ![1, 0] := by
      funext i; simp only [spxNext, spxTau, hp]; fin_cases i <;> norm_num
    unfold spxProject
    rw [if_pos ⟨1, by norm_num⟩, spxLoop_step 2 _ ⟨0, by norm_num⟩, hx, if_pos (fun i => by fin_cases i <;> norm_num)]
    rfl
  · intro i; fin_cases i <;> norm_num
  · norm_num [Fin.sum_univ_succ]
  · norm_num [sqDist, Fin.sum_univ_succ]

end Props
