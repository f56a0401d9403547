import Verif.Model.RNSGA3
import Mathlib.Tactic.Linarith
import Mathlib.Tactic.Positivity
import Mathlib.Tactic.FieldSimp
import Mathlib.Tactic.Ring
import Mathlib.Tactic.NormNum
import Mathlib.Algebra.BigOperators.Field
import Mathlib.Algebra.Order.BigOperators.Group.Finset
import Mathlib.Data.Fintype.BigOperators
import Mathlib.Data.Fin.VecNotation
import Mathlib.Tactic.FinCases
import Mathlib.Algebra.BigOperators.Fin

/-! # C89: the reference directions of R-NSGA-III -/

set_option linter.unusedSimpArgs false
set_option linter.unusedVariables false

namespace Props
open Model
open scoped BigOperators

variable {n : ℕ} [NeZero n]

/-- The components of a vector sum to one: it lies on the plane of the Das-Dennis points. -/
def OnUnitPlane (r : Fin n → ℝ) : Prop := ∑ j, r j = 1

theorem r3Unit_sum (i : Fin n) : OnUnitPlane (r3Unit i) := by simp [OnUnitPlane, r3Unit]

theorem sqrt_n_pos : 0 < √(n : ℝ) := Real.sqrt_pos.2 (by exact_mod_cast Nat.pos_of_ne_zero (NeZero.ne n))

theorem r3Dot_normal (a : Fin n → ℝ) : r3Dot a (r3Normal n) = (∑ j, a j) / √n := by
  unfold r3Dot r3Normal
  rw [Finset.sum_div]
  exact Finset.sum_congr rfl fun j _ => by ring

/-- C89. The point to which the directions of an aspiration point are moved: its projection from the origin onto the plane, or (if its components sum to almost nothing) its perpendicular projection. -/
theorem C89_projection (point : Fin n → ℝ) :
    let c := r3Intersect (fun _ => 0) point (r3Unit 0) (r3Normal n) (1 / 1000000)
    OnUnitPlane c ∧ (1 / 1000000 < |∑ j, point j| / √n → ∀ j, c j = point j / ∑ k, point k) ∧
      (¬ 1 / 1000000 < |∑ j, point j| / √n → ∀ j, c j = point j - ((∑ k, point k) - 1) / n) := by
  have hs := sqrt_n_pos (n := n)
  have hn : (n : ℝ) ≠ 0 := by exact_mod_cast NeZero.ne n
  have hsq : √(n : ℝ) * √(n : ℝ) = n := Real.mul_self_sqrt (Nat.cast_nonneg n)
  intro c
  have hd : r3Dot (fun j => point j - (fun _ => (0 : ℝ)) j) (r3Normal n) = (∑ j, point j) / √n := by
    rw [r3Dot_normal]; simp
  have hw : r3Dot (fun j => r3Unit 0 j - (fun _ => (0 : ℝ)) j) (r3Normal n) = 1 / √(n : ℝ) := by
    rw [r3Dot_normal]
    have := r3Unit_sum (0 : Fin n)
    unfold OnUnitPlane at this
    simp [this]
  have habs : |(∑ j, point j) / √(n : ℝ)| = |∑ j, point j| / √n := by rw [abs_div, abs_of_pos hs]
  have h1 : 1 / 1000000 < |∑ j, point j| / √(n : ℝ) → ∀ j, c j = point j / ∑ k, point k := by
    intro h j
    have hne : ∑ k, point k ≠ 0 := by
      intro h0; rw [h0, abs_zero, zero_div] at h; norm_num at h
    change (r3Intersect (fun _ => 0) point (r3Unit 0) (r3Normal n) (1 / 1000000)) j = _
    unfold r3Intersect
    simp only [hd, hw, habs, if_pos h]
    field_simp
    ring
  have h2 : ¬ 1 / 1000000 < |∑ j, point j| / √(n : ℝ) → ∀ j, c j = point j - ((∑ k, point k) - 1) / n := by
    intro h j
    change (r3Intersect (fun _ => 0) point (r3Unit 0) (r3Normal n) (1 / 1000000)) j = _
    unfold r3Intersect
    simp only [hd, hw, habs, if_neg h]
    rw [r3Dot_normal, Finset.sum_sub_distrib]
    have := r3Unit_sum (0 : Fin n)
    unfold OnUnitPlane at this
    rw [this]
    unfold r3Normal
    rw [div_mul_div_comm, mul_one, hsq]
  refine ⟨?_, h1, h2⟩
  by_cases h : 1 / 1000000 < |∑ j, point j| / √(n : ℝ)
  · have hne : ∑ k, point k ≠ 0 := by
      intro h0; rw [h0, abs_zero, zero_div] at h; norm_num at h
    unfold OnUnitPlane
    rw [Finset.sum_congr rfl fun j _ => h1 h j, ← Finset.sum_div, div_self hne]
  · unfold OnUnitPlane
    rw [Finset.sum_congr rfl fun j _ => h2 h j, Finset.sum_sub_distrib]
    simp only [Finset.sum_const, Finset.card_univ, Fintype.card_fin, nsmul_eq_mul]
    field_simp
    ring

theorem r3Mean_map (mu : ℝ) (dirs : List (Fin n → ℝ)) (j : Fin n) : r3Mean (dirs.map fun d => fun j => mu * d j) j = mu * r3Mean dirs j := by
  unfold r3Mean
  rw [List.map_map, List.length_map]
  have : ∀ L : List (Fin n → ℝ), (L.map ((fun r => r j) ∘ fun d => fun j => mu * d j)).sum = mu * (L.map fun r => r j).sum := by
    intro L
    induction L with
    | nil => simp
    | cons d L ih => simp only [List.map_cons, List.sum_cons, ih, Function.comp]; ring
  rw [this]; ring

theorem r3Mean_sum (dirs : List (Fin n → ℝ)) (hne : dirs ≠ []) (hd : ∀ d ∈ dirs, OnUnitPlane d) : ∑ j, r3Mean dirs j = 1 := by
  unfold r3Mean
  rw [← Finset.sum_div]
  have : ∀ L : List (Fin n → ℝ), (∀ d ∈ L, OnUnitPlane d) → ∑ j, (L.map fun r => r j).sum = L.length := by
    intro L
    induction L with
    | nil => simp
    | cons d L ih =>
      intro h
      simp only [List.map_cons, List.sum_cons, List.length_cons, Finset.sum_add_distrib]
      rw [ih fun e he => h e (by simp [he])]
      have := h d (by simp)
      unfold OnUnitPlane at this
      rw [this]; push_cast; ring
  rw [this dirs hd, div_self]
  exact_mod_cast List.length_pos_of_ne_nil hne |>.ne'

/-- The moved directions, one by one. -/
theorem r3Shifted_eq (mu : ℝ) (dirs : List (Fin n → ℝ)) (point : Fin n → ℝ) :
    r3Shifted mu dirs point = dirs.map fun d => fun j => r3Intersect (fun _ => 0) point (r3Unit 0) (r3Normal n) (1 / 1000000) j + mu * (d j - r3Mean dirs j) := by
  unfold r3Shifted
  simp only []
  rw [List.map_map]
  refine List.map_congr_left fun d _ => ?_
  funext j
  simp only [Function.comp]
  rw [r3Mean_map]; ring

theorem r3Shifted_plane (mu : ℝ) (dirs : List (Fin n → ℝ)) (hne : dirs ≠ []) (hd : ∀ d ∈ dirs, OnUnitPlane d) (point : Fin n → ℝ) :
    ∀ r ∈ r3Shifted mu dirs point, OnUnitPlane r := by
  intro r hr
  rw [r3Shifted_eq] at hr
  obtain ⟨d, hdm, rfl⟩ := List.mem_map.1 hr
  have h1 := (C89_projection point).1
  have h2 := hd d hdm
  unfold OnUnitPlane at h1 h2 ⊢
  rw [Finset.sum_add_distrib, h1, ← Finset.mul_sum, Finset.sum_sub_distrib, h2, r3Mean_sum dirs hne hd]
  ring

/-- C89. A direction never leaves the first octant, and its components always sum to one — for every shrinkage factor, every set of reference points and every non-empty set of directions on the
plane; in particular the division that puts a direction back on the border is never by zero. -/
theorem C89_simplex (mu : ℝ) (dirs points : List (Fin n → ℝ)) (hne : dirs ≠ []) (hd : ∀ d ∈ dirs, OnUnitPlane d) :
    ∀ r ∈ r3RefDirs mu dirs points, (∀ j, 0 ≤ r j) ∧ OnUnitPlane r := by
  intro r hr
  unfold r3RefDirs at hr
  rcases List.mem_append.1 hr with hr | hr
  · obtain ⟨p, -, hr⟩ := List.mem_flatMap.1 hr
    have hpl := r3Shifted_plane mu dirs hne hd p
    unfold r3Border at hr
    split_ifs at hr with h
    · exact ⟨fun j => (h r hr j).le, hpl r hr⟩
    · rw [List.map_map] at hr
      obtain ⟨s, hs, rfl⟩ := List.mem_map.1 hr
      simp only [Function.comp]
      have hs1 := hpl s hs
      unfold OnUnitPlane at hs1
      have hnn : ∀ j, 0 ≤ (if s j < 0 then 0 else s j) := by intro j; split_ifs with h; exacts [le_rfl, not_lt.1 h]
      have hpos : 1 ≤ ∑ k, (if s k < 0 then 0 else s k) := by
        rw [← hs1]
        refine Finset.sum_le_sum fun k _ => ?_
        split_ifs with h; exacts [h.le, le_rfl]
      refine ⟨fun j => div_nonneg (hnn j) (by linarith), ?_⟩
      unfold OnUnitPlane
      rw [← Finset.sum_div, div_self (by linarith)]
  · obtain ⟨i, -, rfl⟩ := List.mem_map.1 hr
    refine ⟨fun j => ?_, r3Unit_sum i⟩
    unfold r3Unit; split_ifs <;> norm_num

/-- C89. There are as many directions as the population has members. -/
theorem C89_count (mu : ℝ) (dirs points : List (Fin n → ℝ)) : (r3RefDirs mu dirs points).length = r3PopSize points.length dirs.length n := by
  have hb : ∀ R : List (Fin n → ℝ), (r3Border R).length = R.length := by intro R; unfold r3Border; split_ifs <;> simp
  have hs : ∀ p : Fin n → ℝ, (r3Shifted mu dirs p).length = dirs.length := by intro p; rw [r3Shifted_eq]; simp
  unfold r3RefDirs r3PopSize
  rw [List.length_append, List.length_map, List.length_finRange, List.length_flatMap]
  congr 1
  have : points.map (fun p => (r3Border (r3Shifted mu dirs p)).length) = points.map fun _ => dirs.length := List.map_congr_left fun p _ => by rw [hb, hs]
  rw [this]; simp

/-- C89. Around a reference point in the interior the directions are a copy of the given ones, shrunken by `mu` and centred at the projection of the point. -/
theorem C89_cluster (mu : ℝ) (dirs : List (Fin n → ℝ)) (hne : dirs ≠ []) (point : Fin n → ℝ) (hin : ∀ r ∈ r3Shifted mu dirs point, ∀ j, 0 < r j) :
    let c := r3Intersect (fun _ => 0) point (r3Unit 0) (r3Normal n) (1 / 1000000)
    r3Border (r3Shifted mu dirs point) = dirs.map (fun d => fun j => c j + mu * (d j - r3Mean dirs j)) ∧ r3Mean (r3Border (r3Shifted mu dirs point)) = c := by
  intro c
  have h1 : r3Border (r3Shifted mu dirs point) = dirs.map (fun d => fun j => c j + mu * (d j - r3Mean dirs j)) := by
    unfold r3Border
    rw [if_pos hin, r3Shifted_eq]
  refine ⟨h1, ?_⟩
  rw [h1]
  funext j
  have hm : ∀ R : List (Fin n → ℝ), r3Mean R j = (R.map fun r => r j).sum / R.length := fun _ => rfl
  rw [hm (List.map _ _), List.map_map, List.length_map]
  have : ∀ (L : List (Fin n → ℝ)) (a : ℝ), (L.map ((fun r => r j) ∘ fun d => fun j => c j + mu * (d j - r3Mean dirs j))).sum
      = L.length * c j + mu * ((L.map fun r => r j).sum - L.length * r3Mean dirs j) := by
    intro L a
    induction L with
    | nil => simp
    | cons d L ih => simp only [List.map_cons, List.sum_cons, ih, Function.comp, List.length_cons]; push_cast; ring
  rw [this dirs 0]
  have hl : (dirs.length : ℝ) ≠ 0 := by exact_mod_cast (List.length_pos_of_ne_nil hne).ne'
  rw [hm dirs]
  field_simp
  ring

/-- Non-vacuity: one direction `(1/2, 1/2)`, the reference point `(1, 3)`: the direction becomes `(1/4, 3/4)`. -/
example : ∀ j, (r3Shifted (n := 2) (1 / 10) [![1 / 2, 1 / 2]] ![1, 3]).map (fun r => r j) = [(![1 / 4, 3 / 4] : Fin 2 → ℝ) j] := by
  intro j
  have h := (C89_projection (n := 2) ![1, 3]).2.1 (by
    rw [Fin.sum_univ_two]
    have hp := sqrt_n_pos (n := 2)
    rw [lt_div_iff₀ hp]
    norm_num [abs_of_pos]
    have hs : √(2 : ℝ) < 2 := (Real.sqrt_lt' (by norm_num)).2 (by norm_num)
    linarith)
  rw [r3Shifted_eq]
  simp only [List.map_cons, List.map_nil, h, List.cons.injEq, and_true]
  unfold r3Mean
  fin_cases j <;> simp [Fin.sum_univ_two] <;> norm_num

end Props
