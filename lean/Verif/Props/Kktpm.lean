import Mathlib.Tactic.Ring
import Mathlib.Tactic.Linarith
import Mathlib.Tactic.Positivity
import Mathlib.Tactic.FieldSimp
import Mathlib.Algebra.Order.Chebyshev
import Mathlib.LinearAlgebra.Matrix.ToLin
import Mathlib.LinearAlgebra.FiniteDimensional.Basic
import Verif.Model.Kktpm
import Verif.Spec.Kkt
import Verif.Props.Individual

/-! # C134: the KKT proximity measure -/

set_option linter.unusedSimpArgs false
set_option linter.unusedVariables false

namespace Props
open Model Spec

variable {m J n : ℕ}

/-- The contract of the linear solver: what it returns solves the system. -/
def KktSolves (solve : KktSystem m J → Option (Fin m ⊕ Fin J → ℝ)) : Prop :=
  ∀ s u, solve s = some u → ∀ i, ∑ k, s.A i k * u k = s.b i

/-- The original system `s0` with the unknowns in `S` fixed to zero, and `u` a solution of it. -/
structure KktInv (s0 : KktSystem m J) (S : Finset (Fin m ⊕ Fin J)) (st : KktSystem m J × (Fin m ⊕ Fin J → ℝ)) : Prop where
  A : ∀ i k, st.1.A i k = if i ∈ S ∨ k ∈ S then (if i = k then 1 else 0) else s0.A i k
  b : ∀ i, st.1.b i = if i ∈ S then 0 else s0.b i
  solved : ∀ i, ∑ k, st.1.A i k * st.2 k = st.1.b i

theorem KktInv.zero {s0 : KktSystem m J} {S st} (h : KktInv s0 S st) {j} (hj : j ∈ S) : st.2 j = 0 := by
  have h1 := h.solved j
  rw [h.b, if_pos hj, Finset.sum_eq_single j] at h1
  · rwa [h.A, if_pos (Or.inl hj), if_pos rfl, one_mul] at h1
  · intro k _ hk
    rw [h.A, if_pos (Or.inl hj), if_neg (Ne.symm hk), zero_mul]
  · intro hk; exact absurd (Finset.mem_univ _) hk

theorem KktInv.normal {s0 : KktSystem m J} {S st} (h : KktInv s0 S st) {i} (hi : i ∉ S) : ∑ k, s0.A i k * st.2 k = s0.b i := by
  have h1 := h.solved i
  rw [h.b, if_neg hi] at h1
  rw [← h1]
  refine Finset.sum_congr rfl fun k _ => ?_
  by_cases hk : k ∈ S
  · rw [h.zero hk, mul_zero, mul_zero]
  · rw [h.A, if_neg (by tauto)]

theorem KktInv.fix {s0 : KktSystem m J} {S st} (h : KktInv s0 S st) {j} (hj : j ∉ S)
    {u} (hu : ∀ i, ∑ k, (kktFix st.1 j).A i k * u k = (kktFix st.1 j).b i) : KktInv s0 (insert j S) (kktFix st.1 j, u) where
  A i k := by
    simp only [kktFix, Finset.mem_insert, h.A]
    by_cases h1 : i = j <;> by_cases h2 : k = j
    · subst h1; subst h2; simp
    · subst h1; simp [h2, Ne.symm h2]
    · subst h2; simp [h1]
    · simp [h1, h2]
  b i := by
    simp only [kktFix, Finset.mem_insert, h.b]
    by_cases h1 : i = j <;> simp [h1]
  solved := hu

/-- One pass of the inner loop keeps the invariant; if some multiplier is negative, it fixes at least one more. -/
theorem kkt_pass {solve : KktSystem m J → Option (Fin m ⊕ Fin J → ℝ)} (hs : KktSolves solve) {s0 : KktSystem m J} :
    ∀ (l : List (Fin m ⊕ Fin J)) {S st st'}, KktInv s0 S st → l.foldlM (kktStep solve) st = some st' →
      ∃ S', KktInv s0 S' st' ∧ S ⊆ S' ∧ ((∃ j ∈ l, st.2 j < 0) → S ⊂ S') := by
  intro l
  induction l with
  | nil => intro S st st' h hf; cases hf; exact ⟨S, h, Finset.Subset.refl _, by simp⟩
  | cons j l ih =>
    intro S st st' h hf
    rw [List.foldlM_cons] at hf
    unfold kktStep at hf
    by_cases hj : st.2 j < 0
    · have hjS : j ∉ S := fun hin => by rw [h.zero hin] at hj; exact lt_irrefl _ hj
      rw [if_pos hj] at hf
      rcases hsol : solve (kktFix st.1 j) with _ | u
      · rw [hsol] at hf; cases hf
      · rw [hsol] at hf
        have hf' : l.foldlM (kktStep solve) (kktFix st.1 j, u) = some st' := hf
        obtain ⟨S', h1, h2, -⟩ := ih (h.fix hjS (hs _ _ hsol)) hf'
        refine ⟨S', h1, (Finset.subset_insert _ _).trans h2, fun _ => ?_⟩
        exact (Finset.ssubset_insert hjS).trans_subset h2
    · rw [if_neg hj] at hf
      have hf' : l.foldlM (kktStep solve) st = some st' := hf
      obtain ⟨S', h1, h2, h3⟩ := ih h hf'
      refine ⟨S', h1, h2, ?_⟩
      rintro ⟨k, hk, hneg⟩
      rcases List.mem_cons.1 hk with rfl | hk
      · exact absurd hneg hj
      · exact h3 ⟨k, hk, hneg⟩

theorem kktOrder_mem (j : Fin m ⊕ Fin J) : j ∈ kktOrder m J := by
  unfold kktOrder
  rcases j with j | j <;> simp

/-- The outer loop ends after at most as many passes as there are unknowns, with nonnegative multipliers. -/
theorem kkt_loop {solve : KktSystem m J → Option (Fin m ⊕ Fin J → ℝ)} (hs : KktSolves solve) {s0 : KktSystem m J} :
    ∀ (fuel : ℕ) {S st}, KktInv s0 S st → m + J < S.card + fuel →
      kktLoop solve fuel st ≠ .running ∧ ∀ u, kktLoop solve fuel st = .done u → (∀ i, 0 ≤ u i) ∧ ∃ S' s', KktInv s0 S' (s', u) := by
  intro fuel
  induction fuel with
  | zero =>
    intro S st h hc
    have : S.card ≤ m + J := by
      have := Finset.card_le_univ S
      simpa using this
    omega
  | succ fuel ih =>
    intro S st h hc
    unfold kktLoop
    by_cases hneg : ∃ j, st.2 j < 0
    · rw [if_pos hneg]
      rcases hf : (kktOrder m J).foldlM (kktStep solve) st with _ | st'
      · exact ⟨by simp, by simp⟩
      · obtain ⟨j, hj⟩ := hneg
        obtain ⟨S', h1, -, h3⟩ := kkt_pass hs _ h hf
        have hlt := Finset.card_lt_card (h3 ⟨j, kktOrder_mem j, hj⟩)
        exact ih h1 (by omega)
    · rw [if_neg hneg]
      push Not at hneg
      refine ⟨by simp, ?_⟩
      intro u hu
      cases hu
      exact ⟨hneg, S, st.1, h⟩

theorem kkt_start {s0 : KktSystem m J} {u} (hu : ∀ i, ∑ k, s0.A i k * u k = s0.b i) : KktInv s0 ∅ (s0, u) :=
  ⟨fun i k => by simp, fun i => by simp, hu⟩

theorem kkt_multipliers {solve : KktSystem m J → Option (Fin m ⊕ Fin J → ℝ)} (hs : KktSolves solve) (s0 : KktSystem m J) {fuel : ℕ}
    (hf : m + J < fuel) : kktMultipliers solve s0 fuel ≠ .running ∧
      ∀ u, kktMultipliers solve s0 fuel = .done u → (∀ i, 0 ≤ u i) ∧ ∃ S s', KktInv s0 S (s', u) := by
  unfold kktMultipliers
  rcases hsol : solve s0 with _ | u
  · exact ⟨by simp, by simp⟩
  · exact kkt_loop hs fuel (kkt_start (hs _ _ hsol)) (by simpa using hf)

/-- The multipliers sum. -/
noncomputable def kktTotal (u : Fin m ⊕ Fin J → ℝ) : ℝ := ∑ i, u (.inl i)

section quad
variable (am : Fin m → Fin n → ℝ) (dg : Fin J → Fin n → ℝ) (g : Fin J → ℝ)

/-- The rows of the system applied to a vector. -/
theorem kkt_row (u : Fin m ⊕ Fin J → ℝ) (i : Fin m ⊕ Fin J) :
    ∑ k, (kktSystem am dg g).A i k * u k =
      (match i with | .inl _ => ∑ k, u (.inl k) | .inr j => g j * g j * u (.inr j)) +
      ∑ v, (match i with | .inl i => am i v | .inr j => dg j v) * ((∑ k, am k v * u (.inl k)) + ∑ l, dg l v * u (.inr l)) := by
  rw [Fintype.sum_sum_type]
  have key : ∀ c : Fin n → ℝ, ∑ v, c v * ((∑ k, am k v * u (.inl k)) + ∑ l, dg l v * u (.inr l)) =
      (∑ k, (∑ v, c v * am k v) * u (.inl k)) + ∑ l, (∑ v, c v * dg l v) * u (.inr l) := by
    intro c
    simp only [mul_add, Finset.sum_add_distrib, Finset.mul_sum, Finset.sum_mul]
    congr 1
    · rw [Finset.sum_comm]; exact Finset.sum_congr rfl fun _ _ => Finset.sum_congr rfl fun _ _ => by ring
    · rw [Finset.sum_comm]; exact Finset.sum_congr rfl fun _ _ => Finset.sum_congr rfl fun _ _ => by ring
  rcases i with i | j
  · simp only [kktSystem, key, add_mul, Finset.sum_add_distrib, one_mul]
    ring
  · simp only [kktSystem, key, add_mul, Finset.sum_add_distrib, ite_mul, zero_mul, Finset.sum_ite_eq, Finset.mem_univ, if_true]
    ring

/-- The quadratic form of the system. -/
theorem kkt_quad (u : Fin m ⊕ Fin J → ℝ) :
    ∑ i, u i * ∑ k, (kktSystem am dg g).A i k * u k =
      (∑ i, u (.inl i)) ^ 2 + ∑ v, ((∑ i, am i v * u (.inl i)) + ∑ j, dg j v * u (.inr j)) ^ 2 + ∑ j, (u (.inr j) * g j) ^ 2 := by
  simp only [kkt_row]
  rw [Fintype.sum_sum_type]
  simp only [mul_add, Finset.sum_add_distrib, Finset.mul_sum]
  have h1 : ∑ i, ∑ k, u (Sum.inl i) * u (Sum.inl k) = (∑ i, u (.inl i)) ^ 2 := by
    rw [sq, Finset.sum_mul_sum]
  have h2 : ∑ j, u (Sum.inr j) * (g j * g j * u (Sum.inr j)) = ∑ j, (u (.inr j) * g j) ^ 2 :=
    Finset.sum_congr rfl fun _ _ => by ring
  have h3 : ∑ v, ((∑ i, am i v * u (.inl i)) + ∑ j, dg j v * u (.inr j)) ^ 2 =
      ∑ i, ∑ v, u (.inl i) * (am i v * ((∑ i, am i v * u (.inl i)) + ∑ j, dg j v * u (.inr j))) +
      ∑ j, ∑ v, u (.inr j) * (dg j v * ((∑ i, am i v * u (.inl i)) + ∑ j, dg j v * u (.inr j))) := by
    rw [Finset.sum_comm (s := (Finset.univ : Finset (Fin m))), Finset.sum_comm (s := (Finset.univ : Finset (Fin J))), ← Finset.sum_add_distrib]
    refine Finset.sum_congr rfl fun v _ => ?_
    generalize hr : (∑ i, am i v * u (.inl i)) + ∑ j, dg j v * u (.inr j) = r
    have : ∀ i, u (Sum.inl i) * (am i v * r) = (am i v * u (.inl i)) * r := fun i => by ring
    simp only [this]
    have : ∀ j, u (Sum.inr j) * (dg j v * r) = (dg j v * u (.inr j)) * r := fun i => by ring
    simp only [this]
    rw [← Finset.sum_mul, ← Finset.sum_mul, ← add_mul, hr, sq]
  rw [h1, h2]
  simp only [mul_add, Finset.sum_add_distrib, Finset.mul_sum] at h3 ⊢
  linarith [h3]

/-- At the computed multipliers the error and the violated complementarity add up to one minus the weights of the objectives. -/
theorem kkt_value {S s' u} (h : KktInv (kktSystem am dg g) S (s', u)) :
    kktError am dg u + ∑ j, (u (.inr j) * g j) ^ 2 = 1 - ∑ i, u (.inl i) := by
  have h1 := kkt_quad am dg g u
  have h2 : ∑ i, u i * ∑ k, (kktSystem am dg g).A i k * u k = ∑ i, u (.inl i) := by
    have : ∀ i, u i * ∑ k, (kktSystem am dg g).A i k * u k = u i * (kktSystem am dg g).b i := by
      intro i
      by_cases hi : i ∈ S
      · have := h.zero hi
        simp only at this
        rw [this, zero_mul, zero_mul]
      · rw [h.normal hi]
    simp only [this]
    rw [Fintype.sum_sum_type]
    simp [kktSystem]
  rw [h2] at h1
  unfold kktError
  linarith [sq_nonneg (1 - ∑ i, u (.inl i))]

end quad

/-! ### The value -/

theorem kkt_cv (g : Fin J → ℝ) : calcCv defaultConfig (List.ofFn g) [] = ∑ j, max 0 (g j) := by
  unfold calcCv constrToCv
  simp only [List.length_map, List.length_nil, if_true, add_zero]
  split
  · rename_i h
    rw [List.length_ofFn] at h
    subst h
    simp
  · simp only [defaultConfig, List.map_ofFn, List.sum_ofFn]
    refine Finset.sum_congr rfl fun j _ => ?_
    simp [constrEntry]

/-- An infeasible solution has one plus its constraint violation as value, more than one; no derivative is used. -/
theorem C134_infeasible (solve : KktSystem m J → Option (Fin m ⊕ Fin J → ℝ)) (fuel : ℕ) (rho : ℝ) (z f : Fin m → ℝ) (g : Fin J → ℝ)
    (df : Fin m → Fin n → ℝ) (dg : Fin J → Fin n → ℝ) (hg : ∃ j, 0 < g j) :
    kktpm solve fuel rho z f g df dg = .ok (1 + ∑ j, max 0 (g j)) ∧ 1 < 1 + ∑ j, max 0 (g j) := by
  have hpos : 0 < ∑ j, max 0 (g j) := by
    obtain ⟨j, hj⟩ := hg
    refine Finset.sum_pos' (fun i _ => le_max_left _ _) ⟨j, Finset.mem_univ _, ?_⟩
    rw [max_eq_right hj.le]; exact hj
  refine ⟨?_, by linarith⟩
  unfold kktpm
  simp only [kkt_cv]
  rw [if_pos hpos]

theorem kkt_feasible_cv {g : Fin J → ℝ} (hg : ∀ j, g j ≤ 0) : ¬ 0 < calcCv defaultConfig (List.ofFn g) [] := by
  rw [kkt_cv, Finset.sum_eq_zero fun j _ => max_eq_left (hg j)]
  exact lt_irrefl _

/-- The search for nonnegative multipliers ends after at most as many passes as there are objectives and constraints: allowing one
more pass the evaluation of a solution is never left running, whatever the solver returns. -/
theorem C134_terminates (solve : KktSystem m J → Option (Fin m ⊕ Fin J → ℝ)) (hs : KktSolves solve) (fuel : ℕ) (hf : m + J < fuel)
    (am : Fin m → Fin n → ℝ) (dg : Fin J → Fin n → ℝ) (g : Fin J → ℝ) : kktMultipliers solve (kktSystem am dg g) fuel ≠ .running ∧
    ∀ u, kktMultipliers solve (kktSystem am dg g) fuel = .done u → ∀ i, 0 ≤ u i :=
  ⟨(kkt_multipliers hs _ hf).1, fun u hu => ((kkt_multipliers hs _ hf).2 u hu).1⟩

/-- What a returned value of a feasible solution is made of. -/
theorem kkt_done {solve : KktSystem m J → Option (Fin m ⊕ Fin J → ℝ)} (hs : KktSolves solve) {fuel : ℕ} (hf : m + J < fuel) {rho : ℝ}
    {z f : Fin m → ℝ} {g : Fin J → ℝ} (hg : ∀ j, g j ≤ 0) {df : Fin m → Fin n → ℝ} {dg : Fin J → Fin n → ℝ} {v : ℝ}
    (hv : kktpm solve fuel rho z f g df dg = .ok v) : ∃ u : Fin m ⊕ Fin J → ℝ, (∀ i, 0 ≤ u i) ∧
      kktError (kktGrad (kktWeight f z) rho df) dg u + ∑ j, (u (.inr j) * g j) ^ 2 = 1 - ∑ i, u (.inl i) ∧
      v = kktAdjust g u (kktError (kktGrad (kktWeight f z) rho df) dg u) := by
  unfold kktpm at hv
  simp only at hv
  rw [if_neg (kkt_feasible_cv hg)] at hv
  obtain ⟨-, h2⟩ := kkt_multipliers hs (kktSystem (kktGrad (kktWeight f z) rho df) dg g) hf
  rcases hm : kktMultipliers solve (kktSystem (kktGrad (kktWeight f z) rho df) dg g) fuel with _ | _ | u
  · rw [hm] at hv; cases hv
  · rw [hm] at hv; cases hv
  · rw [hm] at hv
    simp only at hv
    obtain ⟨h3, S, s', h4⟩ := h2 u hm
    split at hv
    · cases hv
    · exact ⟨u, h3, kkt_value _ _ _ h4, (Except.ok.inj hv).symm⟩

theorem kkt_adjust_eq (g : Fin J → ℝ) (u : Fin m ⊕ Fin J → ℝ) (k : ℝ) : kktAdjust g u k =
    if 1 < (∑ i, u (.inl i)) + (∑ j, -(u (.inr j) * g j)) * (1 + ∑ j, -(u (.inr j) * g j)) then
      (k + (∑ j, -(u (.inr j) * g j)) + (k * (∑ j, g j * g j) + ∑ j, -(u (.inr j) * g j)) / (1 + ∑ j, g j * g j)) / 3 else k := by
  unfold kktAdjust
  have h1 : ∑ j, -g j * u (.inr j) = ∑ j, -(u (.inr j) * g j) := Finset.sum_congr rfl fun _ _ => by ring
  have h2 : ∑ j, k * g j * g j = k * ∑ j, g j * g j := by rw [Finset.mul_sum]; exact Finset.sum_congr rfl fun _ _ => by ring
  have h3 : ∑ j, g j * u (.inr j) = -∑ j, -(u (.inr j) * g j) := by
    rw [← Finset.sum_neg_distrib]; exact Finset.sum_congr rfl fun _ _ => by ring
  have h4 : -(∑ j, u (.inr j) * g j) = ∑ j, -(u (.inr j) * g j) := by rw [Finset.sum_neg_distrib]
  simp only [h1, h2, h3, h4, sub_neg_eq_add]

/-- The value of a feasible solution is nonnegative and at most the square root of the number of constraints; with one constraint it
is at most one, so that every feasible solution is ranked before every infeasible one. -/
theorem C134_feasible_range (solve : KktSystem m J → Option (Fin m ⊕ Fin J → ℝ)) (hs : KktSolves solve) (fuel : ℕ) (hf : m + J < fuel)
    (rho : ℝ) (z f : Fin m → ℝ) (g : Fin J → ℝ) (hg : ∀ j, g j ≤ 0) (df : Fin m → Fin n → ℝ) (dg : Fin J → Fin n → ℝ) (v : ℝ)
    (hv : kktpm solve fuel rho z f g df dg = .ok v) : 0 ≤ v ∧ v ≤ Real.sqrt J := by
  have hJ : 0 < J := by
    by_contra h
    have h0 : J = 0 := by omega
    subst h0
    unfold kktpm at hv
    simp only [if_true] at hv
    rw [if_neg (kkt_feasible_cv hg)] at hv
    split at hv <;> cases hv
  obtain ⟨u, hu, hval, rfl⟩ := kkt_done hs hf hg hv
  set k := kktError (kktGrad (kktWeight f z) rho df) dg u with hk
  have hk0 : 0 ≤ k := by
    rw [hk]; unfold kktError; positivity
  set q := ∑ j, (u (.inr j) * g j) ^ 2 with hq
  have hq0 : 0 ≤ q := Finset.sum_nonneg fun _ _ => sq_nonneg _
  have ht0 : 0 ≤ ∑ i, u (.inl i) := Finset.sum_nonneg fun i _ => hu _
  have hc0 : 0 ≤ ∑ j, -(u (.inr j) * g j) := Finset.sum_nonneg fun j _ => by
    have := mul_nonpos_of_nonneg_of_nonpos (hu (.inr j)) (hg j); linarith
  have hcs : (∑ j, -(u (.inr j) * g j)) ^ 2 ≤ J * q := by
    have h := sq_sum_le_card_mul_sum_sq (s := Finset.univ) (f := fun j : Fin J => -(u (.inr j) * g j))
    simpa [hq] using h
  have hJ1 : (1 : ℝ) ≤ J := by exact_mod_cast hJ
  have hsq1 : 1 ≤ Real.sqrt J := by rw [Real.one_le_sqrt]; exact hJ1
  have hcJ : ∑ j, -(u (.inr j) * g j) ≤ Real.sqrt J := by
    apply Real.le_sqrt_of_sq_le
    nlinarith
  rw [kkt_adjust_eq]
  set c := ∑ j, -(u (.inr j) * g j) with hc
  have hG : 0 ≤ ∑ j, g j * g j := Finset.sum_nonneg fun j _ => mul_self_nonneg _
  set G := ∑ j, g j * g j
  have hd : 0 < 1 + G := by linarith
  have hp0 : 0 ≤ (k * G + c) / (1 + G) := div_nonneg (by positivity) hd.le
  have hp1 : (k * G + c) / (1 + G) ≤ Real.sqrt J := by
    rw [div_le_iff₀ hd]
    nlinarith
  split
  · constructor
    · positivity
    · linarith
  · exact ⟨hk0, by linarith⟩

/-- If the value of a feasible solution is zero, it is a Karush-Kuhn-Tucker point of the augmented achievement function. -/
theorem C134_zero_sound (solve : KktSystem m J → Option (Fin m ⊕ Fin J → ℝ)) (hs : KktSolves solve) (fuel : ℕ) (hf : m + J < fuel)
    (rho : ℝ) (z f : Fin m → ℝ) (g : Fin J → ℝ) (hg : ∀ j, g j ≤ 0) (df : Fin m → Fin n → ℝ) (dg : Fin J → Fin n → ℝ)
    (hv : kktpm solve fuel rho z f g df dg = .ok 0) : ∃ lam mu, KktPoint (kktGrad (kktWeight f z) rho df) dg g lam mu := by
  obtain ⟨u, hu, hval, h0⟩ := kkt_done hs hf hg hv
  set k := kktError (kktGrad (kktWeight f z) rho df) dg u with hk
  have hk0 : 0 ≤ k := by rw [hk]; unfold kktError; positivity
  have hc0 : 0 ≤ ∑ j, -(u (.inr j) * g j) := Finset.sum_nonneg fun j _ => by
    have := mul_nonpos_of_nonneg_of_nonpos (hu (.inr j)) (hg j); linarith
  have hkz : k = 0 := by
    rw [kkt_adjust_eq] at h0
    split at h0
    · have hG : 0 ≤ ∑ j, g j * g j := Finset.sum_nonneg fun j _ => mul_self_nonneg _
      have : 0 ≤ (k * (∑ j, g j * g j) + ∑ j, -(u (.inr j) * g j)) / (1 + ∑ j, g j * g j) := by positivity
      linarith
    · exact h0.symm
  rw [hk] at hkz
  unfold kktError at hkz
  have h1 : (1 - ∑ i, u (.inl i)) ^ 2 = 0 := by
    refine le_antisymm ?_ (sq_nonneg _)
    have : 0 ≤ ∑ v, ((∑ i, kktGrad (kktWeight f z) rho df i v * u (.inl i)) + ∑ j, dg j v * u (.inr j)) ^ 2 := by positivity
    linarith
  have h2 : ∑ v, ((∑ i, kktGrad (kktWeight f z) rho df i v * u (.inl i)) + ∑ j, dg j v * u (.inr j)) ^ 2 = 0 := by linarith
  have hsum : ∑ i, u (.inl i) = 1 := by have := pow_eq_zero_iff (two_ne_zero) |>.1 h1; linarith
  refine ⟨fun i => u (.inl i), fun j => u (.inr j), ⟨fun i => hu _, fun j => hu _⟩, hsum, fun v => ?_, fun j => ?_⟩
  · have := (Finset.sum_eq_zero_iff_of_nonneg fun v _ => sq_nonneg _).1 h2 v (Finset.mem_univ _)
    have := pow_eq_zero_iff (two_ne_zero) |>.1 this
    rw [← this]
    congr 1 <;> exact Finset.sum_congr rfl fun _ _ => mul_comm _ _
  · have hk' : k = 0 := by rw [hk]; unfold kktError; linarith
    have hq : ∑ j, (u (.inr j) * g j) ^ 2 = 0 := by rw [hsum] at hval; linarith
    have := (Finset.sum_eq_zero_iff_of_nonneg fun v _ => sq_nonneg _).1 hq j (Finset.mem_univ _)
    exact pow_eq_zero_iff (two_ne_zero) |>.1 this

/-- Hence, if the ideal point used is below the objectives and `rho` is positive, the solution satisfies the first order conditions of
the multi-objective problem with a positive weight for every objective. -/
theorem C134_pareto_kkt (solve : KktSystem m J → Option (Fin m ⊕ Fin J → ℝ)) (hs : KktSolves solve) (fuel : ℕ) (hf : m + J < fuel)
    (rho : ℝ) (hr : 0 < rho) (z f : Fin m → ℝ) (hz : ∀ i, z i < f i) (g : Fin J → ℝ) (hg : ∀ j, g j ≤ 0) (df : Fin m → Fin n → ℝ)
    (dg : Fin J → Fin n → ℝ) (hv : kktpm solve fuel rho z f g df dg = .ok 0) : ParetoKkt df dg g := by
  obtain ⟨lam, mu, h⟩ := C134_zero_sound solve hs fuel hf rho z f g hg df dg hv
  have hw : ∀ i, 0 < kktWeight f z i := fun i => by
    unfold kktWeight
    refine div_pos (Real.sqrt_pos.2 ?_) (by linarith [hz i])
    exact Finset.sum_pos' (fun _ _ => sq_nonneg _) ⟨i, Finset.mem_univ _, by have := hz i; have : 0 < f i - z i := by linarith
                                                                             positivity⟩
  refine ⟨fun i => kktWeight f z i * (lam i + rho), mu, fun i => mul_pos (hw i) (by linarith [h.nonneg.1 i]), h.nonneg.2, fun v => ?_, h.slack⟩
  rw [← h.stationary v]
  congr 1
  unfold kktGrad
  have : ∀ i, lam i * (df i v * kktWeight f z i + rho * ∑ k, df k v * kktWeight f z k) =
      lam i * (df i v * kktWeight f z i) + lam i * (rho * ∑ k, df k v * kktWeight f z k) := fun i => by ring
  simp only [this, Finset.sum_add_distrib]
  rw [← Finset.sum_mul, h.weights, one_mul, Finset.mul_sum, ← Finset.sum_add_distrib]
  exact Finset.sum_congr rfl fun i _ => by ring

/-- Conversely, a feasible Karush-Kuhn-Tucker point of the augmented achievement function has the value zero, if the system has only one
solution and the solver finds it. -/
theorem C134_zero_complete (solve : KktSystem m J → Option (Fin m ⊕ Fin J → ℝ)) (hs : KktSolves solve) (fuel : ℕ) (hf : m + J < fuel)
    (hJ : 0 < J) (rho : ℝ) (z f : Fin m → ℝ) (g : Fin J → ℝ) (hg : ∀ j, g j ≤ 0) (df : Fin m → Fin n → ℝ) (dg : Fin J → Fin n → ℝ)
    (lam : Fin m → ℝ) (mu : Fin J → ℝ) (h : KktPoint (kktGrad (kktWeight f z) rho df) dg g lam mu)
    (hreg : ∀ d : Fin m ⊕ Fin J → ℝ, (∀ i, ∑ k, (kktSystem (kktGrad (kktWeight f z) rho df) dg g).A i k * d k = 0) → d = 0)
    (hsome : (solve (kktSystem (kktGrad (kktWeight f z) rho df) dg g)).isSome) : kktpm solve fuel rho z f g df dg = .ok 0 := by
  set am := kktGrad (kktWeight f z) rho df with ham
  obtain ⟨u, hu⟩ := Option.isSome_iff_exists.1 hsome
  set w : Fin m ⊕ Fin J → ℝ := Sum.elim lam mu with hwdef
  have hst : ∀ v, (∑ i, am i v * w (.inl i)) + ∑ j, dg j v * w (.inr j) = 0 := fun v => by
    rw [← h.stationary v]
    congr 1 <;> exact Finset.sum_congr rfl fun _ _ => mul_comm _ _
  have hw : ∀ i, ∑ k, (kktSystem am dg g).A i k * w k = (kktSystem am dg g).b i := by
    intro i
    rw [kkt_row]
    simp only [hst, mul_zero, Finset.sum_const_zero, add_zero]
    rcases i with i | j
    · exact h.weights
    · have := h.slack j
      show g j * g j * mu j = 0
      rw [mul_assoc, mul_comm (g j) (mu j), this, mul_zero]
  have huw : u = w := by
    have := hreg (fun i => u i - w i) fun i => by
      have h1 := hs _ _ hu i
      have h2 := hw i
      simp only [mul_sub, Finset.sum_sub_distrib]
      rw [h1, h2, sub_self]
    funext i
    have := congrFun this i
    simp only [Pi.zero_apply] at this
    linarith
  have hnn : ¬ ∃ j, w j < 0 := by
    rintro ⟨j | j, hj⟩
    · exact absurd hj (not_lt.2 (h.nonneg.1 j))
    · exact absurd hj (not_lt.2 (h.nonneg.2 j))
  have hm : kktMultipliers solve (kktSystem am dg g) fuel = .done w := by
    unfold kktMultipliers
    rw [hu]
    obtain ⟨fuel, rfl⟩ : ∃ q, fuel = q + 1 := ⟨fuel - 1, by omega⟩
    simp only
    unfold kktLoop
    rw [huw, if_neg hnn]
  have herr : kktError am dg w = 0 := by
    unfold kktError
    have : ∑ i, w (.inl i) = 1 := h.weights
    simp [hst, this]
  unfold kktpm
  simp only
  rw [if_neg (kkt_feasible_cv hg), ← ham, hm]
  simp only
  rw [if_neg (by omega), herr, kkt_adjust_eq]
  have hc : ∑ j, -(w (.inr j) * g j) = 0 := Finset.sum_eq_zero fun j _ => by
    have : w (.inr j) * g j = 0 := h.slack j
    rw [this, neg_zero]
  have : ∑ i, w (.inl i) = 1 := h.weights
  rw [hc, this, if_neg (by norm_num)]

/-! ### Where the code departs from its description -/

/-- With one objective the system has only one solution if every constraint is inactive. -/
theorem kkt_regular (am : Fin 1 → Fin n → ℝ) (dg : Fin J → Fin n → ℝ) (g : Fin J → ℝ) (hg : ∀ j, g j ≠ 0) (d : Fin 1 ⊕ Fin J → ℝ)
    (hd : ∀ i, ∑ k, (kktSystem am dg g).A i k * d k = 0) : d = 0 := by
  have h := kkt_quad am dg g d
  simp only [hd, mul_zero, Finset.sum_const_zero] at h
  have h1 : 0 ≤ ∑ v, ((∑ i, am i v * d (.inl i)) + ∑ j, dg j v * d (.inr j)) ^ 2 := by positivity
  have h2 : 0 ≤ ∑ j, (d (.inr j) * g j) ^ 2 := by positivity
  have h3 : (∑ i, d (.inl i)) ^ 2 = 0 := le_antisymm (by linarith) (sq_nonneg _)
  have h4 : ∑ j, (d (.inr j) * g j) ^ 2 = 0 := by linarith [sq_nonneg (∑ i, d (.inl i))]
  funext i
  rcases i with i | j
  · have := pow_eq_zero_iff (two_ne_zero) |>.1 h3
    simp only [Fin.sum_univ_one] at this
    have hi : i = 0 := Subsingleton.elim _ _
    rw [hi]; exact this
  · have := (Finset.sum_eq_zero_iff_of_nonneg fun v _ => sq_nonneg _).1 h4 j (Finset.mem_univ _)
    have := pow_eq_zero_iff (two_ne_zero) |>.1 this
    exact (mul_eq_zero.1 this).resolve_right (hg j)

/-- With many constraints a feasible solution can be given a value above one, worse than infeasible ones: one objective, one variable,
a hundred equal inactive constraints. -/
theorem C134_feasible_above_one_refuted (solve : KktSystem 1 100 → Option (Fin 1 ⊕ Fin 100 → ℝ)) (hs : KktSolves solve)
    (hsome : ∀ s, (∀ d : Fin 1 ⊕ Fin 100 → ℝ, (∀ i, ∑ k, s.A i k * d k = 0) → d = 0) → (solve s).isSome) :
    ∃ v, kktpm solve 102 0 (fun _ => 0) (fun _ => 1) (fun _ => -1) (fun _ (_ : Fin 1) => 10) (fun _ _ => -1) = .ok v ∧ 1.8 < v := by
  have hw : kktWeight (m := 1) (fun _ => 1) (fun _ => 0) = fun _ => 1 := by funext k; simp [kktWeight]
  have ham : kktGrad (kktWeight (m := 1) (fun _ => 1) (fun _ => 0)) 0 (fun _ (_ : Fin 1) => 10) = fun _ _ => 10 := by
    rw [hw]; funext k v; simp [kktGrad]
  set s := kktSystem (m := 1) (J := 100) (fun _ (_ : Fin 1) => 10) (fun _ _ => -1) (fun _ => -1) with hsdef
  have hreg : ∀ d : Fin 1 ⊕ Fin 100 → ℝ, (∀ i, ∑ k, s.A i k * d k = 0) → d = 0 :=
    fun d hd => kkt_regular _ _ _ (fun _ => by norm_num) d hd
  obtain ⟨u, hu⟩ := Option.isSome_iff_exists.1 (hsome s hreg)
  set w : Fin 1 ⊕ Fin 100 → ℝ := Sum.elim (fun _ => 101 / 201) (fun _ => 10 / 201) with hwdef
  have hsol : ∀ i, ∑ k, s.A i k * w k = s.b i := by
    intro i
    rw [hsdef, kkt_row]
    rcases i with i | j
    · simp [hwdef, kktSystem]; norm_num
    · simp [hwdef, kktSystem]; norm_num
  have huw : u = w := by
    have := hreg (fun i => u i - w i) fun i => by
      have h1 := hs _ _ hu i
      have h2 := hsol i
      simp only [mul_sub, Finset.sum_sub_distrib]
      rw [h1, h2, sub_self]
    funext i
    have := congrFun this i
    simp only [Pi.zero_apply] at this
    linarith
  have hnn : ¬ ∃ j, w j < 0 := by
    rintro ⟨j | j, hj⟩ <;> simp [hwdef] at hj <;> linarith
  have hm : kktMultipliers solve s 102 = .done w := by
    unfold kktMultipliers
    rw [hu]
    simp only
    unfold kktLoop
    rw [huw, if_neg hnn]
  refine ⟨kktAdjust (fun _ => -1) w (kktError (n := 1) (fun _ _ => 10) (fun _ _ => -1) w), ?_, ?_⟩
  · unfold kktpm
    simp only
    rw [if_neg (kkt_feasible_cv fun _ => by norm_num), ham, ← hsdef, hm]
    simp only
    rw [if_neg (by norm_num)]
  · rw [kkt_adjust_eq]
    simp [hwdef, kktError]
    norm_num

/-- Without inequality constraints no value is returned: every evaluation raises. -/
theorem C134_unconstrained_refuted (solve : KktSystem m 0 → Option (Fin m ⊕ Fin 0 → ℝ)) (fuel : ℕ) (rho : ℝ) (z f : Fin m → ℝ)
    (g : Fin 0 → ℝ) (df : Fin m → Fin n → ℝ) (dg : Fin 0 → Fin n → ℝ) : ∃ e, kktpm solve fuel rho z f g df dg = .error e := by
  unfold kktpm
  simp only [if_true]
  rw [if_neg (kkt_feasible_cv fun j => j.elim0)]
  split <;> exact ⟨_, rfl⟩

/-- The caller's ideal point (or the one cached in the problem) moves with every call: call number `k + 1` uses the point of the first
call lowered by `k` times the tolerance, and the weights of the objectives change with it. -/
theorem C134_ideal_refuted (eps : ℝ) (ideal : Fin m → ℝ) (k : ℕ) : (kktIdeal eps)^[k] ideal = fun i => ideal i - k * eps := by
  induction k with
  | zero => simp
  | succ k ih =>
    rw [Function.iterate_succ_apply', ih]
    funext i
    simp only [kktIdeal]
    push_cast
    ring

/-! ### The hypotheses are met -/

open Classical in
/-- A solver that meets the contract, and that solves every system with only one solution. -/
theorem kkt_solver : ∃ solve : KktSystem m J → Option (Fin m ⊕ Fin J → ℝ), KktSolves solve ∧
    ∀ s, (∀ d : Fin m ⊕ Fin J → ℝ, (∀ i, ∑ k, s.A i k * d k = 0) → d = 0) → (solve s).isSome := by
  refine ⟨fun s => if h : ∃ u : Fin m ⊕ Fin J → ℝ, ∀ i, ∑ k, s.A i k * u k = s.b i then some h.choose else none, ?_, ?_⟩
  · intro s u hu
    simp only at hu
    split at hu
    · rename_i h
      have := Option.some.inj hu
      rw [← this]; exact h.choose_spec
    · cases hu
  · intro s hreg
    have hinj : Function.Injective (Matrix.toLin' s.A) := by
      rw [← LinearMap.ker_eq_bot, LinearMap.ker_eq_bot']
      intro d hd
      refine hreg d fun i => ?_
      have := congrFun hd i
      simpa [Matrix.toLin'_apply, Matrix.mulVec, dotProduct] using this
    obtain ⟨u, hu⟩ := LinearMap.injective_iff_surjective.1 hinj s.b
    have : ∃ u : Fin m ⊕ Fin J → ℝ, ∀ i, ∑ k, s.A i k * u k = s.b i := ⟨u, fun i => by
      have := congrFun hu i
      simpa [Matrix.toLin'_apply, Matrix.mulVec, dotProduct] using this⟩
    simp only
    rw [dif_pos this]
    rfl

/-- Minimise `x` subject to `1 - x ≤ 0`, at the optimum `x = 1`: gradients 1 and -1, an active constraint. The value is zero. -/
example : ∃ solve : KktSystem 1 1 → Option (Fin 1 ⊕ Fin 1 → ℝ), KktSolves solve ∧
    kktpm solve 3 0 (fun _ => 0) (fun _ => 1) (fun _ => 0) (fun _ (_ : Fin 1) => 1) (fun _ _ => -1) = .ok 0 := by
  obtain ⟨solve, h1, h2⟩ := kkt_solver (m := 1) (J := 1)
  refine ⟨solve, h1, ?_⟩
  have hreg : ∀ d : Fin 1 ⊕ Fin 1 → ℝ, (∀ i, ∑ k, (kktSystem (kktGrad (kktWeight (m := 1) (fun _ => 1) (fun _ => 0)) 0 (fun _ (_ : Fin 1) => (1 : ℝ)))
      (fun (_ : Fin 1) _ => -1) (fun _ => 0)).A i k * d k = 0) → d = 0 := by
    intro d hd
    have e1 := hd (.inl 0)
    have e2 := hd (.inr 0)
    simp [kktSystem, kktGrad, kktWeight] at e1 e2
    funext i
    rcases i with i | i <;> rw [show i = 0 from Subsingleton.elim _ _] <;> simp <;> linarith
  refine C134_zero_complete solve h1 3 (by norm_num) (by norm_num) 0 _ _ _ (fun _ => le_rfl) _ _ (fun _ => 1) (fun _ => 1) ?_ hreg (h2 _ hreg)
  exact ⟨⟨fun _ => zero_le_one, fun _ => zero_le_one⟩, by simp, fun v => by simp [kktGrad, kktWeight], fun j => by simp⟩

/-- The weights of two objectives before and after one more call. -/
example : kktWeight (m := 2) (fun i => if i = 0 then 1 else 2) (kktIdeal 1 (fun _ => 0)) 0 /
    kktWeight (m := 2) (fun i => if i = 0 then 1 else 2) (kktIdeal 1 (fun _ => 0)) 1 ≠
    kktWeight (m := 2) (fun i => if i = 0 then 1 else 2) ((kktIdeal 1)^[2] (fun _ => 0)) 0 /
    kktWeight (m := 2) (fun i => if i = 0 then 1 else 2) ((kktIdeal 1)^[2] (fun _ => 0)) 1 := by
  rw [C134_ideal_refuted]
  simp only [kktWeight, kktIdeal, Fin.sum_univ_two]
  norm_num
  have h1 : Real.sqrt 13 ≠ 0 := by positivity
  have h2 : Real.sqrt 25 ≠ 0 := by positivity
  field_simp
  norm_num

end Props
