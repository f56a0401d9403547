import Verif.Props.EnergyDirs
import Mathlib.Analysis.SpecialFunctions.Log.Deriv
import Mathlib.Analysis.SpecialFunctions.Sqrt
import Mathlib.Analysis.Calculus.Deriv.Add
import Mathlib.Analysis.Calculus.Deriv.Mul
import Mathlib.Analysis.Calculus.Deriv.Pow
import Mathlib.Analysis.Calculus.Deriv.Inv
import Mathlib.Tactic.Linarith
import Mathlib.Tactic.FieldSimp

/-!
# C118, continued: the gradient of the energy is the derivative of the energy
-/

set_option linter.unusedSimpArgs false
set_option linter.unusedVariables false

namespace Props
open Model Finset

variable {p d : ℕ}

/-- The design moved by `s` in the direction `V`. -/
def movedBy (X V : Fin p → Fin d → ℝ) (s : ℝ) : Fin p → Fin d → ℝ := fun i k => X i k + s * V i k

theorem movedBy_zero (X V : Fin p → Fin d → ℝ) : movedBy X V 0 = X := by funext i k; simp [movedBy]

theorem rowDist_deriv (X V : Fin p → Fin d → ℝ) (i j : Fin p) (h : 0 < rowDist X i j) :
    HasDerivAt (fun s => rowDist (movedBy X V s) i j) ((∑ k, (X i k - X j k) * (V i k - V j k)) / rowDist X i j) 0 := by
  have h1 : ∀ k, HasDerivAt (fun s => (movedBy X V s i k - movedBy X V s j k) ^ 2) (2 * ((X i k - X j k) * (V i k - V j k))) 0 := by
    intro k
    have h2 : HasDerivAt (fun s : ℝ => movedBy X V s i k - movedBy X V s j k) (V i k - V j k) 0 := by
      have := (((hasDerivAt_id (0:ℝ)).mul_const (V i k)).const_add (X i k)).fun_sub (((hasDerivAt_id (0:ℝ)).mul_const (V j k)).const_add (X j k))
      exact this.congr_deriv (by ring)
    exact (h2.fun_pow 2).congr_deriv (by simp [movedBy]; ring)
  have hsum : HasDerivAt (fun s => ∑ k, (movedBy X V s i k - movedBy X V s j k) ^ 2) (∑ k, 2 * ((X i k - X j k) * (V i k - V j k))) 0 := by
    exact HasDerivAt.fun_sum (u := univ) fun k _ => h1 k
  have hq : ∑ k, (movedBy X V 0 i k - movedBy X V 0 j k) ^ 2 ≠ 0 := by
    rw [movedBy_zero]; exact (Real.sqrt_pos.1 h).ne'
  have := hsum.sqrt hq
  rw [movedBy_zero] at this
  refine this.congr_deriv ?_
  rw [← mul_sum]
  unfold rowDist
  rw [mul_div_mul_left _ _ two_ne_zero]

theorem enDist_deriv (eps : ℝ) (heps : 0 < eps) (X V : Fin p → Fin d → ℝ) (i j : Fin p) (h : eps < rowDist X i j) :
    HasDerivAt (fun s => enDist eps (movedBy X V s) i j) ((∑ k, (X i k - X j k) * (V i k - V j k)) / rowDist X i j) 0 := by
  have h1 := rowDist_deriv X V i j (heps.trans h)
  refine h1.congr_of_eventuallyEq ?_
  have : ∀ᶠ s in nhds (0:ℝ), eps < rowDist (movedBy X V s) i j := by
    refine h1.continuousAt.eventually (lt_mem_nhds ?_)
    show eps < rowDist (movedBy X V 0) i j
    rw [movedBy_zero]; exact h
  filter_upwards [this] with s hs
  unfold enDist
  rw [if_neg (not_lt.2 hs.le)]

theorem enTerm_deriv (eps : ℝ) (heps : 0 < eps) (e : ℕ) (X V : Fin p → Fin d → ℝ) (i j : Fin p) (h : eps < rowDist X i j) :
    HasDerivAt (fun s => 1 / enDist eps (movedBy X V s) i j ^ e)
      (∑ k, -(e : ℝ) * (X i k - X j k) / enDist eps X i j ^ (e + 2) * (V i k - V j k)) 0 := by
  have hD : enDist eps X i j = rowDist X i j := by unfold enDist; rw [if_neg (not_lt.2 h.le)]
  have h0 : rowDist X i j ≠ 0 := (heps.trans h).ne'
  have h1 := ((enDist_deriv eps heps X V i j h).fun_pow e).fun_inv (by rw [movedBy_zero, hD]; exact pow_ne_zero _ h0)
  rw [movedBy_zero, hD] at h1
  have e1 : (fun s => 1 / enDist eps (movedBy X V s) i j ^ e) = fun s => (enDist eps (movedBy X V s) i j ^ e)⁻¹ := by funext s; rw [one_div]
  rw [e1, hD]
  refine h1.congr_deriv (Eq.symm ?_)
  rw [show (∑ k, -(e : ℝ) * (X i k - X j k) / rowDist X i j ^ (e + 2) * (V i k - V j k)) =
    -(e : ℝ) / rowDist X i j ^ (e + 2) * ∑ k, (X i k - X j k) * (V i k - V j k) by rw [mul_sum]; exact sum_congr rfl fun k _ => by ring]
  cases e with
  | zero => simp
  | succ e =>
    simp only [Nat.add_sub_cancel]
    field_simp
    ring

/-- A sum over all ordered pairs of an antisymmetric family. -/
theorem pair_sum (a : Fin p → Fin p → Fin d → ℝ) (ha : ∀ i j k, a j i k = -a i j k) (V : Fin p → Fin d → ℝ) :
    (∑ i, ∑ j, if i < j then ∑ k, a i j k * (V i k - V j k) else 0) = ∑ i, ∑ j, if i = j then 0 else ∑ k, a i j k * V i k := by
  have h1 : ∀ i j, (if i = j then 0 else ∑ k, a i j k * V i k) = (if i < j then ∑ k, a i j k * V i k else 0) + (if j < i then ∑ k, a i j k * V i k else 0) := by
    intro i j
    rcases lt_trichotomy i j with h | h | h
    · simp [h, h.ne, not_lt.2 h.le]
    · simp [h]
    · simp [h, h.ne', not_lt.2 h.le]
  have h2 : ∀ i j, (if i < j then ∑ k, a i j k * (V i k - V j k) else 0) = (if i < j then ∑ k, a i j k * V i k else 0) + (if i < j then ∑ k, a j i k * V j k else 0) := by
    intro i j
    by_cases h : i < j
    · simp only [h, if_true]
      rw [← sum_add_distrib]
      exact sum_congr rfl fun k _ => by rw [ha i j k]; ring
    · simp [h]
  simp only [h1, h2, sum_add_distrib]
  congr 1
  rw [sum_comm]

theorem rowDist_symm (X : Fin p → Fin d → ℝ) (i j : Fin p) : rowDist X j i = rowDist X i j := by
  unfold rowDist
  congr 1
  exact sum_congr rfl fun k _ => by ring

/-- C118: the gradient used by the energy minimisation is the derivative of the logarithmic energy in every direction, as long as no two points are closer
than the smallest distance that counts. -/
theorem C118_gradient (eps : ℝ) (heps : 0 < eps) (e : ℕ) (hp : 2 ≤ p) (X V : Fin p → Fin d → ℝ) (h : ∀ i j, i ≠ j → eps < rowDist X i j) :
    HasDerivAt (fun s => enLog eps e (fun i k => X i k + s * V i k)) (∑ i, ∑ k, enGrad eps e X i k * V i k) 0 := by
  have hsum : HasDerivAt (fun s => enSum eps e (movedBy X V s))
      (∑ i, ∑ j, if i < j then ∑ k, -(e : ℝ) * (X i k - X j k) / enDist eps X i j ^ (e + 2) * (V i k - V j k) else 0) 0 := by
    have : ∀ i j, HasDerivAt (fun s => if i < j then 1 / enDist eps (movedBy X V s) i j ^ e else 0)
        (if i < j then ∑ k, -(e : ℝ) * (X i k - X j k) / enDist eps X i j ^ (e + 2) * (V i k - V j k) else 0) 0 := by
      intro i j
      by_cases hij : i < j
      · simp only [hij, if_true]; exact enTerm_deriv eps heps e X V i j (h i j hij.ne)
      · simp only [hij, if_false]; exact hasDerivAt_const _ _
    exact HasDerivAt.fun_sum (u := univ) fun i _ => HasDerivAt.fun_sum (u := univ) fun j _ => this i j
  have hpos : 0 < enSum eps e X := by
    have hD : ∀ i j, 0 < enDist eps X i j := fun i j => by unfold enDist; split_ifs with h1; exacts [heps, lt_of_lt_of_le heps (not_lt.1 h1)]
    have hnn : ∀ i j : Fin p, 0 ≤ (if i < j then 1 / enDist eps X i j ^ e else 0) := fun i j => by
      split_ifs
      · exact (div_pos one_pos (pow_pos (hD i j) e)).le
      · exact le_refl _
    unfold enSum
    refine sum_pos' (fun i _ => sum_nonneg fun j _ => hnn i j) ⟨⟨0, by omega⟩, mem_univ _, ?_⟩
    refine sum_pos' (fun j _ => hnn _ j) ⟨⟨1, by omega⟩, mem_univ _, ?_⟩
    rw [if_pos (by simp [Fin.lt_def])]
    exact div_pos one_pos (pow_pos (hD _ _) e)
  have hlog := (hsum.log (by rw [movedBy_zero]; exact hpos.ne')).const_add (-Real.log (p * (p - 1) / 2 : ℕ))
  have e1 : (fun s => enLog eps e (fun i k => X i k + s * V i k)) = fun s => -Real.log (p * (p - 1) / 2 : ℕ) + Real.log (enSum eps e (movedBy X V s)) := rfl
  rw [e1]
  refine hlog.congr_deriv (Eq.symm ?_)
  rw [movedBy_zero, pair_sum (fun i j k => -(e : ℝ) * (X i k - X j k) / enDist eps X i j ^ (e + 2)) (fun i j k => by
    have : enDist eps X j i = enDist eps X i j := by unfold enDist; rw [rowDist_symm]
    rw [this]; ring) V, sum_div]
  refine sum_congr rfl fun i _ => ?_
  have h3 : ∀ k, enGrad eps e X i k * V i k =
      (∑ j, (if i = j then 0 else -(e : ℝ) * (X i k - X j k) / enDist eps X i j ^ (e + 2)) * V i k) / enSum eps e X := fun k => by
    unfold enGrad; rw [← sum_mul]; ring
  rw [sum_congr rfl fun k _ => h3 k, ← sum_div, sum_comm]
  congr 1
  refine sum_congr rfl fun j _ => ?_
  by_cases hij : i = j
  · simp [hij]
  · simp only [hij, if_false]

/-- The projection of a row in closed form. -/
theorem prjZero_eq (y : Fin d → ℝ) (k : Fin d) : prjZero y k = y k - (∑ j, y j) / d := by
  haveI : Nonempty (Fin d) := ⟨k⟩
  rw [prjZero, prjOnto_ones univ univ_nonempty]; simp

/-- C118: the direction in which `_step` moves the points keeps the sum of the coordinates of every point, does not move a frozen point, and lowers the energy
at first, unless it is zero. -/
theorem C118_direction (cfg : EnCfg) (heps : 0 < cfg.eps) (hp : 2 ≤ p) (freeze : Fin p → Bool) (X : Fin p → Fin d → ℝ) (h : ∀ i j, i ≠ j → cfg.eps < rowDist X i j) :
    (∀ i, ∑ k, enDir cfg freeze X i k = 0) ∧ (∀ i, freeze i = true → ∀ k, enDir cfg freeze X i k = 0) ∧
    ∃ D, HasDerivAt (fun s => enLog cfg.eps cfg.e (fun i k => X i k + s * -enDir cfg freeze X i k)) D 0 ∧ D ≤ 0 ∧
      (D = 0 → ∀ i k, enDir cfg freeze X i k = 0) := by
  obtain ⟨c, hc, hdir⟩ : ∃ c : ℝ, 0 < c ∧ ∀ i k, enDir cfg freeze X i k = prjZero (fun k => if freeze i then 0 else enGrad cfg.eps cfg.e X i k) k * c := by
    unfold enDir
    by_cases hn : cfg.normGrad = true
    · simp only [hn, if_true]
      exact ⟨_, inv_pos.2 (lt_of_lt_of_le (by norm_num) (le_max_right _ 1e-24)), fun i k => div_eq_mul_inv _ _⟩
    · simp only [hn]
      exact ⟨1, one_pos, fun i k => (mul_one _).symm⟩
  have hrow : ∀ i, ∑ k, enGrad cfg.eps cfg.e X i k * enDir cfg freeze X i k =
      ∑ k, prjZero (fun k => if freeze i then 0 else enGrad cfg.eps cfg.e X i k) k ^ 2 * c := by
    intro i
    have hz := (C118_plane_zero (fun k => if freeze i then 0 else enGrad cfg.eps cfg.e X i k)).1
    by_cases hf : freeze i = true
    · refine sum_congr rfl fun k _ => ?_
      rw [hdir]; simp only [hf, if_true, prjZero_eq]; simp
    · simp only [hf] at hz ⊢
      have e : ∀ k, enGrad cfg.eps cfg.e X i k * enDir cfg freeze X i k = prjZero (enGrad cfg.eps cfg.e X i) k ^ 2 * c +
          (∑ j, enGrad cfg.eps cfg.e X i j) / d * c * prjZero (enGrad cfg.eps cfg.e X i) k := by
        intro k
        rw [hdir]; simp only [hf]
        have := prjZero_eq (enGrad cfg.eps cfg.e X i) k
        have h2 : enGrad cfg.eps cfg.e X i k = prjZero (enGrad cfg.eps cfg.e X i) k + (∑ j, enGrad cfg.eps cfg.e X i j) / d := by rw [this]; ring
        conv_lhs => rw [h2]
        simp only [Bool.false_eq_true, if_false]
        ring
      rw [sum_congr rfl fun k _ => e k, sum_add_distrib, ← mul_sum]
      simp only [Bool.false_eq_true, if_false] at hz ⊢
      rw [hz, mul_zero, add_zero]
  have hnn : ∀ i, 0 ≤ ∑ k, enGrad cfg.eps cfg.e X i k * enDir cfg freeze X i k := fun i => by
    rw [hrow]; exact sum_nonneg fun k _ => mul_nonneg (sq_nonneg _) hc.le
  refine ⟨fun i => ?_, fun i hi k => ?_, _, C118_gradient cfg.eps heps cfg.e hp X (fun i k => -enDir cfg freeze X i k) h, ?_, fun h0 i k => ?_⟩
  · rw [sum_congr rfl fun k _ => hdir i k, ← sum_mul, (C118_plane_zero _).1, zero_mul]
  · rw [hdir, prjZero_eq]; simp [hi]
  · simp only [mul_neg, sum_neg_distrib, Left.neg_nonpos_iff]
    exact sum_nonneg fun i _ => hnn i
  · simp only [mul_neg, sum_neg_distrib, neg_eq_zero] at h0
    have h1 := (sum_eq_zero_iff_of_nonneg fun i _ => hnn i).1 h0 i (mem_univ _)
    rw [hrow, sum_eq_zero_iff_of_nonneg fun k _ => mul_nonneg (sq_nonneg _) hc.le] at h1
    have h2 := h1 k (mem_univ _)
    rw [hdir]
    rcases mul_eq_zero.1 h2 with h3 | h3
    · rw [pow_eq_zero_iff (by norm_num)] at h3; rw [h3, zero_mul]
    · exact absurd h3 hc.ne'

/-- Two points at distance one and more than the smallest distance. -/
example : ∀ i j : Fin 2, i ≠ j → (1 / 2 : ℝ) < rowDist (![![1], ![0]] : Fin 2 → Fin 1 → ℝ) i j := by
  intro i j h
  have : rowDist (![![1], ![0]] : Fin 2 → Fin 1 → ℝ) i j = 1 := by
    fin_cases i <;> fin_cases j <;> simp_all [rowDist]
  rw [this]; norm_num

end Props
