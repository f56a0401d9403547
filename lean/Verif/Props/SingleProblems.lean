import Verif.Model.SingleProblems
import Verif.Spec.TestProblem
import Verif.Lemmas.Taylor
import Mathlib.Analysis.Real.Pi.Bounds
import Mathlib.Tactic.NormNum
import Mathlib.Tactic.Ring
import Mathlib.Tactic.FieldSimp
import Mathlib.Tactic.Positivity
import Mathlib.Algebra.Order.BigOperators.Group.List
import Mathlib.Algebra.Order.BigOperators.Ring.List
import Mathlib.Data.List.GetD

/-!
# C80: the reported optimum of the single-objective test problems

For each problem the reported `pareto_set` is the only optimal solution inside the bounds and `pareto_front` its value, for
every number of variables. For Schwefel, Himmelblau and the pressure vessel what is reported is not an optimum.
-/

set_option linter.unusedSimpArgs false
set_option linter.unusedVariables false

namespace Props
open Model Spec Lemmas

/-- `x` is the only optimal solution of `f` over `D`, and `v` is its value. -/
def UniqueOptimum (D : List ℝ → Prop) (f : List ℝ → ℝ) (x : List ℝ) (v : ℝ) : Prop :=
  OptimalAt D f x v ∧ ∀ y, D y → f y = v → y = x

theorem cube_replicate {n : ℕ} {lo hi c : ℝ} (h : lo ≤ c ∧ c ≤ hi) : Cube n lo hi (List.replicate n c) :=
  ⟨by simp, fun v hv => by rw [List.eq_of_mem_replicate hv]; exact h⟩

/-- A sum of non-negative terms that is zero has only zero terms. -/
theorem sum_map_zero (f : ℝ → ℝ) (hf : ∀ v, 0 ≤ f v) (x : List ℝ) (h : (x.map f).sum = 0) : ∀ v ∈ x, f v = 0 := by
  induction x with
  | nil => simp
  | cons a l ih =>
    simp only [List.map_cons, List.sum_cons] at h
    have h1 := hf a
    have h2 : 0 ≤ (l.map f).sum := List.sum_nonneg (by simp only [List.mem_map]; rintro _ ⟨v, _, rfl⟩; exact hf v)
    intro v hv
    rcases List.mem_cons.1 hv with rfl | hv
    · linarith
    · exact ih (by linarith) v hv

theorem sum_map_zero_on {α : Type*} (f : α → ℝ) (hf : ∀ v, 0 ≤ f v) (x : List α) (h : (x.map f).sum = 0) : ∀ v ∈ x, f v = 0 := by
  induction x with
  | nil => simp
  | cons a l ih =>
    simp only [List.map_cons, List.sum_cons] at h
    have h1 := hf a
    have h2 : 0 ≤ (l.map f).sum := List.sum_nonneg (by simp only [List.mem_map]; rintro _ ⟨v, _, rfl⟩; exact hf v)
    intro v hv
    rcases List.mem_cons.1 hv with rfl | hv
    · linarith
    · exact ih (by linarith) v hv

theorem sum_map_nonneg' (f : ℝ → ℝ) (hf : ∀ v, 0 ≤ f v) (x : List ℝ) : 0 ≤ (x.map f).sum :=
  List.sum_nonneg (by simp only [List.mem_map]; rintro _ ⟨v, _, rfl⟩; exact hf v)

theorem eq_replicate_of {n : ℕ} {c : ℝ} {x : List ℝ} (hl : x.length = n) (h : ∀ v ∈ x, v = c) : x = List.replicate n c :=
  List.eq_replicate_iff.2 ⟨hl, h⟩

/-- C80, Sphere. -/
theorem C80_sphere (n : ℕ) : UniqueOptimum (Cube n 0 1) sphere (sphereSet n) sphereFront := by
  have hn : ∀ x, 0 ≤ sphere x := fun x => sum_map_nonneg' _ (fun v => sq_nonneg _) x
  refine ⟨⟨cube_replicate (by norm_num), by simp [sphere, sphereSet, sphereFront], fun y _ => hn y⟩, fun y hy h => ?_⟩
  refine eq_replicate_of hy.1 fun v hv => ?_
  have := sum_map_zero _ (fun v => sq_nonneg (v - 1 / 2)) y h v hv
  have := pow_eq_zero_iff (n := 2) (by norm_num) |>.1 this
  linarith

theorem rastrigin_eq (A : ℝ) (x : List ℝ) :
    rastrigin A x = (x.map fun v => v ^ 2 + A * (1 - Real.cos (2 * Real.pi * v))).sum := by
  unfold rastrigin
  induction x with
  | nil => simp
  | cons a l ih =>
    simp only [List.map_cons, List.sum_cons, List.length_cons, Nat.cast_add, Nat.cast_one]
    rw [← ih]; ring

/-- C80, Rastrigin, for every non-negative amplitude. -/
theorem C80_rastrigin (n : ℕ) (A : ℝ) (hA : 0 ≤ A) :
    UniqueOptimum (Cube n (-5) 5) (rastrigin A) (rastriginSet n) rastriginFront := by
  have h0 : ∀ v : ℝ, 0 ≤ A * (1 - Real.cos (2 * Real.pi * v)) :=
    fun v => mul_nonneg hA (by linarith [Real.cos_le_one (2 * Real.pi * v)])
  have h1 : ∀ v : ℝ, 0 ≤ v ^ 2 + A * (1 - Real.cos (2 * Real.pi * v)) := fun v => add_nonneg (sq_nonneg _) (h0 v)
  refine ⟨⟨cube_replicate (by norm_num), by rw [rastrigin_eq]; simp [rastriginSet, rastriginFront], fun y _ => ?_⟩,
    fun y hy h => ?_⟩
  · rw [rastrigin_eq]; exact sum_map_nonneg' _ h1 y
  · rw [rastrigin_eq] at h
    refine eq_replicate_of hy.1 fun v hv => ?_
    have h2 := sum_map_zero _ h1 y h v hv
    have h3 := h0 v
    have : v ^ 2 = 0 := le_antisymm (by linarith) (sq_nonneg _)
    exact pow_eq_zero_iff (n := 2) (by norm_num) |>.1 this

/-- The amplitude has to be non-negative: with `A = -1` the reported optimum is not one. -/
example : rastrigin (-1) [1 / 2] < rastriginFront := by
  rw [rastrigin_eq]
  have : (2 * Real.pi * (1 / 2) : ℝ) = Real.pi := by ring
  simp only [List.map_cons, List.map_nil, List.sum_cons, List.sum_nil, this, Real.cos_pi, rastriginFront]
  norm_num

/-- C80, Ackley, with the parameters `a ≥ 0`, `b ≥ 0` and any `c`. -/
theorem ackley_nonneg (n : ℕ) (hn : 1 ≤ n) (a b c : ℝ) (ha : 0 ≤ a) (hb : 0 ≤ b) (x : List ℝ) (hx : x.length = n) :
    0 ≤ ackley a b c x := by
  have hn' : (0:ℝ) < x.length := by rw [hx]; exact_mod_cast hn
  have h1 : Real.exp (-1 * b * √(1 / x.length * (x.map fun v => v * v).sum)) ≤ 1 := by
    rw [Real.exp_le_one_iff]
    have := mul_nonneg hb (Real.sqrt_nonneg (1 / x.length * (x.map fun v => v * v).sum))
    linarith
  have h2 : Real.exp (1 / x.length * (x.map fun v => Real.cos (c * v)).sum) ≤ Real.exp 1 := by
    apply Real.exp_le_exp.2
    have : (x.map fun v => Real.cos (c * v)).sum ≤ x.length := by
      have := List.sum_le_card_nsmul (x.map fun v => Real.cos (c * v)) 1
        (by simp only [List.mem_map]; rintro _ ⟨v, _, rfl⟩; exact Real.cos_le_one _)
      simpa using this
    rw [one_div, inv_mul_le_iff₀ hn']
    linarith
  unfold ackley
  nlinarith [mul_nonneg ha (sub_nonneg.2 h1)]

/-- C80, Ackley, with parameters `a > 0`, `b > 0` and any `c`, in particular the defaults `20, 1/5, 2π`. -/
theorem C80_ackley (n : ℕ) (hn : 1 ≤ n) (a b c : ℝ) (ha : 0 < a) (hb : 0 < b) :
    UniqueOptimum (Cube n (-32.768) 32.768) (ackley a b c) (ackleySet n) ackleyFront := by
  have hn0 : (n:ℝ) ≠ 0 := by positivity
  refine ⟨⟨cube_replicate (by norm_num), by simp [ackley, ackleySet, ackleyFront, hn0], fun y hy =>
    ackley_nonneg n hn a b c ha.le hb.le y hy.1⟩, fun y hy h => ?_⟩
  have hn' : (0:ℝ) < y.length := by rw [hy.1]; exact_mod_cast hn
  have h2 : Real.exp (1 / y.length * (y.map fun v => Real.cos (c * v)).sum) ≤ Real.exp 1 := by
    apply Real.exp_le_exp.2
    have : (y.map fun v => Real.cos (c * v)).sum ≤ y.length := by
      have := List.sum_le_card_nsmul (y.map fun v => Real.cos (c * v)) 1
        (by simp only [List.mem_map]; rintro _ ⟨v, _, rfl⟩; exact Real.cos_le_one _)
      simpa using this
    rw [one_div, inv_mul_le_iff₀ hn']
    linarith
  have hs : 0 ≤ (y.map fun v => v * v).sum := sum_map_nonneg' _ (fun v => mul_self_nonneg v) y
  have h3 : 0 ≤ -1 * b * √(1 / y.length * (y.map fun v => v * v).sum) := by
    rw [← Real.one_le_exp_iff]
    unfold ackley ackleyFront at h
    by_contra hc
    push Not at hc
    nlinarith [mul_pos ha (sub_pos.2 hc)]
  have h4 : √(1 / y.length * (y.map fun v => v * v).sum) = 0 := by
    have := Real.sqrt_nonneg (1 / y.length * (y.map fun v => v * v).sum)
    nlinarith
  rw [Real.sqrt_eq_zero (by positivity)] at h4
  have h5 : (y.map fun v => v * v).sum = 0 := by
    rcases mul_eq_zero.1 h4 with h | h
    · exact absurd h (by positivity)
    · exact h
  refine eq_replicate_of hy.1 fun v hv => ?_
  exact mul_self_eq_zero.1 (sum_map_zero _ (fun v => mul_self_nonneg v) y h5 v hv)

theorem prod_cos_le (l : List (ℝ × ℕ)) :
    |(l.map fun e => Real.cos (e.1 / √((e.2 : ℝ) + 1))).prod| ≤ 1 := by
  induction l with
  | nil => simp
  | cons a l ih =>
    simp only [List.map_cons, List.prod_cons, abs_mul]
    exact mul_le_one₀ (Real.abs_cos_le_one _) (abs_nonneg _) ih

/-- C80, Griewank. -/
theorem C80_griewank (n : ℕ) : UniqueOptimum (Cube n (-600) 600) griewank (griewankSet n) griewankFront := by
  have hs : ∀ x : List ℝ, 0 ≤ (x.map fun v => v ^ 2).sum := fun x => sum_map_nonneg' _ (fun v => sq_nonneg _) x
  refine ⟨⟨cube_replicate (by norm_num), ?_, fun y _ => ?_⟩, fun y hy h => ?_⟩
  · have : ((griewankSet n).zipIdx.map fun e => Real.cos (e.1 / √((e.2 : ℝ) + 1))).prod = 1 := by
      apply List.prod_eq_one
      simp only [List.mem_map]
      rintro _ ⟨e, he, rfl⟩
      have := List.fst_mem_of_mem_zipIdx he
      rw [griewankSet] at this
      rw [List.eq_of_mem_replicate this]
      simp
    rw [griewank, this]
    simp [griewankSet, griewankFront]
  · have h1 := (abs_le.1 (prod_cos_le y.zipIdx)).2
    have h2 := hs y
    unfold griewank griewankFront
    linarith
  · have h1 := (abs_le.1 (prod_cos_le y.zipIdx)).2
    have h2 := hs y
    unfold griewank griewankFront at h
    refine eq_replicate_of hy.1 fun v hv => ?_
    have := sum_map_zero _ (fun v => sq_nonneg v) y (by linarith) v hv
    exact pow_eq_zero_iff (n := 2) (by norm_num) |>.1 this

/-- C80, Zakharov. -/
theorem C80_zakharov (n : ℕ) : UniqueOptimum (Cube n (-10) 10) zakharov (zakharovSet n) zakharovFront := by
  have hs : ∀ x : List ℝ, 0 ≤ (x.map fun v => v ^ 2).sum := fun x => sum_map_nonneg' _ (fun v => sq_nonneg _) x
  have h2 : ∀ x, 0 ≤ zakharovA x ^ 2 := fun x => sq_nonneg _
  have h4 : ∀ x, 0 ≤ zakharovA x ^ 4 := fun x => by positivity
  refine ⟨⟨cube_replicate (by norm_num), ?_, fun y _ => ?_⟩, fun y hy h => ?_⟩
  · have : zakharovA (zakharovSet n) = 0 := by
      unfold zakharovA
      apply List.sum_eq_zero
      simp only [List.mem_map]
      rintro _ ⟨e, he, rfl⟩
      have := List.fst_mem_of_mem_zipIdx he
      rw [zakharovSet] at this
      rw [List.eq_of_mem_replicate this]
      simp
    rw [zakharov, this]
    simp [zakharovSet, zakharovFront]
  · have := hs y; have := h2 y; have := h4 y
    unfold zakharov zakharovFront
    linarith
  · have h1 := hs y; have h2 := h2 y; have h4 := h4 y
    unfold zakharov zakharovFront at h
    refine eq_replicate_of hy.1 fun v hv => ?_
    have := sum_map_zero _ (fun v => sq_nonneg v) y (by linarith) v hv
    exact pow_eq_zero_iff (n := 2) (by norm_num) |>.1 this

/-- Objective of a problem whose evaluation may raise. -/
def OptimalOpt (D : List ℝ → Prop) (f : List ℝ → Option ℝ) (x : List ℝ) (v : ℝ) : Prop :=
  D x ∧ f x = some v ∧ ∀ y, D y → ∃ w, f y = some w ∧ v ≤ w ∧ (w = v → y = x)

/-- C80, Rosenbrock, with at least two variables. -/
theorem C80_rosenbrock (n : ℕ) (hn : 2 ≤ n) :
    OptimalOpt (Cube n (-2.048) 2.048) rosenbrock (rosenbrockSet n) rosenbrockFront := by
  have hl : ¬ n < 2 := by omega
  refine ⟨cube_replicate (by norm_num), ?_, fun y hy => ?_⟩
  · simp only [rosenbrock, rosenbrockSet, List.length_replicate, hl, if_false, rosenbrockFront, Option.some.injEq]
    apply List.sum_eq_zero
    simp only [List.mem_map, List.mem_range]
    rintro _ ⟨i, hi, rfl⟩
    rw [List.getD_eq_getElem _ _ (by simp; omega), List.getD_eq_getElem _ _ (by simp; omega)]
    simp
  · have hl' : ¬ y.length < 2 := by rw [hy.1]; exact hl
    simp only [rosenbrock, hl', if_false, Option.some.injEq, rosenbrockFront]
    refine ⟨_, rfl, ?_, fun h0 => ?_⟩
    · apply List.sum_nonneg
      simp only [List.mem_map, List.mem_range]
      rintro _ ⟨i, hi, rfl⟩
      positivity
    · have hz : ∀ i < y.length - 1, 100 * (y.getD (i + 1) 0 - y.getD i 0 ^ 2) ^ 2 + (1 - y.getD i 0) ^ 2 = 0 := by
        intro i hi
        exact sum_map_zero_on _ (fun j => by positivity) _ h0 i (List.mem_range.2 hi)
      have h1 : ∀ i < y.length - 1, y.getD i 0 = 1 ∧ y.getD (i + 1) 0 = 1 := by
        intro i hi
        have h := hz i hi
        have ha := sq_nonneg (y.getD (i + 1) 0 - y.getD i 0 ^ 2)
        have hb := sq_nonneg (1 - y.getD i 0)
        have hb0 : (1 - y.getD i 0) ^ 2 = 0 := by linarith
        have ha0 : (y.getD (i + 1) 0 - y.getD i 0 ^ 2) ^ 2 = 0 := by linarith
        have hb1 := pow_eq_zero_iff (n := 2) (by norm_num) |>.1 hb0
        have ha1 := pow_eq_zero_iff (n := 2) (by norm_num) |>.1 ha0
        have hv : y.getD i 0 = 1 := by linarith
        rw [hv] at ha1
        exact ⟨hv, by linarith⟩
      refine eq_replicate_of hy.1 fun v hv => ?_
      obtain ⟨i, hi, rfl⟩ := List.getElem_of_mem hv
      have : y[i] = y.getD i 0 := by rw [List.getD_eq_getElem _ _ hi]
      rw [this]
      by_cases h : i < y.length - 1
      · exact (h1 i h).1
      · have hj : i = (i - 1) + 1 := by omega
        rw [hj]
        exact (h1 (i - 1) (by omega)).2

/-- With one variable the evaluation raises. -/
example : rosenbrock [1] = none := by simp [rosenbrock]

/-- C80, Himmelblau, the part that holds: the value is never below the reported one, which is attained at the first reported
solution. -/
theorem C80_himmelblau_partial : himmelblauSet.head? = some [3, 2] ∧
    OptimalAt (Cube 2 (-6) 6) himmelblau [3, 2] himmelblauFront := by
  refine ⟨rfl, ⟨rfl, ?_⟩, ?_, fun y _ => ?_⟩
  · intro v hv
    simp at hv
    rcases hv with rfl | rfl <;> norm_num
  · norm_num [himmelblau, himmelblauFront]
  · unfold himmelblau himmelblauFront
    positivity

/-- C80 fails for the other three reported solutions of Himmelblau: they are rounded, and their value is not the optimum. -/
theorem C80_himmelblau_refuted : ∀ x ∈ himmelblauSet.tail, Cube 2 (-6) 6 x ∧ himmelblauFront < himmelblau x := by
  intro x hx
  simp only [himmelblauSet, List.tail_cons, List.mem_cons, List.not_mem_nil, or_false] at hx
  rcases hx with rfl | rfl | rfl <;>
  · refine ⟨⟨rfl, ?_⟩, ?_⟩
    · intro v hv
      simp only [List.mem_cons, List.not_mem_nil, or_false] at hv
      rcases hv with rfl | rfl <;> norm_num
    · norm_num [himmelblau, himmelblauFront]

/-- C80 fails for the pressure vessel: the reported solution costs more than a feasible design inside the bounds (which is also
cheaper than anything claimed for the reported solution), so it is not optimal, and it violates the first constraint. -/
theorem C80_vessel_refuted : vesselBox 13 7 42.0984456 176.6366 ∧ vesselBox 12.5 6.3 40.4 199 ∧
    (∀ g ∈ vesselG 12.5 6.3 40.4 199, g ≤ 0) ∧
    vesselF 12.5 6.3 40.4 199 + 100 < vesselF 13 7 42.0984456 176.6366 ∧
    vesselFront + 100 < vesselF 13 7 42.0984456 176.6366 ∧
    ¬ (∀ g ∈ vesselG 13 7 42.0984456 176.6366, g ≤ 0) := by
  refine ⟨by norm_num [vesselBox], by norm_num [vesselBox], ?_, by norm_num [vesselF], by norm_num [vesselF, vesselFront], ?_⟩
  · intro g hg
    simp only [vesselG, List.mem_cons, List.not_mem_nil, or_false] at hg
    rcases hg with rfl | rfl | rfl | rfl
    · norm_num
    · norm_num
    · have := Real.pi_gt_d20
      apply div_nonpos_of_nonpos_of_nonneg _ (by norm_num)
      nlinarith
    · norm_num
  · intro h
    have := h ((-(13 * 0.0625) + 0.0193 * 42.0984456) / 3) (by simp [vesselG])
    norm_num at this

/-- The polynomial bound behind Schwefel's function. -/
theorem schwefel_poly (t : ℝ) (h0 : 0 ≤ t) (h1 : t ≤ 3 / 2) :
    (20.4203522483337 + t) ^ 2 * (1 - t ^ 2 / 2 + t ^ 4 / 24) < 418.9829 := by
  have hQ : (0:ℝ) ≤ (506351165579161185705269564411291388011397902677/2400000000000000000000000000000000000000000000) * t ^ 0 + (20511070428009205235250117095691947923/1200000000000000000000000000000000000) * t ^ 1 + (-13765205159481253436394498523/800000000000000000000000000) * t ^ 2 + (-205175229813337/120000000000000) * t ^ 3 + (-1/24) * t ^ 4 := by
    have a2 : t ^ 2 ≤ (3 / 2) ^ 2 := pow_le_pow_left₀ h0 h1 2
    have a3 : t ^ 3 ≤ (3 / 2) ^ 3 := pow_le_pow_left₀ h0 h1 3
    have a4 : t ^ 4 ≤ (3 / 2) ^ 4 := pow_le_pow_left₀ h0 h1 4
    linarith
  have hR : (0:ℝ) < (29386997572518492216043413185617870051645904034427052637347/2400000000000000000000000000000000000000000000000000000000000000) + (-18772872355555940715424249266438551499289484751/200000000000000000000000000000000000000000000000000000) * t := by linarith
  have := mul_nonneg (sq_nonneg (t - 97170733 / 1000000000)) hQ
  linarith

theorem schwefel_term (v : ℝ) (hv : -500 ≤ v ∧ v ≤ 500) : v * Real.sin (√|v|) < 418.9829 := by
  have habs : |v| ≤ 500 := abs_le.2 hv
  have hy0 := Real.sqrt_nonneg |v|
  have hyy : √|v| ^ 2 = |v| := Real.sq_sqrt (abs_nonneg v)
  set y := √|v| with hy
  by_cases hsmall : |v| < 418.98
  · have h1 : v * Real.sin y ≤ |v| * |Real.sin y| := by rw [← abs_mul]; exact le_abs_self _
    have h2 := Real.abs_sin_le_one y
    have : |v| * |Real.sin y| ≤ |v| * 1 := mul_le_mul_of_nonneg_left h2 (abs_nonneg v)
    linarith
  have hlo : 20.469 ≤ y := by
    by_contra h
    push Not at h
    have : y ^ 2 ≤ 20.469 ^ 2 := pow_le_pow_left₀ hy0 h.le 2
    rw [hyy] at this
    exact hsmall (by norm_num at this ⊢; linarith)
  have hhi : y ≤ 22.361 := by
    by_contra h
    push Not at h
    have : 22.361 ^ 2 ≤ y ^ 2 := pow_le_pow_left₀ (by norm_num) h.le 2
    rw [hyy] at this
    norm_num at this
    linarith
  have hp1 := Real.pi_gt_d20
  have hp2 := Real.pi_lt_d20
  rcases le_total 0 v with hpos | hneg
  · rw [abs_of_nonneg hpos] at hyy habs
    set t := y - 13 / 2 * Real.pi with ht
    have hsin : Real.sin y = Real.cos t := by
      rw [ht, show y - 13 / 2 * Real.pi = (y - Real.pi / 2) - (3 : ℕ) * (2 * Real.pi) by push_cast; ring,
        Real.cos_sub_nat_mul_two_pi, Real.cos_sub_pi_div_two]
    have hc := cos_le4 t
    have ht0 : 0 ≤ t := by rw [ht]; linarith
    have ht2 : t ≤ 1.95 := by rw [ht]; linarith
    rw [hsin, ← hyy]
    by_cases ht1 : t ≤ 3 / 2
    · have hy' : y ≤ 20.4203522483337 + t := by rw [ht]; linarith
      have hq : 0 ≤ 1 - t ^ 2 / 2 + t ^ 4 / 24 := by
        have : t ^ 2 ≤ (3 / 2) ^ 2 := pow_le_pow_left₀ ht0 ht1 2
        nlinarith [sq_nonneg (t ^ 2 - 9 / 4)]
      calc y ^ 2 * Real.cos t ≤ y ^ 2 * (1 - t ^ 2 / 2 + t ^ 4 / 24) := mul_le_mul_of_nonneg_left hc (sq_nonneg _)
        _ ≤ (20.4203522483337 + t) ^ 2 * (1 - t ^ 2 / 2 + t ^ 4 / 24) :=
          mul_le_mul_of_nonneg_right (pow_le_pow_left₀ hy0 hy' 2) hq
        _ < _ := schwefel_poly t ht0 ht1
    · push Not at ht1
      have hc' : Real.cos t ≤ 1 / 2 := by
        have a1 : (3 / 2) ^ 2 ≤ t ^ 2 := pow_le_pow_left₀ (by norm_num) ht1.le 2
        have a2 : t ^ 2 ≤ 1.95 ^ 2 := pow_le_pow_left₀ ht0 ht2 2
        have a3 : (t ^ 2 - (3 / 2) ^ 2) * (t ^ 2 - 1.95 ^ 2) ≤ 0 :=
          mul_nonpos_of_nonneg_of_nonpos (by linarith) (by linarith)
        norm_num at a1 a2 a3 ⊢
        nlinarith
      have : y ^ 2 * Real.cos t ≤ y ^ 2 * (1 / 2) := mul_le_mul_of_nonneg_left hc' (sq_nonneg _)
      rw [hyy] at this ⊢
      linarith
  · rw [abs_of_nonpos hneg] at hyy habs
    have hsin : -Real.sin y = Real.sin (y - 7 * Real.pi) := by
      rw [show y - 7 * Real.pi = (y - Real.pi) - (3 : ℕ) * (2 * Real.pi) by push_cast; ring,
        Real.sin_sub_nat_mul_two_pi, Real.sin_sub_pi]
    have hle : Real.sin (y - 7 * Real.pi) ≤ 1 / 2 := by
      rcases le_total 0 (y - 7 * Real.pi) with h | h
      · have := Real.sin_le h
        linarith
      · have : Real.sin (y - 7 * Real.pi) ≤ 0 := Real.sin_nonpos_of_nonpos_of_neg_pi_le h (by linarith)
        linarith
    have : v * Real.sin y = y ^ 2 * Real.sin (y - 7 * Real.pi) := by rw [← hsin, hyy]; ring
    rw [this]
    have := mul_le_mul_of_nonneg_left hle (sq_nonneg y)
    rw [hyy] at this ⊢
    linarith

/-- C80 fails for Schwefel's function: for every number of variables, every solution inside the bounds (the reported one, too)
has a value strictly above the reported optimum, so that value is never attained. -/
theorem C80_schwefel_refuted (n : ℕ) (hn : 1 ≤ n) (x : List ℝ) (hx : Cube n (-500) 500 x) : schwefelFront < schwefel x := by
  unfold schwefelFront schwefel
  obtain ⟨hl, hb⟩ := hx
  subst hl
  cases x with
  | nil => simp at hn
  | cons a l =>
    have key : ∀ l : List ℝ, (∀ v ∈ l, -500 ≤ v ∧ v ≤ 500) → (l.map fun v => v * Real.sin (√|v|)).sum ≤ 418.9829 * l.length := by
      intro l
      induction l with
      | nil => simp
      | cons b l ih =>
        intro h
        have h1 := schwefel_term b (h b List.mem_cons_self)
        have h2 := ih fun v hv => h v (List.mem_cons_of_mem _ hv)
        simp only [List.map_cons, List.sum_cons, List.length_cons, Nat.cast_add, Nat.cast_one]
        linarith
    have h1 := schwefel_term a (hb a List.mem_cons_self)
    have h2 := key l fun v hv => hb v (List.mem_cons_of_mem _ hv)
    simp only [List.map_cons, List.sum_cons, List.length_cons, Nat.cast_add, Nat.cast_one]
    linarith

/-- The reported solution lies inside the bounds. -/
example (n : ℕ) : Cube n (-500) 500 (schwefelSet n) := cube_replicate (by norm_num)

end Props
