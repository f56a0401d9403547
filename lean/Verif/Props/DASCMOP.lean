import Verif.Model.DASCMOP
import Verif.Props.DTLZ
import Verif.Props.MultiProblems
import Mathlib.Analysis.SpecialFunctions.Trigonometric.Bounds
import Mathlib.Topology.Order.IntermediateValue
import Mathlib.Tactic.FinCases
import Mathlib.Tactic.IntervalCases

/-!
# C138: the Pareto-optimal points of the DASCMOP problems without the third kind of constraint
-/

set_option linter.unusedVariables false
set_option linter.unusedSectionVars false
set_option linter.unusedSimpArgs false

namespace Props
open Model Spec

/-- The rows of 30 variables between 0 and 1 that violate no constraint. -/
def DasFeasible {m : ℕ} (P : List ℝ → DasOut m) (x : List ℝ) : Prop := Cube 30 0 1 x ∧ ∀ c ∈ (P x).G, c ≤ 0

/-- How far the second difficulty moves the front away from the origin. -/
noncomputable def dasShift (zeta : ℝ) : ℝ := if zeta = 0 then 0 else if zeta = 1 then 0.4999 else 0.5

theorem dasShift_range (zeta : ℝ) : 0 ≤ dasShift zeta ∧ dasShift zeta ≤ 0.5 := by
  unfold dasShift
  split
  · norm_num
  · split <;> norm_num

/-- Under the second kind of constraint the distance `g ≥ 0` is at least the shift, and the shift is allowed. -/
theorem type2_min {zeta : ℝ} (h0 : 0 ≤ zeta) (h1 : zeta ≤ 1) :
    0 ≤ dasType2 zeta (dasShift zeta) ∧ ∀ g, 0 ≤ g → 0 ≤ dasType2 zeta g → dasShift zeta ≤ g := by
  unfold dasType2 dasShift
  rcases eq_or_lt_of_le h0 with hz | hz
  · subst hz
    simp only [if_true, zero_ne_one, if_false, dasE, dasD, lt_irrefl, ne_eq, not_true_eq_false]
    exact ⟨by norm_num, fun g hg _ => hg⟩
  · rw [if_neg hz.ne']
    by_cases hone : zeta = 1
    · subst hone
      simp only [if_true, dasE, dasD, one_ne_zero, ne_eq, not_false_eq_true, zero_lt_one, Real.log_one, sub_zero]
      refine ⟨by norm_num [abs_of_pos], fun g hg h => ?_⟩
      have h2 := le_abs_self ((0.5 : ℝ) - g)
      norm_num at *
      linarith
    · simp only [if_neg hone]
      have hlog : Real.log zeta < 0 := Real.log_neg hz (lt_of_le_of_ne h1 hone)
      have hD : dasD zeta = 0.5 := by unfold dasD; rw [if_pos hz.ne']
      have hE : dasE zeta = 0.5 - Real.log zeta := by unfold dasE; rw [if_pos hz, hD]
      rw [hD, hE]
      refine ⟨by norm_num, fun g hg h => ?_⟩
      by_contra hlt
      push Not at hlt
      have h3 : 0 < 0.5 - Real.log zeta - g := by linarith
      have h4 : g - 0.5 < 0 := by linarith
      have := mul_neg_of_pos_of_neg h3 h4
      linarith

/-- Objectives that are a shape of the position variables plus a common distance. -/
theorem shifted_front {m p : ℕ} (hp : p ≤ 30) (F : List ℝ → Fin m → ℝ) (S : List ℝ → Fin m → ℝ) (g : List ℝ → ℝ) (C : List ℝ → Prop) (T : ℝ → Prop) (δ : ℝ)
    (hF : ∀ x, Cube 30 0 1 x → ∀ i, F x i = S (x.take p) i + g x) (D : List ℝ → Prop) (hD : ∀ x, D x ↔ Cube 30 0 1 x ∧ C (x.take p) ∧ T (g x))
    (hT : T δ) (hmin : ∀ x, Cube 30 0 1 x → T (g x) → δ ≤ g x)
    (hatt : ∀ X, Cube p 0 1 X → ∃ Y, Cube (30 - p) 0 1 Y ∧ g (X ++ Y) = δ) (hm : 0 < m) (f : Fin m → ℝ) :
    ParetoPoint D F f ↔ ∃ X, Cube p 0 1 X ∧ C X ∧ (∀ i, f i = S X i + δ) ∧ ∀ Y, Cube p 0 1 Y → C Y → ¬ Dominates (S Y) (S X) := by
  have lift : ∀ X, Cube p 0 1 X → C X → ∃ x, D x ∧ ∀ i, F x i = S X i + δ := by
    intro X hX hC
    obtain ⟨Y, hY, hg⟩ := hatt X hX
    have hc : Cube 30 0 1 (X ++ Y) := by
      have := cube_append hX hY
      rwa [Nat.add_sub_cancel' hp] at this
    have ht : (X ++ Y).take p = X := by rw [← hX.1]; simp
    exact ⟨X ++ Y, (hD _).2 ⟨hc, by rw [ht]; exact hC, by rw [hg]; exact hT⟩, fun i => by rw [hF _ hc, ht, hg]⟩
  constructor
  · rintro ⟨⟨x, hx, rfl⟩, hnd⟩
    obtain ⟨hc, hCx, hTx⟩ := (hD x).1 hx
    have hX := cube_take hc hp
    have hge := hmin x hc hTx
    obtain ⟨y, hy, hFy⟩ := lift _ hX hCx
    have heq : g x = δ := by
      by_contra hne
      have hlt : δ < g x := lt_of_le_of_ne hge (Ne.symm hne)
      refine hnd y hy ⟨fun i => ?_, ⟨0, hm⟩, ?_⟩
      · rw [hFy, hF x hc]; linarith
      · rw [hFy, hF x hc]; linarith
    refine ⟨x.take p, hX, hCx, fun i => by rw [hF x hc, heq], fun Y hY hCY hdom => ?_⟩
    obtain ⟨z, hz, hFz⟩ := lift Y hY hCY
    refine hnd z hz ⟨fun i => ?_, ?_⟩
    · rw [hFz, hF x hc, heq]; linarith [hdom.1 i]
    · obtain ⟨i, hi⟩ := hdom.2
      exact ⟨i, by rw [hFz, hF x hc, heq]; linarith⟩
  · rintro ⟨X, hX, hC, hf, hnd⟩
    obtain ⟨x, hx, hFx⟩ := lift X hX hC
    refine ⟨⟨x, hx, funext fun i => by rw [hFx, hf]⟩, fun y hy hdom => ?_⟩
    obtain ⟨hc, hCy, hTy⟩ := (hD y).1 hy
    have hge := hmin y hc hTy
    refine hnd _ (cube_take hc hp) hCy ⟨fun i => ?_, ?_⟩
    · have := hdom.1 i
      rw [hF y hc, hf] at this
      linarith
    · obtain ⟨i, hi⟩ := hdom.2
      rw [hF y hc, hf] at hi
      exact ⟨i, by linarith⟩

/-! ### The distances -/

theorem unit_sin {t : ℝ} (h0 : 0 ≤ t) (h1 : t ≤ 1) : 0 ≤ Real.sin (0.5 * Real.pi * t) ∧ Real.sin (0.5 * Real.pi * t) ≤ 1 := by
  have hpi := Real.pi_pos
  refine ⟨Real.sin_nonneg_of_nonneg_of_le_pi (by positivity) ?_, Real.sin_le_one _⟩
  nlinarith

theorem unit_cos {t : ℝ} (h0 : 0 ≤ t) (h1 : t ≤ 1) : 0 ≤ Real.cos (0.5 * Real.pi * t) ∧ Real.cos (0.5 * Real.pi * t) ≤ 1 := by
  have hpi := Real.pi_pos
  have h3 : 0 ≤ Real.pi * t := by positivity
  refine ⟨Real.cos_nonneg_of_neg_pi_div_two_le_of_le ?_ ?_, Real.cos_le_one _⟩ <;> nlinarith

theorem sum_sq_nonneg {α : Type*} (l : List α) (h : α → ℝ) : 0 ≤ (l.map fun v => h v ^ 2).sum :=
  List.sum_nonneg fun a ha => by
    obtain ⟨v, -, rfl⟩ := List.mem_map.1 ha
    exact sq_nonneg _

/-- A value at distance `r ≤ 1/2` from a point of the unit interval. -/
theorem off_by {s r : ℝ} (h0 : 0 ≤ s) (h1 : s ≤ 1) (r0 : 0 ≤ r) (r1 : r ≤ 1 / 2) : ∃ v, 0 ≤ v ∧ v ≤ 1 ∧ (v - s) ^ 2 = r ^ 2 := by
  rcases le_or_gt s (1 / 2) with h | h
  · exact ⟨s + r, by linarith, by linarith, by ring⟩
  · exact ⟨s - r, by linarith, by linarith, by ring⟩

theorem dasG1_attains {δ : ℝ} (h0 : 0 ≤ δ) (h1 : δ ≤ 0.5) (X : List ℝ) (hX : Cube 1 0 1 X) : ∃ Y, Cube 29 0 1 Y ∧ dasG1 2 (X ++ Y) = δ := by
  obtain ⟨t, rfl⟩ := List.length_eq_one_iff.1 hX.1
  have ht := hX.2 t (by simp)
  obtain ⟨s0, s1⟩ := unit_sin ht.1 ht.2
  have hsq : √(δ / 29) ^ 2 = δ / 29 := Real.sq_sqrt (by positivity)
  have hr : √(δ / 29) ≤ 1 / 2 := by
    rw [Real.sqrt_le_left (by norm_num)]
    norm_num at *; linarith
  obtain ⟨v, v0, v1, hv⟩ := off_by s0 s1 (Real.sqrt_nonneg (δ / 29)) hr
  refine ⟨List.replicate 29 v, cube_replicate ⟨v0, v1⟩, ?_⟩
  unfold dasG1
  simp only [List.cons_append, List.nil_append, List.getD_cons_zero, Nat.reduceSub, List.drop_succ_cons, List.drop_zero, List.map_replicate, List.sum_replicate, nsmul_eq_mul]
  rw [hv, hsq]
  norm_num
  ring

theorem dasG2_form (m : ℕ) (hm : 1 ≤ m) (hm' : m ≤ 30) (x : List ℝ) (hx : x.length = 30) :
    dasG2 m x = ((x.drop (m - 1)).map fun v => (v - 0.5) ^ 2 + (1 - Real.cos (20 * Real.pi * (v - 0.5)))).sum := by
  unfold dasG2
  have key : ∀ l : List ℝ, (l.length : ℝ) + (l.map fun v => (v - 0.5) ^ 2 - Real.cos (20 * Real.pi * (v - 0.5))).sum
      = (l.map fun v => (v - 0.5) ^ 2 + (1 - Real.cos (20 * Real.pi * (v - 0.5)))).sum := by
    intro l
    induction l with
    | nil => simp
    | cons v l ih =>
      simp only [List.length_cons, List.map_cons, List.sum_cons, Nat.cast_add, Nat.cast_one]
      linarith
  rw [← key, List.length_drop, hx]
  congr 1
  rw [Nat.cast_sub (by omega), Nat.cast_sub hm]
  push_cast; ring

theorem dasG2_nonneg (m : ℕ) (hm : 1 ≤ m) (hm' : m ≤ 30) (x : List ℝ) (hx : x.length = 30) : 0 ≤ dasG2 m x := by
  rw [dasG2_form m hm hm' x hx]
  refine List.sum_nonneg fun a ha => ?_
  obtain ⟨v, -, rfl⟩ := List.mem_map.1 ha
  have := Real.cos_le_one (20 * Real.pi * (v - 0.5))
  nlinarith [sq_nonneg (v - 0.5)]

theorem dasG2_attains {δ : ℝ} (h0 : 0 ≤ δ) (h1 : δ ≤ 0.5) (m : ℕ) (hm : 1 ≤ m) (hm' : m ≤ 30) (X : List ℝ) (hX : Cube (m - 1) 0 1 X) :
    ∃ Y, Cube (30 - (m - 1)) 0 1 Y ∧ dasG2 m (X ++ Y) = δ := by
  set k := 30 - (m - 1) with hk
  have hk1 : 1 ≤ k := by omega
  have hk1' : (1 : ℝ) ≤ (k : ℝ) := by exact_mod_cast hk1
  let φ : ℝ → ℝ := fun z => (k : ℝ) * (z ^ 2 + (1 - Real.cos (20 * Real.pi * z)))
  have hφ : ContinuousOn φ (Set.Icc 0 0.05) := by
    refine Continuous.continuousOn ?_
    exact continuous_const.mul ((continuous_pow 2).add (continuous_const.sub (Real.continuous_cos.comp (continuous_const.mul continuous_id))))
  have hφ0 : φ 0 = 0 := by simp [φ]
  have hφ1 : 0.5 ≤ φ 0.05 := by
    have : Real.cos (20 * Real.pi * 0.05) = -1 := by
      rw [show (20 : ℝ) * Real.pi * 0.05 = Real.pi by ring]; exact Real.cos_pi
    simp only [φ, this]
    nlinarith
  obtain ⟨z, ⟨z0, z1⟩, hz⟩ := intermediate_value_Icc (by norm_num) hφ ⟨by rw [hφ0]; exact h0, le_trans h1 hφ1⟩
  refine ⟨List.replicate k (0.5 + z), cube_replicate ⟨by norm_num at *; linarith, by norm_num at *; linarith⟩, ?_⟩
  rw [dasG2_form m hm hm' _ (by rw [List.length_append, hX.1, List.length_replicate]; omega)]
  have hd : (X ++ List.replicate k (0.5 + z)).drop (m - 1) = List.replicate k (0.5 + z) := by
    conv_lhs => rw [show (m - 1) = X.length from hX.1.symm]
    rw [List.drop_left]
  rw [hd, List.map_replicate, List.sum_replicate, nsmul_eq_mul]
  rw [show (0.5 : ℝ) + z - 0.5 = z by ring]
  exact hz

theorem dasG3_attains {δ : ℝ} (h0 : 0 ≤ δ) (h1 : δ ≤ 0.5) (X : List ℝ) (hX : Cube 2 0 1 X) : ∃ Y, Cube 28 0 1 Y ∧ dasG3 3 (X ++ Y) = δ := by
  obtain ⟨a, b, rfl⟩ := List.length_eq_two.1 hX.1
  have ha := hX.2 a (by simp)
  have hb := hX.2 b (by simp)
  have hsq : √(δ / 28) ^ 2 = δ / 28 := Real.sq_sqrt (by positivity)
  have hr : √(δ / 28) ≤ 1 / 2 := by
    rw [Real.sqrt_le_left (by norm_num)]
    norm_num at *; linarith
  have key : ∀ n k : ℕ, k + n ≤ 30 → ∃ Y : List ℝ, Cube n 0 1 Y ∧
      ((Y.zipIdx k).map fun p => (p.1 - Real.cos (0.25 * ((p.2 : ℝ) + 1) / 30 * Real.pi * (a + b))) ^ 2).sum = n * (δ / 28) := by
    intro n
    induction n with
    | zero => intro k _; exact ⟨[], ⟨rfl, by simp⟩, by simp⟩
    | succ n ih =>
      intro k hk
      obtain ⟨Y, hY, hs⟩ := ih (k + 1) (by omega)
      have hpi := Real.pi_pos
      have hk' : (k : ℝ) + 1 ≤ 30 := by
        have : k + 1 ≤ 30 := by omega
        exact_mod_cast this
      have hk0 : (0 : ℝ) ≤ (k : ℝ) := Nat.cast_nonneg k
      have harg : 0.25 * ((k : ℝ) + 1) / 30 * Real.pi * (a + b) = 0.5 * Real.pi * (((k : ℝ) + 1) / 30 * ((a + b) / 2)) := by ring
      have hu1 : ((k : ℝ) + 1) / 30 ≤ 1 := by rw [div_le_one (by norm_num)]; exact hk'
      have hu0 : 0 ≤ ((k : ℝ) + 1) / 30 := by positivity
      obtain ⟨c0, c1⟩ := unit_cos (t := ((k : ℝ) + 1) / 30 * ((a + b) / 2)) (mul_nonneg hu0 (by linarith)) (mul_le_one₀ hu1 (by linarith) (by linarith))
      obtain ⟨v, v0, v1, hv⟩ := off_by c0 c1 (Real.sqrt_nonneg (δ / 28)) hr
      refine ⟨v :: Y, ⟨by simp [hY.1], fun w hw => ?_⟩, ?_⟩
      · rcases List.mem_cons.1 hw with rfl | hw
        · exact ⟨v0, v1⟩
        · exact hY.2 w hw
      · rw [List.zipIdx_cons, List.map_cons, List.sum_cons, hs]
        simp only
        rw [harg, hv, hsq]
        push_cast; ring
  obtain ⟨Y, hY, hs⟩ := key 28 2 (by norm_num)
  refine ⟨Y, hY, ?_⟩
  unfold dasG3
  simp only [List.cons_append, List.nil_append, List.getD_cons_zero, List.getD_cons_succ, Nat.reduceSub, List.drop_succ_cons, List.drop_zero]
  rw [hs]
  push_cast; ring

/-! ### The constraints -/

theorem con2_iff (eta zeta : ℝ) (x : List ℝ) (f0 f1 g : ℝ) :
    (∀ c ∈ dasCon2 eta zeta 0 x f0 f1 g, c ≤ 0) ↔ 2 * eta - 1 ≤ Real.sin (20 * Real.pi * x.getD 0 0) ∧ 0 ≤ dasType2 zeta g := by
  unfold dasCon2
  simp only [List.forall_mem_map, List.mem_append, List.mem_cons, List.not_mem_nil, or_false]
  constructor
  · intro h
    have h1 := h _ (Or.inl (Or.inl rfl))
    have h2 := h _ (Or.inl (Or.inr rfl))
    constructor <;> linarith
  · rintro ⟨h1, h2⟩ c ((rfl | rfl) | hc)
    · linarith
    · linarith
    · obtain ⟨p, -, rfl⟩ := List.mem_map.1 hc
      have a1 : 0 ≤ ((f0 - p.1) * Real.cos (-0.25 * Real.pi) - (f1 - p.2) * Real.sin (-0.25 * Real.pi)) ^ 2 / 0.3 := by positivity
      have a2 : 0 ≤ ((f0 - p.1) * Real.sin (-0.25 * Real.pi) + (f1 - p.2) * Real.cos (-0.25 * Real.pi)) ^ 2 / 1.2 := by positivity
      linarith

theorem con3_iff (eta zeta : ℝ) (x : List ℝ) (f0 f1 f2 g : ℝ) :
    (∀ c ∈ dasCon3 eta zeta 0 x f0 f1 f2 g, c ≤ 0) ↔
      2 * eta - 1 ≤ Real.sin (20 * Real.pi * x.getD 0 0) ∧ 2 * eta - 1 ≤ Real.cos (20 * Real.pi * x.getD 1 0) ∧ 0 ≤ dasType2 zeta g := by
  unfold dasCon3
  simp only [List.forall_mem_map, List.mem_append, List.mem_cons, List.not_mem_nil, or_false]
  constructor
  · intro h
    have h1 := h _ (Or.inl (Or.inl rfl))
    have h2 := h _ (Or.inl (Or.inr (Or.inl rfl)))
    have h3 := h _ (Or.inl (Or.inr (Or.inr rfl)))
    refine ⟨?_, ?_, ?_⟩ <;> linarith
  · rintro ⟨h1, h2, h3⟩ c ((rfl | rfl | rfl) | hc)
    · linarith
    · linarith
    · linarith
    · obtain ⟨p, -, rfl⟩ := List.mem_map.1 hc
      have a1 := sq_nonneg (f0 - p.1)
      have a2 := sq_nonneg (f1 - p.2.1)
      have a3 := sq_nonneg (f2 - p.2.2)
      norm_num at *
      linarith

theorem getD_take (x : List ℝ) (i p : ℕ) (h : i < p) : (x.take p).getD i 0 = x.getD i 0 := by
  simp only [List.getD_eq_getElem?_getD, List.getElem?_take, if_pos h]

/-! ### Two objectives -/

/-- A problem of the family with two objectives: the second objective is `h` of the first variable plus the distance. -/
theorem das_two (eta zeta : ℝ) (h0 : 0 ≤ zeta) (h1 : zeta ≤ 1) (h : ℝ → ℝ) (g : List ℝ → ℝ) (hg0 : ∀ x : List ℝ, x.length = 30 → 0 ≤ g x)
    (hatt : ∀ δ, 0 ≤ δ → δ ≤ 0.5 → ∀ X, Cube 1 0 1 X → ∃ Y, Cube 29 0 1 Y ∧ g (X ++ Y) = δ) (P : List ℝ → DasOut 2)
    (hP : ∀ x, P x = dasEval2 eta zeta 0 x (x.getD 0 0 + g x) (h (x.getD 0 0) + g x) (g x)) (f : Fin 2 → ℝ) :
    ParetoPoint (DasFeasible P) (fun x => (P x).F) f ↔
      ∃ t, 0 ≤ t ∧ t ≤ 1 ∧ 2 * eta - 1 ≤ Real.sin (20 * Real.pi * t) ∧ f = ![t + dasShift zeta, h t + dasShift zeta] ∧
        ∀ u, 0 ≤ u → u ≤ 1 → 2 * eta - 1 ≤ Real.sin (20 * Real.pi * u) → ¬ Dominates ![u, h u] ![t, h t] := by
  obtain ⟨hT, hmin⟩ := type2_min h0 h1
  have hr := dasShift_range zeta
  rw [shifted_front (p := 1) (by norm_num) (fun x => (P x).F) (fun X => ![X.getD 0 0, h (X.getD 0 0)]) g (fun X => 2 * eta - 1 ≤ Real.sin (20 * Real.pi * X.getD 0 0))
    (fun g => 0 ≤ dasType2 zeta g) (dasShift zeta) ?_ (DasFeasible P) ?_ hT (fun x hx hTx => hmin _ (hg0 x hx.1) hTx)
    (fun X hX => hatt _ hr.1 hr.2 X hX) (by norm_num) f]
  · constructor
    · rintro ⟨X, hX, hC, hf, hnd⟩
      obtain ⟨t, rfl⟩ := List.length_eq_one_iff.1 hX.1
      have ht := hX.2 t (by simp)
      refine ⟨t, ht.1, ht.2, by simpa using hC, ?_, fun u u0 u1 hu hdom => ?_⟩
      · funext i
        rw [hf i]
        fin_cases i <;> simp
      · exact hnd [u] ⟨rfl, by simpa using ⟨u0, u1⟩⟩ (by simpa using hu) (by simpa using hdom)
    · rintro ⟨t, t0, t1, hC, rfl, hnd⟩
      refine ⟨[t], ⟨rfl, by simpa using ⟨t0, t1⟩⟩, by simpa using hC, fun i => by fin_cases i <;> simp, fun Y hY hCY hdom => ?_⟩
      obtain ⟨u, rfl⟩ := List.length_eq_one_iff.1 hY.1
      have hu := hY.2 u (by simp)
      exact hnd u hu.1 hu.2 (by simpa using hCY) (by simpa using hdom)
  · intro x hx i
    rw [hP x]
    simp only [dasEval2, getD_take x 0 1 (by norm_num)]
    fin_cases i <;> simp
  · intro x
    unfold DasFeasible
    rw [hP x]
    simp only [dasEval2, getD_take x 0 1 (by norm_num), con2_iff]

theorem strictAnti_free {h : ℝ → ℝ} (hh : ∀ a b, 0 ≤ a → a < b → b ≤ 1 → h b < h a) {t u : ℝ} (t0 : 0 ≤ t) (t1 : t ≤ 1) (u0 : 0 ≤ u) (u1 : u ≤ 1) :
    ¬ Dominates ![u, h u] ![t, h t] := by
  rintro ⟨hle, i, hi⟩
  have e0 : u ≤ t := hle 0
  have e1 : h u ≤ h t := hle 1
  rcases eq_or_lt_of_le e0 with rfl | hlt
  · fin_cases i <;> exact lt_irrefl _ hi
  · exact absurd (hh u t u0 hlt t1) (not_lt.2 e1)

theorem dasG1_nonneg (x : List ℝ) : 0 ≤ dasG1 2 x := sum_sq_nonneg _ _

/-- **C138** (concave) The Pareto-optimal points of DASCMOP1 and DASCMOP4 for the difficulties `(eta, zeta, 0)`: the points of the curve `f2 = 1 - f1²` over the parameters the first
constraint allows, moved by the shift of the second difficulty. -/
theorem C138_concave (eta zeta : ℝ) (h0 : 0 ≤ zeta) (h1 : zeta ≤ 1) (f : Fin 2 → ℝ) (P : List ℝ → DasOut 2)
    (hP : P = dascmop1 eta zeta 0 ∨ P = dascmop4 eta zeta 0) :
    ParetoPoint (DasFeasible P) (fun x => (P x).F) f ↔
      ∃ t, 0 ≤ t ∧ t ≤ 1 ∧ 2 * eta - 1 ≤ Real.sin (20 * Real.pi * t) ∧ f = ![t + dasShift zeta, 1 - t ^ 2 + dasShift zeta] := by
  have key : ParetoPoint (DasFeasible P) (fun x => (P x).F) f ↔
      ∃ t, 0 ≤ t ∧ t ≤ 1 ∧ 2 * eta - 1 ≤ Real.sin (20 * Real.pi * t) ∧ f = ![t + dasShift zeta, 1 - t ^ 2 + dasShift zeta] ∧
        ∀ u, 0 ≤ u → u ≤ 1 → 2 * eta - 1 ≤ Real.sin (20 * Real.pi * u) → ¬ Dominates ![u, 1 - u ^ 2] ![t, 1 - t ^ 2] := by
    rcases hP with rfl | rfl
    · exact das_two eta zeta h0 h1 (fun t => 1 - t ^ 2) (dasG1 2) (fun x _ => dasG1_nonneg x) (fun δ d0 d1 X hX => dasG1_attains d0 d1 X hX) _ (fun x => rfl) f
    · exact das_two eta zeta h0 h1 (fun t => 1 - t ^ 2) (dasG2 2) (fun x hx => dasG2_nonneg 2 (by norm_num) (by norm_num) x hx)
        (fun δ d0 d1 X hX => dasG2_attains d0 d1 2 (by norm_num) (by norm_num) X hX) _ (fun x => rfl) f
  rw [key]
  constructor
  · rintro ⟨t, a, b, c, e, -⟩; exact ⟨t, a, b, c, e⟩
  · rintro ⟨t, a, b, c, e⟩
    refine ⟨t, a, b, c, e, fun u u0 u1 _ => ?_⟩
    exact strictAnti_free (h := fun t => 1 - t ^ 2) (fun x y hx hxy hy => by nlinarith) a b u0 u1

/-- **C138** (square root) The same for DASCMOP2 and DASCMOP5 with the curve `f2 = 1 - √f1`. -/
theorem C138_root (eta zeta : ℝ) (h0 : 0 ≤ zeta) (h1 : zeta ≤ 1) (f : Fin 2 → ℝ) (P : List ℝ → DasOut 2)
    (hP : P = dascmop2 eta zeta 0 ∨ P = dascmop5 eta zeta 0) :
    ParetoPoint (DasFeasible P) (fun x => (P x).F) f ↔
      ∃ t, 0 ≤ t ∧ t ≤ 1 ∧ 2 * eta - 1 ≤ Real.sin (20 * Real.pi * t) ∧ f = ![t + dasShift zeta, 1 - √t + dasShift zeta] := by
  have key : ParetoPoint (DasFeasible P) (fun x => (P x).F) f ↔
      ∃ t, 0 ≤ t ∧ t ≤ 1 ∧ 2 * eta - 1 ≤ Real.sin (20 * Real.pi * t) ∧ f = ![t + dasShift zeta, 1 - √t + dasShift zeta] ∧
        ∀ u, 0 ≤ u → u ≤ 1 → 2 * eta - 1 ≤ Real.sin (20 * Real.pi * u) → ¬ Dominates ![u, 1 - √u] ![t, 1 - √t] := by
    rcases hP with rfl | rfl
    · exact das_two eta zeta h0 h1 (fun t => 1 - √t) (dasG1 2) (fun x _ => dasG1_nonneg x) (fun δ d0 d1 X hX => dasG1_attains d0 d1 X hX) _ (fun x => rfl) f
    · exact das_two eta zeta h0 h1 (fun t => 1 - √t) (dasG2 2) (fun x hx => dasG2_nonneg 2 (by norm_num) (by norm_num) x hx)
        (fun δ d0 d1 X hX => dasG2_attains d0 d1 2 (by norm_num) (by norm_num) X hX) _ (fun x => rfl) f
  rw [key]
  constructor
  · rintro ⟨t, a, b, c, e, -⟩; exact ⟨t, a, b, c, e⟩
  · rintro ⟨t, a, b, c, e⟩
    refine ⟨t, a, b, c, e, fun u u0 u1 _ => ?_⟩
    exact strictAnti_free (h := fun t => 1 - √t) (fun x y hx hxy hy => by linarith [Real.sqrt_lt_sqrt hx hxy]) a b u0 u1

/-- **C138** (disconnected) The Pareto-optimal points of DASCMOP3 and DASCMOP6: the points of the curve `f2 = 1 - √f1 + |sin (5 π f1)| / 2` over the allowed parameters that no other allowed
point of the curve dominates, moved by the shift. -/
theorem C138_disconnected (eta zeta : ℝ) (h0 : 0 ≤ zeta) (h1 : zeta ≤ 1) (f : Fin 2 → ℝ) (P : List ℝ → DasOut 2)
    (hP : P = dascmop3 eta zeta 0 ∨ P = dascmop6 eta zeta 0) :
    ParetoPoint (DasFeasible P) (fun x => (P x).F) f ↔
      ∃ t, 0 ≤ t ∧ t ≤ 1 ∧ 2 * eta - 1 ≤ Real.sin (20 * Real.pi * t) ∧
        f = ![t + dasShift zeta, 1 - √t + 0.5 * |Real.sin (5 * Real.pi * t)| + dasShift zeta] ∧
        ∀ u, 0 ≤ u → u ≤ 1 → 2 * eta - 1 ≤ Real.sin (20 * Real.pi * u) →
          ¬ Dominates ![u, 1 - √u + 0.5 * |Real.sin (5 * Real.pi * u)|] ![t, 1 - √t + 0.5 * |Real.sin (5 * Real.pi * t)|] := by
  rcases hP with rfl | rfl
  · exact das_two eta zeta h0 h1 (fun t => 1 - √t + 0.5 * |Real.sin (5 * Real.pi * t)|) (dasG1 2) (fun x _ => dasG1_nonneg x) (fun δ d0 d1 X hX => dasG1_attains d0 d1 X hX) _
      (fun x => rfl) f
  · exact das_two eta zeta h0 h1 (fun t => 1 - √t + 0.5 * |Real.sin (5 * Real.pi * t)|) (dasG2 2) (fun x hx => dasG2_nonneg 2 (by norm_num) (by norm_num) x hx)
      (fun δ d0 d1 X hX => dasG2_attains d0 d1 2 (by norm_num) (by norm_num) X hX) _ (fun x => rfl) f

/-! ### Three objectives -/

theorem das_three (eta zeta : ℝ) (h0 : 0 ≤ zeta) (h1 : zeta ≤ 1) (S : ℝ → ℝ → Fin 3 → ℝ) (g : List ℝ → ℝ) (hg0 : ∀ x : List ℝ, x.length = 30 → 0 ≤ g x)
    (hatt : ∀ δ, 0 ≤ δ → δ ≤ 0.5 → ∀ X, Cube 2 0 1 X → ∃ Y, Cube 28 0 1 Y ∧ g (X ++ Y) = δ) (P : List ℝ → DasOut 3)
    (hP : ∀ x, P x = dasEval3 eta zeta 0 x (S (x.getD 0 0) (x.getD 1 0) 0 + g x) (S (x.getD 0 0) (x.getD 1 0) 1 + g x) (S (x.getD 0 0) (x.getD 1 0) 2 + g x) (g x))
    (hS : ∀ a b a' b', 0 ≤ a → a ≤ 1 → 0 ≤ b → b ≤ 1 → 0 ≤ a' → a' ≤ 1 → 0 ≤ b' → b' ≤ 1 → ¬ Dominates (S a b) (S a' b')) (f : Fin 3 → ℝ) :
    ParetoPoint (DasFeasible P) (fun x => (P x).F) f ↔
      ∃ a b, 0 ≤ a ∧ a ≤ 1 ∧ 0 ≤ b ∧ b ≤ 1 ∧ 2 * eta - 1 ≤ Real.sin (20 * Real.pi * a) ∧ 2 * eta - 1 ≤ Real.cos (20 * Real.pi * b) ∧
        ∀ i, f i = S a b i + dasShift zeta := by
  obtain ⟨hT, hmin⟩ := type2_min h0 h1
  have hr := dasShift_range zeta
  rw [shifted_front (p := 2) (by norm_num) (fun x => (P x).F) (fun X => S (X.getD 0 0) (X.getD 1 0)) g
    (fun X => 2 * eta - 1 ≤ Real.sin (20 * Real.pi * X.getD 0 0) ∧ 2 * eta - 1 ≤ Real.cos (20 * Real.pi * X.getD 1 0))
    (fun g => 0 ≤ dasType2 zeta g) (dasShift zeta) ?_ (DasFeasible P) ?_ hT (fun x hx hTx => hmin _ (hg0 x hx.1) hTx)
    (fun X hX => hatt _ hr.1 hr.2 X hX) (by norm_num) f]
  · constructor
    · rintro ⟨X, hX, hC, hf, -⟩
      obtain ⟨a, b, rfl⟩ := List.length_eq_two.1 hX.1
      have ha := hX.2 a (by simp)
      have hb := hX.2 b (by simp)
      exact ⟨a, b, ha.1, ha.2, hb.1, hb.2, by simpa using hC.1, by simpa using hC.2, by simpa using hf⟩
    · rintro ⟨a, b, a0, a1, b0, b1, c1, c2, hf⟩
      refine ⟨[a, b], ⟨rfl, ?_⟩, ⟨c1, c2⟩, hf, fun Y hY _ => ?_⟩
      · intro v hv
        simp only [List.mem_cons, List.not_mem_nil, or_false] at hv
        rcases hv with rfl | rfl
        · exact ⟨a0, a1⟩
        · exact ⟨b0, b1⟩
      · obtain ⟨a', b', rfl⟩ := List.length_eq_two.1 hY.1
        have ha := hY.2 a' (by simp)
        have hb := hY.2 b' (by simp)
        simpa using hS a' b' a b ha.1 ha.2 hb.1 hb.2 a0 a1 b0 b1
  · intro x hx i
    rw [hP x]
    simp only [dasEval3, getD_take x 0 2 (by norm_num), getD_take x 1 2 (by norm_num)]
    fin_cases i <;> simp
  · intro x
    unfold DasFeasible
    rw [hP x]
    simp only [dasEval3, getD_take x 0 2 (by norm_num), getD_take x 1 2 (by norm_num), con3_iff, and_assoc]

/-- **C138** (plane) The Pareto-optimal points of DASCMOP7: the points `(a b, (1 - a) b, 1 - b)` of the plane with sum one over the allowed parameters, moved by the shift. -/
theorem C138_plane (eta zeta : ℝ) (h0 : 0 ≤ zeta) (h1 : zeta ≤ 1) (f : Fin 3 → ℝ) :
    ParetoPoint (DasFeasible (dascmop7 eta zeta 0)) (fun x => (dascmop7 eta zeta 0 x).F) f ↔
      ∃ a b, 0 ≤ a ∧ a ≤ 1 ∧ 0 ≤ b ∧ b ≤ 1 ∧ 2 * eta - 1 ≤ Real.sin (20 * Real.pi * a) ∧ 2 * eta - 1 ≤ Real.cos (20 * Real.pi * b) ∧
        ∀ i, f i = ![a * b, b * (1 - a), 1 - b] i + dasShift zeta := by
  refine das_three eta zeta h0 h1 (fun a b => ![a * b, b * (1 - a), 1 - b]) (dasG2 3) (fun x hx => dasG2_nonneg 3 (by norm_num) (by norm_num) x hx)
    (fun δ d0 d1 X hX => dasG2_attains d0 d1 3 (by norm_num) (by norm_num) X hX) _ (fun x => rfl) ?_ f
  rintro a b a' b' - - - - - - - - ⟨hle, i, hi⟩
  have e0 := hle 0
  have e1 := hle 1
  have e2 := hle 2
  simp only [Matrix.cons_val_zero, Matrix.cons_val_one, Matrix.cons_val] at e0 e1 e2
  fin_cases i <;> simp at hi <;> nlinarith

/-- **C138** (sphere) The Pareto-optimal points of DASCMOP8 and DASCMOP9: the points of the unit sphere over the allowed parameters, moved by the shift. -/
theorem C138_sphere (eta zeta : ℝ) (h0 : 0 ≤ zeta) (h1 : zeta ≤ 1) (f : Fin 3 → ℝ) (P : List ℝ → DasOut 3)
    (hP : P = dascmop8 eta zeta 0 ∨ P = dascmop9 eta zeta 0) :
    ParetoPoint (DasFeasible P) (fun x => (P x).F) f ↔
      ∃ a b, 0 ≤ a ∧ a ≤ 1 ∧ 0 ≤ b ∧ b ≤ 1 ∧ 2 * eta - 1 ≤ Real.sin (20 * Real.pi * a) ∧ 2 * eta - 1 ≤ Real.cos (20 * Real.pi * b) ∧
        ∀ i, f i = ![Real.cos (0.5 * Real.pi * a) * Real.cos (0.5 * Real.pi * b), Real.cos (0.5 * Real.pi * a) * Real.sin (0.5 * Real.pi * b),
          Real.sin (0.5 * Real.pi * a)] i + dasShift zeta := by
  have hS : ∀ a b a' b' : ℝ, 0 ≤ a → a ≤ 1 → 0 ≤ b → b ≤ 1 → 0 ≤ a' → a' ≤ 1 → 0 ≤ b' → b' ≤ 1 →
      ¬ Dominates ![Real.cos (0.5 * Real.pi * a) * Real.cos (0.5 * Real.pi * b), Real.cos (0.5 * Real.pi * a) * Real.sin (0.5 * Real.pi * b), Real.sin (0.5 * Real.pi * a)]
        ![Real.cos (0.5 * Real.pi * a') * Real.cos (0.5 * Real.pi * b'), Real.cos (0.5 * Real.pi * a') * Real.sin (0.5 * Real.pi * b'), Real.sin (0.5 * Real.pi * a')] := by
    rintro a b a' b' a0 a1 b0 b1 a0' a1' b0' b1' ⟨hle, i, hi⟩
    have e0 := hle 0
    have e1 := hle 1
    have e2 := hle 2
    simp only [Matrix.cons_val_zero, Matrix.cons_val_one, Matrix.cons_val] at e0 e1 e2
    have p0 := mul_nonneg (unit_cos a0 a1).1 (unit_cos b0 b1).1
    have p1 := mul_nonneg (unit_cos a0 a1).1 (unit_sin b0 b1).1
    have p2 := (unit_sin a0 a1).1
    have q1 := Real.sin_sq_add_cos_sq (0.5 * Real.pi * a)
    have q2 := Real.sin_sq_add_cos_sq (0.5 * Real.pi * b)
    have q3 := Real.sin_sq_add_cos_sq (0.5 * Real.pi * a')
    have q4 := Real.sin_sq_add_cos_sq (0.5 * Real.pi * b')
    have s1 : (Real.cos (0.5 * Real.pi * a) * Real.cos (0.5 * Real.pi * b)) ^ 2 + (Real.cos (0.5 * Real.pi * a) * Real.sin (0.5 * Real.pi * b)) ^ 2
        + Real.sin (0.5 * Real.pi * a) ^ 2 = 1 := by
      have : (Real.cos (0.5 * Real.pi * a) * Real.cos (0.5 * Real.pi * b)) ^ 2 + (Real.cos (0.5 * Real.pi * a) * Real.sin (0.5 * Real.pi * b)) ^ 2
          = Real.cos (0.5 * Real.pi * a) ^ 2 * (Real.sin (0.5 * Real.pi * b) ^ 2 + Real.cos (0.5 * Real.pi * b) ^ 2) := by ring
      rw [this, q2]; linarith
    have s2 : (Real.cos (0.5 * Real.pi * a') * Real.cos (0.5 * Real.pi * b')) ^ 2 + (Real.cos (0.5 * Real.pi * a') * Real.sin (0.5 * Real.pi * b')) ^ 2
        + Real.sin (0.5 * Real.pi * a') ^ 2 = 1 := by
      have : (Real.cos (0.5 * Real.pi * a') * Real.cos (0.5 * Real.pi * b')) ^ 2 + (Real.cos (0.5 * Real.pi * a') * Real.sin (0.5 * Real.pi * b')) ^ 2
          = Real.cos (0.5 * Real.pi * a') ^ 2 * (Real.sin (0.5 * Real.pi * b') ^ 2 + Real.cos (0.5 * Real.pi * b') ^ 2) := by ring
      rw [this, q4]; linarith
    generalize Real.cos (0.5 * Real.pi * a) * Real.cos (0.5 * Real.pi * b) = u0 at *
    generalize Real.cos (0.5 * Real.pi * a) * Real.sin (0.5 * Real.pi * b) = u1 at *
    generalize Real.sin (0.5 * Real.pi * a) = u2 at *
    generalize Real.cos (0.5 * Real.pi * a') * Real.cos (0.5 * Real.pi * b') = w0 at *
    generalize Real.cos (0.5 * Real.pi * a') * Real.sin (0.5 * Real.pi * b') = w1 at *
    generalize Real.sin (0.5 * Real.pi * a') = w2 at *
    have t0 : u0 ^ 2 ≤ w0 ^ 2 := pow_le_pow_left₀ p0 e0 2
    have t1 : u1 ^ 2 ≤ w1 ^ 2 := pow_le_pow_left₀ p1 e1 2
    have t2 : u2 ^ 2 ≤ w2 ^ 2 := pow_le_pow_left₀ p2 e2 2
    fin_cases i
    · have : u0 < w0 := hi
      have := pow_lt_pow_left₀ this p0 (two_ne_zero)
      linarith
    · have : u1 < w1 := hi
      have := pow_lt_pow_left₀ this p1 (two_ne_zero)
      linarith
    · have : u2 < w2 := hi
      have := pow_lt_pow_left₀ this p2 (two_ne_zero)
      linarith
  rcases hP with rfl | rfl
  · exact das_three eta zeta h0 h1 (fun a b => ![Real.cos (0.5 * Real.pi * a) * Real.cos (0.5 * Real.pi * b), Real.cos (0.5 * Real.pi * a) * Real.sin (0.5 * Real.pi * b), Real.sin (0.5 * Real.pi * a)])
      (dasG2 3) (fun x hx => dasG2_nonneg 3 (by norm_num) (by norm_num) x hx) (fun δ d0 d1 X hX => dasG2_attains d0 d1 3 (by norm_num) (by norm_num) X hX) _ (fun x => rfl) hS f
  · exact das_three eta zeta h0 h1 (fun a b => ![Real.cos (0.5 * Real.pi * a) * Real.cos (0.5 * Real.pi * b), Real.cos (0.5 * Real.pi * a) * Real.sin (0.5 * Real.pi * b), Real.sin (0.5 * Real.pi * a)])
      (dasG3 3) (fun x _ => sum_sq_nonneg _ _) (fun δ d0 d1 X hX => dasG3_attains d0 d1 X hX) _ (fun x => rfl) hS f

/-- **C138** (difficulties) An integer difficulty is accepted exactly from 1 to 16; it then has factors between 0 and 1, and those without the third factor, for which the theorems above
describe the front, are 1, 2, 5, 6, 9, 10, 13 and 14. -/
theorem C138_difficulty (k : ℤ) : ((dasDifficulty k).isSome = true ↔ 1 ≤ k ∧ k ≤ 16) ∧
    ∀ e z c, dasDifficulty k = some (e, z, c) → (0 ≤ e ∧ e ≤ 1) ∧ (0 ≤ z ∧ z ≤ 1) ∧ (0 ≤ c ∧ c ≤ 1) ∧ (c = 0 ↔ k ∈ [1, 2, 5, 6, 9, 10, 13, 14]) := by
  have hlen : (dasDifficulties.length : ℤ) = 16 := rfl
  by_cases h : 1 ≤ k ∧ k ≤ 16
  · obtain ⟨h1, h2⟩ := h
    have hk : k ∈ Finset.Icc (1 : ℤ) 16 := Finset.mem_Icc.2 ⟨h1, h2⟩
    refine ⟨⟨fun _ => ⟨h1, h2⟩, fun _ => ?_⟩, ?_⟩
    · unfold dasDifficulty
      rw [hlen, if_pos ⟨h1, h2⟩, List.getElem?_eq_getElem (by
        have : dasDifficulties.length = 16 := rfl
        omega)]
      rfl
    · intro e z c hd
      have all : ∀ j ∈ Finset.Icc (1 : ℤ) 16, ∀ q ∈ dasDifficulty j, (0 ≤ q.1 ∧ q.1 ≤ 1) ∧ (0 ≤ q.2.1 ∧ q.2.1 ≤ 1) ∧ (0 ≤ q.2.2 ∧ q.2.2 ≤ 1) ∧
          (q.2.2 = 0 ↔ j ∈ [1, 2, 5, 6, 9, 10, 13, 14]) := by decide +kernel
      exact all k hk (e, z, c) hd
  · have : dasDifficulty k = none := by unfold dasDifficulty; rw [hlen, if_neg h]
    rw [this]
    refine ⟨⟨by simp, fun h' => absurd h' h⟩, by simp⟩

/-- **C138** (factors) The table of difficulties: in the first three groups of four, the level `l/4` is given to the first factor alone, to the second alone, to the third alone, and to all three; the last
group has the second factor 1, with none, the first, the third, and both of the others at one half. -/
theorem C138_factors : (∀ l : ℤ, 1 ≤ l → l ≤ 3 →
      dasDifficulty (4 * l - 3) = some ((l : ℚ) / 4, 0, 0) ∧ dasDifficulty (4 * l - 2) = some (0, (l : ℚ) / 4, 0) ∧
      dasDifficulty (4 * l - 1) = some (0, 0, (l : ℚ) / 4) ∧ dasDifficulty (4 * l) = some ((l : ℚ) / 4, (l : ℚ) / 4, (l : ℚ) / 4)) ∧
    dasDifficulty 13 = some (0, 1, 0) ∧ dasDifficulty 14 = some (1 / 2, 1, 0) ∧ dasDifficulty 15 = some (0, 1, 1 / 2) ∧ dasDifficulty 16 = some (1 / 2, 1, 1 / 2) := by
  refine ⟨fun l h1 h2 => ?_, by decide +kernel, by decide +kernel, by decide +kernel, by decide +kernel⟩
  have hl : l ∈ Finset.Icc (1 : ℤ) 3 := Finset.mem_Icc.2 ⟨h1, h2⟩
  have all : ∀ l ∈ Finset.Icc (1 : ℤ) 3, dasDifficulty (4 * l - 3) = some ((l : ℚ) / 4, 0, 0) ∧ dasDifficulty (4 * l - 2) = some (0, (l : ℚ) / 4, 0) ∧
      dasDifficulty (4 * l - 1) = some (0, 0, (l : ℚ) / 4) ∧ dasDifficulty (4 * l) = some ((l : ℚ) / 4, (l : ℚ) / 4, (l : ℚ) / 4) := by decide +kernel
  exact all l hl

/-- Parameters for which the first constraint allows something: `eta = 3/4` and `t = 1/40`. -/
example : 2 * (3 / 4 : ℝ) - 1 ≤ Real.sin (20 * Real.pi * (1 / 40)) := by
  rw [show 20 * Real.pi * (1 / 40) = Real.pi / 2 by ring, Real.sin_pi_div_two]; norm_num

/-- … so DASCMOP1 with difficulty 9 has this Pareto-optimal point. -/
example : ParetoPoint (DasFeasible (dascmop1 (3 / 4) 0 0)) (fun x => (dascmop1 (3 / 4) 0 0 x).F) ![1 / 40, 1 - (1 / 40) ^ 2] := by
  rw [C138_concave (3 / 4) 0 (le_refl 0) zero_le_one _ _ (Or.inl rfl)]
  refine ⟨1 / 40, by norm_num, by norm_num, ?_, by simp [dasShift]⟩
  rw [show 20 * Real.pi * (1 / 40) = Real.pi / 2 by ring, Real.sin_pi_div_two]; norm_num

/-- **C138** (third kind of constraint, two objectives) An objective vector is cut out by the third kind of constraint exactly if it lies inside an ellipse with centre `(i, j + 1/2)`,
`1 ≤ i + j ≤ 3`, whose axes are the two diagonals. -/
theorem C138_ellipses (eta zeta gamma : ℝ) (x : List ℝ) (f0 f1 g : ℝ) :
    (∀ c ∈ dasCon2 eta zeta gamma x f0 f1 g, c ≤ 0) ↔
      (2 * eta - 1 ≤ Real.sin (20 * Real.pi * x.getD 0 0) ∧ 0 ≤ dasType2 zeta g ∧
        ∀ i j : ℕ, 1 ≤ i + j → i + j ≤ 3 →
          gamma / 2 ≤ ((f0 - i) + (f1 - (j + 1 / 2))) ^ 2 / 0.6 + ((f1 - (j + 1 / 2)) - (f0 - i)) ^ 2 / 2.4) := by
  have hc : Real.cos (-0.25 * Real.pi) = √2 / 2 := by rw [show -0.25 * Real.pi = -(Real.pi / 4) by ring, Real.cos_neg, Real.cos_pi_div_four]
  have hs : Real.sin (-0.25 * Real.pi) = -(√2 / 2) := by rw [show -0.25 * Real.pi = -(Real.pi / 4) by ring, Real.sin_neg, Real.sin_pi_div_four]
  have h2 : √2 ^ 2 = 2 := Real.sq_sqrt (by norm_num)
  have key : ∀ p q : ℝ, -1 * (((f0 - p) * Real.cos (-0.25 * Real.pi) - (f1 - q) * Real.sin (-0.25 * Real.pi)) ^ 2 / (0.3 : ℝ)
      + ((f0 - p) * Real.sin (-0.25 * Real.pi) + (f1 - q) * Real.cos (-0.25 * Real.pi)) ^ 2 / (1.2 : ℝ) - 0.5 * gamma) ≤ 0 ↔
      gamma / 2 ≤ ((f0 - p) + (f1 - q)) ^ 2 / 0.6 + ((f1 - q) - (f0 - p)) ^ 2 / 2.4 := by
    intro p q
    rw [hc, hs]
    have e : ((f0 - p) * (√2 / 2) - (f1 - q) * -(√2 / 2)) ^ 2 / (0.3 : ℝ) + ((f0 - p) * -(√2 / 2) + (f1 - q) * (√2 / 2)) ^ 2 / (1.2 : ℝ)
        = ((f0 - p) + (f1 - q)) ^ 2 / 0.6 + ((f1 - q) - (f0 - p)) ^ 2 / 2.4 := by
      have e1 : ((f0 - p) * (√2 / 2) - (f1 - q) * -(√2 / 2)) ^ 2 = √2 ^ 2 / 4 * ((f0 - p) + (f1 - q)) ^ 2 := by ring
      have e2 : ((f0 - p) * -(√2 / 2) + (f1 - q) * (√2 / 2)) ^ 2 = √2 ^ 2 / 4 * ((f1 - q) - (f0 - p)) ^ 2 := by ring
      rw [e1, e2, h2]; ring
    rw [e]
    constructor <;> intro h <;> linarith
  unfold dasCon2
  simp only [List.forall_mem_map, List.forall_mem_append, List.forall_mem_cons, List.not_mem_nil, false_imp_iff, implies_true, and_true]
  constructor
  · rintro ⟨⟨h1, h3⟩, h4⟩
    refine ⟨by linarith, by linarith, fun i j h5 h6 => ?_⟩
    rw [← key]
    refine h4 ((i : ℝ), (j : ℝ) + 1 / 2) ?_
    have hi : i ≤ 3 := by omega
    have hj : j ≤ 3 := by omega
    interval_cases i <;> interval_cases j <;> first | omega | (norm_num [dasCentres])
  · rintro ⟨h1, h3, h4⟩
    refine ⟨⟨by linarith, by linarith⟩, ?_⟩
    rintro ⟨p, q⟩ hp
    rw [key]
    have : ∃ i j : ℕ, 1 ≤ i + j ∧ i + j ≤ 3 ∧ p = i ∧ q = (j : ℝ) + 1 / 2 := by
      simp only [dasCentres, List.mem_cons, Prod.mk.injEq, List.not_mem_nil, or_false] at hp
      rcases hp with h | h | h | h | h | h | h | h | h
      · exact ⟨0, 1, by norm_num, by norm_num, by rw [h.1]; norm_num, by rw [h.2]; norm_num⟩
      · exact ⟨1, 0, by norm_num, by norm_num, by rw [h.1]; norm_num, by rw [h.2]; norm_num⟩
      · exact ⟨0, 2, by norm_num, by norm_num, by rw [h.1]; norm_num, by rw [h.2]; norm_num⟩
      · exact ⟨1, 1, by norm_num, by norm_num, by rw [h.1]; norm_num, by rw [h.2]; norm_num⟩
      · exact ⟨2, 0, by norm_num, by norm_num, by rw [h.1]; norm_num, by rw [h.2]; norm_num⟩
      · exact ⟨0, 3, by norm_num, by norm_num, by rw [h.1]; norm_num, by rw [h.2]; norm_num⟩
      · exact ⟨1, 2, by norm_num, by norm_num, by rw [h.1]; norm_num, by rw [h.2]; norm_num⟩
      · exact ⟨2, 1, by norm_num, by norm_num, by rw [h.1]; norm_num, by rw [h.2]; norm_num⟩
      · exact ⟨3, 0, by norm_num, by norm_num, by rw [h.1]; norm_num, by rw [h.2]; norm_num⟩
    obtain ⟨i, j, a, b, rfl, rfl⟩ := this
    exact h4 i j a b

/-- **C138** (third kind of constraint, three objectives) An objective vector is cut out by the third kind of constraint exactly if it lies inside a ball of radius `γ / 2` around a unit
vector or around the point of the unit sphere with equal coordinates. -/
theorem C138_balls (eta zeta gamma : ℝ) (x : List ℝ) (f : Fin 3 → ℝ) (g : ℝ) :
    (∀ c ∈ dasCon3 eta zeta gamma x (f 0) (f 1) (f 2) g, c ≤ 0) ↔
      (2 * eta - 1 ≤ Real.sin (20 * Real.pi * x.getD 0 0) ∧ 2 * eta - 1 ≤ Real.cos (20 * Real.pi * x.getD 1 0) ∧ 0 ≤ dasType2 zeta g ∧
        (∀ k : Fin 3, (gamma / 2) ^ 2 ≤ ∑ i, (f i - if i = k then 1 else 0) ^ 2) ∧
        ∀ t : ℝ, 0 ≤ t → 3 * t ^ 2 = 1 → (gamma / 2) ^ 2 ≤ ∑ i, (f i - t) ^ 2) := by
  have h3 : √3 ^ 2 = 3 := Real.sq_sqrt (by norm_num)
  have h30 : 0 < √3 := Real.sqrt_pos.2 (by norm_num)
  have ht : ∀ t : ℝ, 0 ≤ t → 3 * t ^ 2 = 1 → t = 1 / √3 := by
    intro t h0 h1
    rw [eq_div_iff h30.ne']
    have : (t * √3) ^ 2 = 1 := by rw [mul_pow, h3]; linarith
    nlinarith [mul_nonneg h0 h30.le, sq_nonneg (t * √3 - 1)]
  have ht' : 3 * (1 / √3) ^ 2 = 1 := by rw [div_pow, h3]; norm_num
  unfold dasCon3 dasCentres3
  simp only [List.forall_mem_map, List.forall_mem_append, List.forall_mem_cons, List.not_mem_nil, false_imp_iff, implies_true, and_true]
  constructor
  · rintro ⟨⟨h1, h2, h4⟩, a, b, c, d⟩
    refine ⟨by linarith, by linarith, by linarith, fun k => ?_, fun t t0 t1 => ?_⟩
    · fin_cases k <;> simp [Fin.sum_univ_three] <;> linarith
    · rw [ht t t0 t1, Fin.sum_univ_three]; linarith
  · rintro ⟨h1, h2, h4, h5, h6⟩
    refine ⟨⟨by linarith, by linarith, by linarith⟩, ?_, ?_, ?_, ?_⟩
    · have := h5 0; simp [Fin.sum_univ_three] at this; linarith
    · have := h5 1; simp [Fin.sum_univ_three] at this; linarith
    · have := h5 2; simp [Fin.sum_univ_three] at this; linarith
    · have := h6 (1 / √3) (by positivity) ht'; rw [Fin.sum_univ_three] at this; linarith

end Props
