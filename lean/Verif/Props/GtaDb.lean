import Mathlib.Data.List.GetD
import Mathlib.Tactic.IntervalCases
import Verif.Model.GtaDb
import Verif.Spec.Pareto
import Mathlib.Analysis.SpecialFunctions.Trigonometric.Bounds

/-!
# C168: the GTA benchmark functions
-/

set_option linter.unusedSimpArgs false
set_option linter.unusedVariables false

namespace Props
open Model Spec

/-- The optimal vectors of a set of objective vectors: those in the set that no vector of the set dominates. -/
def GtaOptimal {m : ℕ} (S : (Fin m → ℝ) → Prop) (f : Fin m → ℝ) : Prop := S f ∧ ∀ g, S g → ¬ Dominates g f

/-- The time `k` is a triangle wave between 0 and 5: it stays for one time unit, moves by one step, and repeats after ten. -/
theorem C168_state (t : ℝ) (ht : 0 ≤ t) :
    gtaK t ≤ 5 ∧ gtaK (t + 10) = gtaK t ∧ (gtaK (t + 1) = gtaK t + 1 ∨ gtaK (t + 1) + 1 = gtaK t) ∧ (t < 6 → gtaK t = ⌊t⌋₊) := by
  have e10 : ⌊t + 10⌋₊ = ⌊t⌋₊ + 10 := by exact_mod_cast Nat.floor_add_natCast ht 10
  have e1 : ⌊t + 1⌋₊ = ⌊t⌋₊ + 1 := Nat.floor_add_one ht
  have h6 : t < 6 → ⌊t⌋₊ < 6 := fun h => by
    rw [Nat.floor_lt ht]; exact_mod_cast h
  simp only [gtaK, e10, e1]
  generalize ⌊t⌋₊ = T at *
  refine ⟨?_, ?_, ?_, fun h => ?_⟩
  · omega
  · omega
  · omega
  · have := h6 h
    omega

theorem gtaTerm_nonneg (b : GtaBeta) (k : ℕ) (d : ℝ) : 0 ≤ gtaTerm b k d := by
  cases b
  · exact mul_self_nonneg d
  · exact mul_nonneg (mul_self_nonneg d) (by positivity)
  · have := Real.cos_le_one (2 * Real.pi * k * d)
    have := mul_self_nonneg d
    simp only [gtaTerm]; linarith

theorem gtaTerm_zero (b : GtaBeta) (k : ℕ) : gtaTerm b k 0 = 0 := by cases b <;> simp [gtaTerm]

theorem gtaBeta_nonneg (m : ℕ) (b : GtaBeta) (x : List ℝ) (t : ℝ) (o : Fin m) : 0 ≤ gtaBeta m b x t o := by
  refine mul_nonneg (by positivity) (List.sum_nonneg fun v hv => ?_)
  obtain ⟨i, _, rfl⟩ := List.mem_map.1 hv
  exact gtaTerm_nonneg _ _ _

/-- The distance part vanishes if all distance variables have the value `g`. -/
theorem gtaBeta_zero (m : ℕ) (b : GtaBeta) (x : List ℝ) (t : ℝ) (o : Fin m) (h : ∀ i, m - 1 ≤ i → i < x.length → x.getD i 0 = gtaG x t) :
    gtaBeta m b x t o = 0 := by
  unfold gtaBeta
  have e : (((List.range' (m - 1) (x.length - (m - 1))).filter fun i => (i + 1) % m = o).map fun i => gtaTerm b (gtaK t) (x.getD i 0 - gtaG x t)).sum = 0 := by
    refine List.sum_eq_zero fun v hv => ?_
    obtain ⟨i, hi, rfl⟩ := List.mem_map.1 hv
    have hi' := List.mem_range'_1.1 (List.mem_filter.1 hi).1
    rw [h i hi'.1 (by omega), sub_self, gtaTerm_zero]
  rw [e, mul_zero]

/-- If every vector of `S` is at least as large as one of `A` and `A` is part of `S`, the optimal vectors are the same. -/
theorem gta_reduce {m : ℕ} (S A : (Fin m → ℝ) → Prop) (hA : ∀ a, A a → S a) (hS : ∀ f, S f → ∃ a, A a ∧ ∀ i, a i ≤ f i) (f : Fin m → ℝ) :
    GtaOptimal S f ↔ GtaOptimal A f := by
  constructor
  · rintro ⟨hf, hn⟩
    obtain ⟨a, ha, hle⟩ := hS f hf
    have : a = f := by
      by_contra hne
      refine hn a (hA a ha) ⟨hle, ?_⟩
      by_contra hall
      push Not at hall
      exact hne (funext fun i => le_antisymm (hle i) (hall i))
    subst this
    exact ⟨ha, fun g hg => hn g (hA g hg)⟩
  · rintro ⟨hf, hn⟩
    refine ⟨hA f hf, fun g hg hd => ?_⟩
    obtain ⟨a, ha, hle⟩ := hS g hg
    obtain ⟨i, hi⟩ := hd.2
    exact hn a ha ⟨fun j => (hle j).trans (hd.1 j), i, lt_of_le_of_lt (hle i) hi⟩

/-- The points the functions accept for `m = 2` and `m = 3` objectives: `19 + m` variables, the first `m - 1` between 0 and 1, the others between -1 and 1. -/
def GtaPoint (m : ℕ) (x : List ℝ) : Prop := x.length = 19 + m ∧ ∀ i < 19 + m, (if i < m - 1 then 0 else -1) ≤ x.getD i 0 ∧ x.getD i 0 ≤ 1

theorem gtaCheck_iff (lower upper x : List ℝ) (hl : lower.length = upper.length) :
    gtaCheck lower upper x ↔ x.length = upper.length ∧ ∀ i < upper.length, lower.getD i 0 ≤ x.getD i 0 ∧ x.getD i 0 ≤ upper.getD i 0 := by
  unfold gtaCheck
  constructor
  · rintro ⟨h1, h2, h3⟩
    refine ⟨h1, fun i hi => ?_⟩
    have := h3 (x[i]'(by omega), upper[i], lower[i]'(by omega)) (List.mem_iff_getElem.2 ⟨i, by simp; omega, by simp⟩)
    rw [List.getD_eq_getElem _ _ (by omega), List.getD_eq_getElem _ _ (by omega), List.getD_eq_getElem _ _ (by omega)]
    exact this
  · rintro ⟨h1, h3⟩
    refine ⟨h1, by omega, fun e he => ?_⟩
    obtain ⟨i, hi, rfl⟩ := List.mem_iff_getElem.1 he
    simp at hi
    have := h3 i (by omega)
    rw [List.getD_eq_getElem _ _ (by omega), List.getD_eq_getElem _ _ (by omega), List.getD_eq_getElem _ _ (by omega)] at this
    simpa using this

theorem gtaCheck2 (x : List ℝ) : gtaCheck gtaLower gtaUpper x ↔ GtaPoint 2 x := by
  rw [gtaCheck_iff _ _ _ (by simp [gtaLower, gtaUpper])]
  simp only [gtaUpper, List.length_replicate, GtaPoint]
  refine and_congr_right fun _ => forall₂_congr fun i hi => ?_
  have e1 : (List.replicate 21 (1 : ℝ)).getD i 0 = 1 := by rw [List.getD_eq_getElem _ _ (by simpa using hi)]; exact List.getElem_replicate _
  have e2 : gtaLower.getD i 0 = if i < 1 then 0 else -1 := by
    cases i with
    | zero => simp [gtaLower]
    | succ i => rw [gtaLower, List.getD_cons_succ, List.getD_eq_getElem _ _ (by simp; omega)]; simp only [List.getElem_replicate]; try simp
  rw [e1, e2]

theorem gtaCheck3 (x : List ℝ) : gtaCheck (0 :: gtaLower) (1 :: gtaUpper) x ↔ GtaPoint 3 x := by
  rw [gtaCheck_iff _ _ _ (by simp [gtaLower, gtaUpper])]
  simp only [gtaUpper, List.length_cons, List.length_replicate, GtaPoint]
  refine and_congr_right fun _ => forall₂_congr fun i hi => ?_
  have e1 : (1 :: List.replicate 21 (1 : ℝ)).getD i 0 = 1 := by
    cases i with
    | zero => simp
    | succ i => rw [List.getD_cons_succ, List.getD_eq_getElem _ _ (by simp; omega)]; simp only [List.getElem_replicate]; try simp
  have e2 : ((0 : ℝ) :: gtaLower).getD i 0 = if i < 2 then 0 else -1 := by
    match i with
    | 0 => simp
    | 1 => simp [gtaLower]
    | i + 2 => rw [List.getD_cons_succ, gtaLower, List.getD_cons_succ, List.getD_eq_getElem _ _ (by simp; omega)]; simp only [List.getElem_replicate]; try simp
  rw [e1, e2]

/-- C168, the range: DB1 to DB8 accept exactly the points with 21 variables within the bounds, DB9 to DB12 those with 22; for all others they raise. -/
theorem C168_range (mult : Bool) (x : List ℝ) (t : ℝ) :
    (∀ p, 1 ≤ p → p ≤ 8 → ((gtaDB2 p mult x t).isSome ↔ GtaPoint 2 x)) ∧ (∀ p, 9 ≤ p → p ≤ 12 → ((gtaDB3 p mult x t).isSome ↔ GtaPoint 3 x)) := by
  constructor
  · intro p h1 h8
    rw [← gtaCheck2]
    obtain ⟨ab, hab⟩ : ∃ ab, gtaParts2 p = some ab := by
      interval_cases p <;> exact ⟨_, rfl⟩
    by_cases hc : gtaCheck gtaLower gtaUpper x <;> simp [gtaDB2, hab, hc]
  · intro p h1 h8
    rw [← gtaCheck3]
    obtain ⟨ab, hab⟩ : ∃ ab, gtaParts3 p = some ab := by
      interval_cases p <;> exact ⟨_, rfl⟩
    by_cases hc : gtaCheck (0 :: gtaLower) (1 :: gtaUpper) x <;> simp [gtaDB3, hab, hc]

theorem gtaExp_zero : gtaExp 0 = 0 := by simp [gtaExp]

theorem gtaExp_pos (k : ℕ) (h1 : 1 ≤ k) (h5 : k ≤ 5) : 0 < gtaExp k := by
  have hk1 : (1 : ℝ) ≤ k := by exact_mod_cast h1
  have hk5 : (k : ℝ) ≤ 5 := by exact_mod_cast h5
  have he : (1 : ℝ) / 2 ^ 52 ≤ 0.1 := by norm_num
  have he0 : (0 : ℝ) < 1 / 2 ^ 52 := by norm_num
  exact div_pos_of_neg_of_neg (Real.log_neg (by linarith) (by linarith)) (Real.log_neg (by linarith) (by linarith))

theorem gtaAlpha2_nonneg (a : GtaAlpha2) (t u : ℝ) (ht : 0 ≤ t) (h0 : 0 ≤ u) (h1 : u ≤ 1) (i : Fin 2) : 0 ≤ gtaAlpha2 a (gtaK t) u i := by
  have hs : √u ≤ 1 := Real.sqrt_le_one.2 h1
  have hsin := Real.sin_le_one (10 * Real.pi * u)
  have hsin' := Real.neg_one_le_sin (10 * Real.pi * u)
  have hk := (C168_state t ht).1
  have hp : 0 ≤ gtaExp (gtaK t) := by
    rcases Nat.eq_zero_or_pos (gtaK t) with h | h
    · rw [h, gtaExp_zero]
    · exact (gtaExp_pos _ h hk).le
  have hr : u ^ gtaExp (gtaK t) ≤ 1 := Real.rpow_le_one h0 h1 hp
  have hm : 0 ≤ 0.1 * (gtaK t : ℝ) * (1 + Real.sin (10 * Real.pi * u)) := mul_nonneg (by positivity) (by linarith)
  fin_cases i <;> cases a <;> simp [gtaAlpha2] <;> first | exact h0 | (norm_num; linarith) | linarith

theorem gtaFix_nonneg {x : ℝ} (h : 0 ≤ x) : 0 ≤ gtaFix x := by
  unfold gtaFix
  split_ifs
  · exact le_rfl
  · positivity
  · exact h

theorem gtaAlpha3_nonneg (a : GtaAlpha3) (t u v : ℝ) (ht : 0 ≤ t) (hu : 0 ≤ u ∧ u ≤ 1) (hv : 0 ≤ v ∧ v ≤ 1) (i : Fin 3) :
    0 ≤ gtaAlpha3 a (gtaK t) u v i := by
  have hpi := Real.pi_pos
  have hk : (gtaK t : ℝ) ≤ 5 := by exact_mod_cast (C168_state t ht).1
  have hk0 : (0 : ℝ) ≤ gtaK t := by positivity
  have cu : 0 ≤ Real.cos (0.5 * u * Real.pi) := Real.cos_nonneg_of_mem_Icc ⟨by nlinarith, by nlinarith⟩
  have su : 0 ≤ Real.sin (0.5 * u * Real.pi) := Real.sin_nonneg_of_nonneg_of_le_pi (by nlinarith) (by nlinarith)
  have key : ∀ w : ℝ, 0 ≤ w → w ≤ 1 → 0 ≤ Real.cos (0.5 * w * Real.pi) ∧ 0 ≤ Real.sin (0.5 * w * Real.pi) := fun w h0 h1 =>
    ⟨Real.cos_nonneg_of_mem_Icc ⟨by nlinarith, by nlinarith⟩, Real.sin_nonneg_of_nonneg_of_le_pi (by nlinarith) (by nlinarith)⟩
  cases a
  · have hkr : 0 ≤ (gtaK t : ℝ) / 5 ∧ (gtaK t : ℝ) / 5 ≤ 1 := ⟨by positivity, by linarith⟩
    have s3 : 0 ≤ Real.sin (0.5 * u * Real.pi + 0.25 * (gtaK t / 5) * Real.pi) :=
      Real.sin_nonneg_of_nonneg_of_le_pi (by nlinarith [mul_nonneg hkr.1 hpi.le]) (by nlinarith [mul_le_mul_of_nonneg_right hkr.2 hpi.le])
    fin_cases i
    · exact gtaFix_nonneg (mul_nonneg cu (key v hv.1 hv.2).1)
    · exact gtaFix_nonneg (mul_nonneg cu (key v hv.1 hv.2).2)
    · exact gtaFix_nonneg s3
  · have hr : 0 ≤ (5 - (gtaK t : ℝ)) / 5 ∧ (5 - (gtaK t : ℝ)) / 5 ≤ 1 := ⟨by linarith, by linarith⟩
    have hw := key (v * ((5 - (gtaK t : ℝ)) / 5)) (mul_nonneg hv.1 hr.1) (mul_le_one₀ hv.2 hr.1 hr.2)
    have e : 0.5 * (v * ((5 - (gtaK t : ℝ)) / 5)) * Real.pi = 0.5 * v * Real.pi * ((5 - (gtaK t : ℝ)) / 5) := by ring
    rw [e] at hw
    fin_cases i
    · exact gtaFix_nonneg (mul_nonneg cu hw.1)
    · exact gtaFix_nonneg (mul_nonneg cu hw.2)
    · exact gtaFix_nonneg su

theorem gtaCombine_ge {m : ℕ} (mult : Bool) (a b : Fin m → ℝ) (ha : ∀ i, 0 ≤ a i) (hb : ∀ i, 0 ≤ b i) (i : Fin m) : a i ≤ gtaCombine mult a b i := by
  unfold gtaCombine
  cases mult
  · simpa using hb i
  · have := mul_nonneg (ha i) (hb i)
    simp only [if_true]; linarith

theorem gtaCombine_zero {m : ℕ} (mult : Bool) (a b : Fin m → ℝ) (hb : ∀ i, b i = 0) : gtaCombine mult a b = a := by
  funext i
  cases mult <;> simp [gtaCombine, hb i]

/-- C168, the fronts: at every time from 0 on, the optimal objective vectors of DB1 to DB8 are those of the curve (the alpha function of the first variable),
for the additive and for the multiplicative form; those of DB9 to DB12 are the optimal ones of the surface. -/
theorem C168_front (mult : Bool) (t : ℝ) (ht : 0 ≤ t) :
    (∀ p a b, gtaParts2 p = some (a, b) → ∀ f,
      GtaOptimal (fun f => ∃ x, gtaDB2 p mult x t = some f) f ↔ GtaOptimal (fun f => ∃ u, (0 ≤ u ∧ u ≤ 1) ∧ f = gtaAlpha2 a (gtaK t) u) f) ∧
    (∀ p a b, gtaParts3 p = some (a, b) → ∀ f,
      GtaOptimal (fun f => ∃ x, gtaDB3 p mult x t = some f) f ↔
        GtaOptimal (fun f => ∃ u v, (0 ≤ u ∧ u ≤ 1) ∧ (0 ≤ v ∧ v ≤ 1) ∧ f = gtaAlpha3 a (gtaK t) u v) f) := by
  constructor
  · intro p a b hp f
    refine gta_reduce _ _ ?_ ?_ f
    · rintro _ ⟨u, hu, rfl⟩
      set x : List ℝ := u :: List.replicate 20 (Real.sin (0.5 * Real.pi * (t - u))) with hx
      have hP : GtaPoint 2 x := by
        refine ⟨by simp [hx], fun i hi => ?_⟩
        cases i with
        | zero => simpa [hx] using hu
        | succ i =>
          rw [hx, List.getD_cons_succ, List.getD_eq_getElem _ _ (by simp; omega), List.getElem_replicate, if_neg (by omega)]
          exact ⟨Real.neg_one_le_sin _, Real.sin_le_one _⟩
      refine ⟨x, ?_⟩
      have hz : ∀ o, gtaBeta 2 b x t o = 0 := fun o => gtaBeta_zero 2 b x t o fun i h1 h2 => by
        cases i with
        | zero => omega
        | succ i =>
          rw [hx] at h2 ⊢
          rw [List.getD_cons_succ, List.getD_eq_getElem _ _ (by simp at h2 ⊢; omega), List.getElem_replicate]
          simp [gtaG]
      simp only [gtaDB2, hp, Option.bind_some, if_pos ((gtaCheck2 x).2 hP), gtaCombine_zero mult _ _ hz]
      rfl
    · rintro f ⟨x, hx⟩
      simp only [gtaDB2, hp, Option.bind_some] at hx
      split_ifs at hx with hc
      have hP := (gtaCheck2 x).1 hc
      have h0 := hP.2 0 (by norm_num)
      simp only [Option.some.injEq] at hx
      subst hx
      norm_num at h0
      have h0' : 0 ≤ x.getD 0 0 ∧ x.getD 0 0 ≤ 1 := by simpa using h0
      exact ⟨_, ⟨_, h0', rfl⟩, gtaCombine_ge mult _ _ (gtaAlpha2_nonneg a t _ ht h0'.1 h0'.2) (gtaBeta_nonneg 2 b x t)⟩
  · intro p a b hp f
    refine gta_reduce _ _ ?_ ?_ f
    · rintro _ ⟨u, v, hu, hv, rfl⟩
      set x : List ℝ := u :: v :: List.replicate 20 (Real.sin (0.5 * Real.pi * (t - u))) with hx
      have hP : GtaPoint 3 x := by
        refine ⟨by simp [hx], fun i hi => ?_⟩
        match i with
        | 0 => simpa [hx] using hu
        | 1 => simpa [hx] using hv
        | i + 2 =>
          rw [hx, List.getD_cons_succ, List.getD_cons_succ, List.getD_eq_getElem _ _ (by simp; omega), List.getElem_replicate, if_neg (by omega)]
          exact ⟨Real.neg_one_le_sin _, Real.sin_le_one _⟩
      refine ⟨x, ?_⟩
      have hz : ∀ o, gtaBeta 3 b x t o = 0 := fun o => gtaBeta_zero 3 b x t o fun i h1 h2 => by
        match i, h1, h2 with
        | i + 2, h1, h2 =>
          rw [hx] at h2 ⊢
          rw [List.getD_cons_succ, List.getD_cons_succ, List.getD_eq_getElem _ _ (by simp at h2 ⊢; omega), List.getElem_replicate]
          simp [gtaG]
      simp only [gtaDB3, hp, Option.bind_some, if_pos ((gtaCheck3 x).2 hP), gtaCombine_zero mult _ _ hz]
      rfl
    · rintro f ⟨x, hx⟩
      simp only [gtaDB3, hp, Option.bind_some] at hx
      split_ifs at hx with hc
      have hP := (gtaCheck3 x).1 hc
      have h0 := hP.2 0 (by norm_num)
      have h1 := hP.2 1 (by norm_num)
      simp only [Option.some.injEq] at hx
      subst hx
      norm_num at h0 h1
      have h0' : 0 ≤ x.getD 0 0 ∧ x.getD 0 0 ≤ 1 := by simpa using h0
      have h1' : 0 ≤ x.getD 1 0 ∧ x.getD 1 0 ≤ 1 := by simpa using h1
      exact ⟨_, ⟨_, _, h0', h1', rfl⟩, gtaCombine_ge mult _ _ (gtaAlpha3_nonneg a t _ _ ht h0' h1') (gtaBeta_nonneg 3 b x t)⟩

/-- A decreasing curve over `[0, 1]` consists of optimal points. -/
theorem gta_curve (c : ℝ → ℝ) (hc : ∀ u v, 0 ≤ u → u < v → v ≤ 1 → c v < c u) (f : Fin 2 → ℝ) :
    GtaOptimal (fun f => ∃ u, (0 ≤ u ∧ u ≤ 1) ∧ f = ![u, c u]) f ↔ ∃ u, (0 ≤ u ∧ u ≤ 1) ∧ f = ![u, c u] := by
  refine ⟨fun h => h.1, fun h => ⟨h, ?_⟩⟩
  obtain ⟨u, hu, rfl⟩ := h
  rintro _ ⟨v, hv, rfl⟩ ⟨hle, i, hi⟩
  have h0 : v ≤ u := hle 0
  have h1 : c v ≤ c u := hle 1
  rcases lt_or_eq_of_le h0 with h | h
  · linarith [hc v u hv.1 h hu.2]
  · subst h; exact lt_irrefl _ hi

/-- C168, closed forms: the front of DB1, DB2 and DB3 is `1 - √f1` at every time. -/
theorem C168_conv (p : ℕ) (hp1 : 1 ≤ p) (hp3 : p ≤ 3) (mult : Bool) (t : ℝ) (ht : 0 ≤ t) (f : Fin 2 → ℝ) :
    GtaOptimal (fun f => ∃ x, gtaDB2 p mult x t = some f) f ↔ ∃ u, (0 ≤ u ∧ u ≤ 1) ∧ f = ![u, 1 - √u] := by
  obtain ⟨b, hb⟩ : ∃ b, gtaParts2 p = some (.conv, b) := by interval_cases p <;> exact ⟨_, rfl⟩
  rw [(C168_front mult t ht).1 p _ _ hb f]
  exact gta_curve (fun u => 1 - √u) (fun u v h0 h h1 => by have := Real.sqrt_lt_sqrt h0 h; show 1 - √v < 1 - √u; linarith) f

/-- C168, closed forms: the front of DB7 and DB8 is `1 - f1 ^ e`, with a positive exponent, while the state `k` is not 0; it is the single point `(0, 0)` while
`k` is 0, as it is during the first time unit of every ten. -/
theorem C168_conf (p : ℕ) (hp : p = 7 ∨ p = 8) (mult : Bool) (t : ℝ) (ht : 0 ≤ t) (f : Fin 2 → ℝ) :
    (gtaK t ≠ 0 → 0 < gtaExp (gtaK t) ∧
      (GtaOptimal (fun f => ∃ x, gtaDB2 p mult x t = some f) f ↔ ∃ u, (0 ≤ u ∧ u ≤ 1) ∧ f = ![u, 1 - u ^ gtaExp (gtaK t)])) ∧
    (gtaK t = 0 → (GtaOptimal (fun f => ∃ x, gtaDB2 p mult x t = some f) f ↔ f = ![0, 0])) := by
  obtain ⟨b, hb⟩ : ∃ b, gtaParts2 p = some (.conf, b) := by rcases hp with rfl | rfl <;> exact ⟨_, rfl⟩
  rw [(C168_front mult t ht).1 p _ _ hb f]
  refine ⟨fun hk => ?_, fun hk => ?_⟩
  · have he := gtaExp_pos (gtaK t) (Nat.pos_of_ne_zero hk) (C168_state t ht).1
    exact ⟨he, gta_curve (fun u => 1 - u ^ gtaExp (gtaK t))
      (fun u v h0 h h1 => by have := Real.rpow_lt_rpow h0 h he; show 1 - v ^ _ < 1 - u ^ _; linarith) f⟩
  · rw [hk]
    have e : ∀ u : ℝ, gtaAlpha2 .conf 0 u = ![u, 0] := fun u => by simp [gtaAlpha2, gtaExp_zero]
    simp only [e]
    constructor
    · rintro ⟨⟨u, hu, rfl⟩, hn⟩
      by_contra hne
      have hu0 : 0 < u := lt_of_le_of_ne hu.1 fun h => hne (by rw [← h])
      exact hn ![0, 0] ⟨0, by norm_num, rfl⟩ ⟨fun i => by fin_cases i <;> simp [hu.1], 0, by simpa using hu0⟩
    · rintro rfl
      refine ⟨⟨0, by norm_num, rfl⟩, ?_⟩
      rintro _ ⟨u, hu, rfl⟩ ⟨hle, i, hi⟩
      fin_cases i
      · simp at hi; linarith [hu.1]
      · simp at hi

example : gtaK 0 = 0 ∧ gtaK 3.5 = 3 ∧ GtaPoint 2 (1 :: List.replicate 20 (-1)) := by
  refine ⟨by simp [gtaK], ?_, ?_⟩
  · rw [(C168_state 3.5 (by norm_num)).2.2.2 (by norm_num)]
    rw [Nat.floor_eq_iff (by norm_num)]; norm_num
  · refine ⟨by simp, fun i hi => ?_⟩
    cases i with
    | zero => simp
    | succ i => rw [List.getD_cons_succ, List.getD_eq_getElem _ _ (by simp; omega), List.getElem_replicate, if_neg (by omega)]; norm_num

end Props
