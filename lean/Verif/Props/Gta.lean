import Mathlib.Analysis.Convex.SpecificFunctions.Pow
import Mathlib.Analysis.Real.Pi.Bounds
import Verif.Model.Gta
import Verif.Props.DTLZ
import Verif.Props.ZDT

/-!
# C145, C146: the dynamic problems of the CEC 2015 competition
-/

set_option linter.unusedSimpArgs false
set_option linter.unusedVariables false

namespace Props
open Spec Model

theorem gta_congr {m : ℕ} {D : List ℝ → Prop} {F F' : List ℝ → Fin m → ℝ} (h : ∀ x, D x → F x = F' x) (f : Fin m → ℝ) : ParetoPoint D F f ↔ ParetoPoint D F' f := by
  unfold ParetoPoint
  refine and_congr ⟨?_, ?_⟩ (forall_congr' fun x => ?_)
  · rintro ⟨x, hx, rfl⟩; exact ⟨x, hx, (h x hx).symm⟩
  · rintro ⟨x, hx, rfl⟩; exact ⟨x, hx, h x hx⟩
  · exact ⟨fun hh hx => h x hx ▸ hh hx, fun hh hx => (h x hx).symm ▸ hh hx⟩

/-- A solution of three objectives in the form of `front_of_sphere`. -/
theorem gta_shape3 (c s : ℝ → ℝ) (a b : ℝ) :
    dtlzShape c s [a, b] 0 = c a * c b ∧ dtlzShape c s [a, b] 1 = c a * s b ∧ dtlzShape c s [a, b] 2 = s a := by
  simp [dtlzShape]

theorem gta_two {n : ℕ} (hn : 2 ≤ n) {x : List ℝ} (hx : Cube n 0 1 x) : ∃ a b l, x = a :: b :: l ∧ Unit01 a ∧ Unit01 b := by
  obtain ⟨hl, hb⟩ := hx
  match x, hl with
  | [], h => simp at h; omega
  | [a], h => simp at h; omega
  | a :: b :: l, _ => exact ⟨a, b, l, rfl, hb a (by simp), hb b (by simp)⟩

theorem gta_sq_nonneg (L : List ℝ) (G : ℝ) : 0 ≤ (L.map fun v => (v - G) ^ 2).sum := by
  apply List.sum_nonneg
  intro v hv
  obtain ⟨w, -, rfl⟩ := List.mem_map.1 hv
  positivity

theorem gta_sq_zero (k : ℕ) (G : ℝ) : ((List.replicate k G).map fun v => (v - G) ^ 2).sum = 0 := by
  simp

theorem gta_G (t : ℝ) : 0 ≤ |Real.sin (0.5 * Real.pi * t)| ∧ |Real.sin (0.5 * Real.pi * t)| ≤ 1 := ⟨abs_nonneg _, Real.abs_sin_le_one _⟩

/-- FDA4: at every time the Pareto front is the part of the unit sphere with non-negative entries. -/
theorem C145_fda4 (n : ℕ) (hn : 2 ≤ n) (t : ℝ) (f : Fin 3 → ℝ) :
    ParetoPoint (Cube n 0 1) (fun x => gtaFda4 x t) f ↔ (∀ i, 0 ≤ f i) ∧ f 0 ^ 2 + f 1 ^ 2 + f 2 ^ 2 = 1 := by
  set G := |Real.sin (0.5 * Real.pi * t)| with hG
  have hGu := gta_G t
  rw [← hG] at hGu
  set c : ℝ → ℝ := fun v => Real.cos (v ^ 1 * Real.pi / 2) with hc
  set s : ℝ → ℝ := fun v => Real.sin (v ^ 1 * Real.pi / 2) with hs
  have key := front_of_sphere (m := 3) (n := n) (p := 2) (by norm_num) (by omega)
    (fun x i => (1 + ((x.drop 2).map fun v => (v - G) ^ 2).sum) * dtlzShape c s (x.take 2) i) c s (polar_trig 1 one_ne_zero)
    (fun XM => 1 + (XM.map fun v => (v - G) ^ 2).sum) 1 one_pos (fun x i => rfl) (fun XM _ => by linarith [gta_sq_nonneg XM G])
    ⟨List.replicate (n - 2) G, ⟨by simp, fun v hv => by rw [List.eq_of_mem_replicate hv]; exact hGu⟩, by rw [gta_sq_zero]; ring⟩ f
  rw [gta_congr (F' := fun x i => (1 + ((x.drop 2).map fun v => (v - G) ^ 2).sum) * dtlzShape c s (x.take 2) i), key]
  · simp [Fin.sum_univ_three]
  · intro x hx
    obtain ⟨a, b, l, rfl, -, -⟩ := gta_two hn hx
    obtain ⟨e0, e1, e2⟩ := gta_shape3 c s a b
    funext i
    simp only [List.take_succ_cons, List.take_zero, List.drop_succ_cons, List.drop_zero]
    fin_cases i
    · simp only [Fin.mk_zero, Fin.zero_eta, Fin.isValue, Fin.val_zero]
      rw [e0]; simp [gtaFda4, hc, hG]; ring
    · simp only [Fin.mk_one, Fin.isValue, Fin.val_one]
      rw [e1]; simp [gtaFda4, hc, hs, hG]; ring
    · simp only [Fin.reduceFinMk, Fin.isValue, Fin.val_two]
      rw [e2]; simp [gtaFda4, hc, hs, hG]

theorem gta_polar {e : ℝ} (he : 0 < e) : Polar (fun v => Real.cos (v ^ e * Real.pi / 2)) (fun v => Real.sin (v ^ e * Real.pi / 2)) 2 := by
  have H := polar_trig 1 one_ne_zero
  refine ⟨by norm_num, fun v hv => ?_, fun w hw => ?_⟩
  · have := H.circle (v ^ e) ⟨Real.rpow_nonneg hv.1 _, Real.rpow_le_one hv.1 hv.2 he.le⟩
    simpa using this
  · obtain ⟨u, hu, e'⟩ := H.onto w hw
    refine ⟨u ^ e⁻¹, ⟨Real.rpow_nonneg hu.1 _, Real.rpow_le_one hu.1 hu.2 (by positivity)⟩, ?_⟩
    rw [← e']
    simp only [pow_one]
    rw [← Real.rpow_mul hu.1, inv_mul_cancel₀ he.ne', Real.rpow_one]

/-- FDA5: the Pareto front is the part with non-negative entries of the sphere with the radius `1 + |sin (π t / 2)|`. -/
theorem C145_fda5 (n : ℕ) (hn : 2 ≤ n) (t : ℝ) (f : Fin 3 → ℝ) :
    ParetoPoint (Cube n 0 1) (fun x => gtaFda5 x t) f ↔ (∀ i, 0 ≤ f i) ∧ f 0 ^ 2 + f 1 ^ 2 + f 2 ^ 2 = (1 + |Real.sin (0.5 * Real.pi * t)|) ^ 2 := by
  set G := |Real.sin (0.5 * Real.pi * t)| with hG
  have hGu := gta_G t
  rw [← hG] at hGu
  set e := 1 + 100 * Real.sin (0.5 * Real.pi * t) ^ 4 with he
  have hep : 0 < e := by positivity
  set c : ℝ → ℝ := fun v => Real.cos (v ^ e * Real.pi / 2) with hc
  set s : ℝ → ℝ := fun v => Real.sin (v ^ e * Real.pi / 2) with hs
  have key := front_of_sphere (m := 3) (n := n) (p := 2) (by norm_num) (by omega)
    (fun x i => (1 + (G + ((x.drop 2).map fun v => (v - G) ^ 2).sum)) * dtlzShape c s (x.take 2) i) c s (gta_polar hep)
    (fun XM => 1 + (G + (XM.map fun v => (v - G) ^ 2).sum)) (1 + G) (by linarith [hGu.1]) (fun x i => rfl) (fun XM _ => by linarith [gta_sq_nonneg XM G])
    ⟨List.replicate (n - 2) G, ⟨by simp, fun v hv => by rw [List.eq_of_mem_replicate hv]; exact hGu⟩, by rw [gta_sq_zero]; ring⟩ f
  rw [gta_congr (F' := fun x i => (1 + (G + ((x.drop 2).map fun v => (v - G) ^ 2).sum)) * dtlzShape c s (x.take 2) i), key]
  · simp [Fin.sum_univ_three]
  · intro x hx
    obtain ⟨a, b, l, rfl, -, -⟩ := gta_two hn hx
    obtain ⟨e0, e1, e2⟩ := gta_shape3 c s a b
    funext i
    simp only [List.take_succ_cons, List.take_zero, List.drop_succ_cons, List.drop_zero]
    fin_cases i
    · simp only [Fin.mk_zero, Fin.zero_eta, Fin.isValue, Fin.val_zero]
      rw [e0]; simp [gtaFda5, hc, hG, he]; ring
    · simp only [Fin.mk_one, Fin.isValue, Fin.val_one]
      rw [e1]; simp [gtaFda5, hc, hs, hG, he]; ring
    · simp only [Fin.reduceFinMk, Fin.isValue, Fin.val_two]
      rw [e2]; simp [gtaFda5, hc, hs, hG, he]

/-! ### Two objectives: a curve scaled by the distance -/

/-- For `0 ≤ u ≤ a ≤ g`: the scaled curve with the larger distance and the larger exponent is higher. -/
theorem gta_scaled {u a g p q : ℝ} (hu : 0 ≤ u) (hua : u ≤ a) (ha : 0 < a) (hag : a ≤ g) (hp : 0 < p) (hpq : p ≤ q) : a * (1 - (u / a) ^ p) ≤ g * (1 - (u / g) ^ q) := by
  have h1 : u / g ≤ u / a := div_le_div_of_nonneg_left hu ha hag
  have h0 : 0 ≤ u / g := div_nonneg hu (by linarith)
  have h2 : u / a ≤ 1 := (div_le_one ha).2 hua
  have h3 : (u / g) ^ q ≤ (u / a) ^ p := by
    rcases h0.eq_or_lt with h | h
    · rw [← h, Real.zero_rpow (by linarith : q ≠ 0)]
      exact Real.rpow_nonneg (div_nonneg hu ha.le) _
    · exact le_trans (Real.rpow_le_rpow_of_exponent_ge h (by linarith) hpq) (Real.rpow_le_rpow h0 h1 hp.le)
  have h4 : (u / a) ^ p ≤ 1 := Real.rpow_le_one (by linarith) h2 hp.le
  nlinarith [mul_le_mul_of_nonneg_left h3 (show 0 ≤ g by linarith), mul_nonneg (show 0 ≤ g - a by linarith) (show 0 ≤ 1 - (u / a) ^ p by linarith)]

theorem gta_decreasing {a p : ℝ} (ha : 0 < a) (hp : 0 < p) {s t : ℝ} (hs : 0 ≤ s) (h : s < t) : a * (1 - (t / a) ^ p) < a * (1 - (s / a) ^ p) := by
  have := Real.rpow_lt_rpow (div_nonneg hs ha.le) (div_lt_div_of_pos_right h ha) hp
  nlinarith

/-- The smallest square distance of a variable in `[0, 1]` to `G ≤ 1`. -/
theorem gta_near {G : ℝ} (hG : G ≤ 1) : (∀ v, Unit01 v → (min G 0) ^ 2 ≤ (v - G) ^ 2) ∧ Unit01 (max G 0) ∧ (max G 0 - G) ^ 2 = (min G 0) ^ 2 := by
  refine ⟨fun v hv => ?_, ⟨le_max_right _ _, max_le hG zero_le_one⟩, ?_⟩
  · rcases le_total G 0 with h | h
    · rw [min_eq_left h]; nlinarith [hv.1]
    · rw [min_eq_right h]; nlinarith [sq_nonneg (v - G)]
  · rcases le_total G 0 with h | h
    · rw [min_eq_left h, max_eq_right h]; ring
    · rw [min_eq_right h, max_eq_left h]; ring

theorem gta_near_sum {G : ℝ} (hG : G ≤ 1) (L : List ℝ) (hL : ∀ v ∈ L, 0 ≤ v ∧ v ≤ 1) : L.length * (min G 0) ^ 2 ≤ (L.map fun v => (v - G) ^ 2).sum := by
  induction L with
  | nil => simp
  | cons a l ih =>
    have h1 := (gta_near hG).1 a (hL a (by simp))
    have h2 := ih fun v hv => hL v (List.mem_cons_of_mem _ hv)
    simp only [List.length_cons, List.map_cons, List.sum_cons]
    push_cast
    linarith

theorem gta_near_opt {G : ℝ} (hG : G ≤ 1) (k : ℕ) : ((List.replicate k (max G 0)).map fun v => (v - G) ^ 2).sum = k * (min G 0) ^ 2 := by
  simp [(gta_near hG).2.2]

theorem gta_cons {n : ℕ} (hn : 1 ≤ n) {x : List ℝ} (hx : Cube n 0 1 x) : ∃ u l, x = u :: l ∧ Unit01 u ∧ l.length = n - 1 ∧ ∀ v ∈ l, 0 ≤ v ∧ v ≤ 1 := by
  obtain ⟨hl, hb⟩ := hx
  cases x with
  | nil => simp at hl; omega
  | cons u l => exact ⟨u, l, rfl, hb u (by simp), by simp at hl; omega, fun v hv => hb v (List.mem_cons_of_mem _ hv)⟩

theorem gtaH_bounds (t : ℝ) : 0.5 ≤ gtaH t ∧ gtaH t ≤ 2 := by
  unfold gtaH
  have h1 := Real.sin_le_one (0.5 * Real.pi * t)
  have h2 := Real.neg_one_le_sin (0.5 * Real.pi * t)
  generalize Real.sin (0.5 * Real.pi * t) = s at *
  constructor <;> norm_num <;> linarith

/-- dMOP2: the Pareto front is the curve `f2 = a (1 - (f1 / a) ^ H)` over `0 ≤ f1 ≤ 1`, where `a = 1` while the common optimum `sin (π t / 2)` of the other variables is in their range,
and `a = 1 + 9 (n - 1) sin (π t / 2) ^ 2` while it is negative. -/
theorem C145_dmop2 (n : ℕ) (hn : 1 ≤ n) (t : ℝ) (f : Fin 2 → ℝ) :
    ParetoPoint (Cube n 0 1) (fun x => gtaDmop2 x t) f ↔
      ∃ u, (0 ≤ u ∧ u ≤ 1) ∧ f = ![u, (1 + 9 * ((n : ℝ) - 1) * (min (Real.sin (0.5 * Real.pi * t)) 0) ^ 2) *
        (1 - (u / (1 + 9 * ((n : ℝ) - 1) * (min (Real.sin (0.5 * Real.pi * t)) 0) ^ 2)) ^ (0.75 * Real.sin (0.5 * Real.pi * t) + 1.25))] := by
  have hG := Real.sin_le_one (0.5 * Real.pi * t)
  have hH := (gtaH_bounds t).1
  have hHp : 0 < gtaH t := by norm_num at hH; linarith
  unfold gtaH at hHp
  set G := Real.sin (0.5 * Real.pi * t) with hGd
  set a := 1 + 9 * ((n : ℝ) - 1) * (min G 0) ^ 2 with ha
  have hn1 : (0 : ℝ) ≤ (n : ℝ) - 1 := by
    have : (1 : ℝ) ≤ n := by exact_mod_cast hn
    linarith
  have ha1 : 1 ≤ a := by have := mul_nonneg hn1 (sq_nonneg (min G 0)); linarith
  refine front_of_curve (Cube n 0 1) (fun x => gtaDmop2 x t) Unit01 (fun u => a * (1 - (u / a) ^ (0.75 * G + 1.25))) ?_ ?_ ?_ ?_ f
  · intro x hx
    obtain ⟨u, l, rfl, hu, -, -⟩ := gta_cons hn hx
    simpa [gtaDmop2] using hu
  · intro x hx
    obtain ⟨u, l, rfl, hu, hl, hb⟩ := gta_cons hn hx
    have h := gta_near_sum hG l hb
    rw [hl, Nat.cast_sub hn, Nat.cast_one] at h
    have := gta_scaled (u := u) (a := a) (g := 1 + 9 * (l.map fun v => (v - G) ^ 2).sum) hu.1 (by linarith [hu.2]) (by linarith) (by rw [ha]; linarith) hHp le_rfl
    simpa [gtaDmop2, gtaH, ← hGd] using this
  · intro u hu
    refine ⟨u :: List.replicate (n - 1) (max G 0), ⟨by simp; omega, ?_⟩, ?_⟩
    · intro v hv
      rcases List.mem_cons.1 hv with rfl | hv
      · exact hu
      · rw [List.eq_of_mem_replicate hv]; exact (gta_near hG).2.1
    · have e : 1 + 9 * ((List.replicate (n - 1) (max G 0)).map fun v => (v - G) ^ 2).sum = a := by
        rw [gta_near_opt hG, Nat.cast_sub hn, Nat.cast_one, ha]; ring
      simp only [gtaDmop2, List.drop_succ_cons, List.drop_zero, List.headD_cons, gtaH, ← hGd]
      rw [e]
  · intro s t' hs ht h
    exact gta_decreasing (by linarith) hHp hs.1 h

/-- FDA2: the Pareto front is the curve `f2 = 1 - f1 ^ (2 ^ H')` with `H' = H`, as long as `H / 4 ≥ 0` is the optimum of the variables from the seventh to the thirteenth,
and `H' = H + k (H / 4) ^ 2` while it is negative, for `k` such variables. -/
theorem C145_fda2 (n : ℕ) (hn : 1 ≤ n) (t : ℝ) (f : Fin 2 → ℝ) :
    ParetoPoint (Cube n 0 1) (fun x => gtaFda2 x t) f ↔
      ∃ u, (0 ≤ u ∧ u ≤ 1) ∧ f = ![u, 1 - u ^ ((2:ℝ) ^ (2 * Real.sin (0.5 * Real.pi * (t - 1)) + ((min 7 (n - 6) : ℕ) : ℝ) * (min (2 * Real.sin (0.5 * Real.pi * (t - 1)) / 4) 0) ^ 2))] := by
  set H := 2 * Real.sin (0.5 * Real.pi * (t - 1)) with hH
  have hG : H / 4 ≤ 1 := by have := Real.sin_le_one (0.5 * Real.pi * (t - 1)); rw [hH]; linarith
  set k := min 7 (n - 6) with hk
  set E := (2:ℝ) ^ (H + (k : ℝ) * (min (H / 4) 0) ^ 2) with hE
  have hEp : 0 < E := by positivity
  refine front_of_curve (Cube n 0 1) (fun x => gtaFda2 x t) Unit01 (fun u => 1 - u ^ E) ?_ ?_ ?_ ?_ f
  · intro x hx
    obtain ⟨u, l, rfl, hu, -, -⟩ := gta_cons hn hx
    simpa [gtaFda2] using hu
  · intro x hx
    obtain ⟨u, l, rfl, hu, hl, hb⟩ := gta_cons hn hx
    have hlen : ((l.drop 5).take 7).length = k := by simp [hl, hk]; omega
    have h := gta_near_sum hG ((l.drop 5).take 7) fun v hv => hb v (List.mem_of_mem_drop (List.mem_of_mem_take hv))
    rw [hlen] at h
    have hg : 0 ≤ ((l.take 5).map fun v => v ^ 2).sum := by
      have := gta_sq_nonneg (l.take 5) 0
      simpa using this
    have := gta_scaled (u := u) (a := 1) (g := 1 + ((l.take 5).map fun v => v ^ 2).sum) (p := E) (q := (2:ℝ) ^ (H + (((l.drop 5).take 7).map fun v => (v - H / 4) ^ 2).sum)) hu.1 hu.2 one_pos
      (by linarith) hEp (Real.rpow_le_rpow_of_exponent_le (by norm_num) (by linarith))
    rw [one_mul, div_one] at this
    simpa [gtaFda2, gtaH2, ← hH] using this
  · intro u hu
    refine ⟨u :: (List.replicate (min 5 (n - 1)) 0 ++ (List.replicate k (max (H / 4) 0) ++ List.replicate (n - 1 - min 5 (n - 1) - k) 0)), ⟨by simp [hk]; omega, ?_⟩, ?_⟩
    · intro v hv
      simp only [List.mem_cons, List.mem_append, List.mem_replicate] at hv
      rcases hv with rfl | ⟨-, rfl⟩ | ⟨-, rfl⟩ | ⟨-, rfl⟩
      · exact hu
      · norm_num
      · exact (gta_near hG).2.1
      · norm_num
    · set R := List.replicate (n - 1 - min 5 (n - 1) - k) (0 : ℝ) with hR
      have e1 : (List.replicate (min 5 (n - 1)) (0:ℝ) ++ (List.replicate k (max (H / 4) 0) ++ R)).take 5 = List.replicate (min 5 (n - 1)) 0 := by
        rcases le_or_gt 5 (n - 1) with h | h
        · rw [min_eq_left h]; exact List.take_left' (by simp)
        · have : k = 0 := by rw [hk]; omega
          have hR' : R = [] := by rw [hR, this, min_eq_right (by omega)]; simp
          rw [this, hR']
          simp
      have e2 : ((List.replicate (min 5 (n - 1)) (0:ℝ) ++ (List.replicate k (max (H / 4) 0) ++ R)).drop 5).take 7 = List.replicate k (max (H / 4) 0) := by
        rcases le_or_gt 5 (n - 1) with h | h
        · rw [min_eq_left h, List.drop_left' (by simp)]
          rcases le_or_gt 7 (n - 6) with h7 | h7
          · have : k = 7 := by rw [hk]; omega
            rw [this]; exact List.take_left' (by simp)
          · have : k = n - 6 := by rw [hk]; omega
            have hR' : R = [] := by rw [hR, this, min_eq_left h]; simp; omega
            rw [hR', List.append_nil, List.take_of_length_le (by simp [this]; omega)]
        · have : k = 0 := by rw [hk]; omega
          have hR' : R = [] := by rw [hR, this, min_eq_right (by omega)]; simp
          rw [this, hR']
          simp
      simp only [gtaFda2, List.drop_succ_cons, List.drop_zero, List.headD_cons, gtaH2, ← hH]
      rw [e1, e2, gta_near_opt hG]
      simp [hE]
  · intro s t' hs ht h
    have := gta_decreasing (a := 1) one_pos hEp hs.1 h
    simpa using this

/-! ### DIMP2 -/

theorem gta_dimp_term (d : ℝ) : d ^ 2 ≤ 2 + (d ^ 2 - 2 * Real.cos (3 * Real.pi * d)) := by
  have := Real.cos_le_one (3 * Real.pi * d)
  linarith

theorem gta_dimp_g (n : ℕ) (d : ℕ → ℝ) : ((List.range n).map fun j => d j ^ 2).sum ≤ 2 * (n : ℝ) + ((List.range n).map fun j => d j ^ 2 - 2 * Real.cos (3 * Real.pi * d j)).sum := by
  induction n with
  | zero => simp
  | succ n ih =>
    rw [List.range_succ, List.map_append, List.map_append, List.sum_append, List.sum_append]
    have := gta_dimp_term (d n)
    simp only [List.map_cons, List.map_nil, List.sum_cons, List.sum_nil]
    push_cast
    linarith

theorem gta_sqrt_scaled {u g : ℝ} (hu : 0 ≤ u) (hu1 : u ≤ 1) (hg : 1 ≤ g) : (1 - √u ≤ g * (1 - √(u / g))) ∧ (1 < g → u < 1 → 1 - √u < g * (1 - √(u / g))) ∧ (1 < g → 1 - √u < g * (1 - √(u / g))) := by
  have hs : √(u / g) ≤ √u := Real.sqrt_le_sqrt (div_le_self hu hg)
  have hs1 : √u ≤ 1 := by rw [Real.sqrt_le_one]; exact hu1
  have hlt : 1 < g → √(u / g) < 1 := by
    intro h
    rw [Real.sqrt_lt' one_pos]
    rw [div_lt_iff₀ (by linarith)]; linarith
  have third : 1 < g → 1 - √u < g * (1 - √(u / g)) := fun h => by nlinarith [mul_pos (show 0 < g - 1 by linarith) (show 0 < 1 - √(u / g) by linarith [hlt h])]
  refine ⟨?_, fun h _ => third h, third⟩
  nlinarith [mul_nonneg (show 0 ≤ g - 1 by linarith) (show 0 ≤ 1 - √(u / g) by linarith)]

theorem gta_dimp_form {n : ℕ} (hn : 1 ≤ n) (t : ℝ) {x : List ℝ} (hx : Cube n 0 1 x) :
    ∃ g, gtaDimp2 x t = ![x.headD 0, g * (1 - √(x.headD 0 / g))] ∧ 1 + ((List.range (n - 1)).map fun j => (x.getD (j + 1) 0 - gtaDimpG n (j + 1) t) ^ 2).sum ≤ g := by
  refine ⟨_, rfl, ?_⟩
  have := gta_dimp_g (n - 1) fun j => x.getD (j + 1) 0 - gtaDimpG n (j + 1) t
  simp only [List.length_drop, hx.1]
  linarith

/-- DIMP2: every solution is on or above the curve `f2 = 1 - √f1` that is documented as the front; if the optimal values of all other variables are in their range the curve is exactly the
Pareto front, and if one of them is negative no solution at all reaches it. -/
theorem C145_dimp2 (n : ℕ) (hn : 1 ≤ n) (t : ℝ) :
    (∀ x, Cube n 0 1 x → 1 - √(gtaDimp2 x t 0) ≤ gtaDimp2 x t 1) ∧
    ((∀ k, 1 ≤ k → k < n → 0 ≤ gtaDimpG n k t) → ∀ f, ParetoPoint (Cube n 0 1) (fun x => gtaDimp2 x t) f ↔ ∃ u, (0 ≤ u ∧ u ≤ 1) ∧ f = ![u, 1 - √u]) ∧
    ((∃ k, 1 ≤ k ∧ k < n ∧ gtaDimpG n k t < 0) → ∀ x, Cube n 0 1 x → 1 - √(gtaDimp2 x t 0) < gtaDimp2 x t 1) := by
  have hsum : ∀ x : List ℝ, 0 ≤ ((List.range (n - 1)).map fun j => (x.getD (j + 1) 0 - gtaDimpG n (j + 1) t) ^ 2).sum := by
    intro x
    apply List.sum_nonneg
    intro v hv
    obtain ⟨w, -, rfl⟩ := List.mem_map.1 hv
    positivity
  have first : ∀ x, Cube n 0 1 x → 1 - √(gtaDimp2 x t 0) ≤ gtaDimp2 x t 1 := by
    intro x hx
    obtain ⟨g, e, hg⟩ := gta_dimp_form hn t hx
    have hh : Unit01 (x.headD 0) := by
      obtain ⟨u, l, rfl, hu, -, -⟩ := gta_cons hn hx
      exact hu
    rw [e]
    simpa using (gta_sqrt_scaled hh.1 hh.2 (by linarith [hsum x])).1
  refine ⟨first, fun hG => ?_, ?_⟩
  · refine front_of_curve (Cube n 0 1) (fun x => gtaDimp2 x t) Unit01 (fun u => 1 - √u) ?_ first ?_ ?_
    · intro x hx
      obtain ⟨u, l, rfl, hu, -, -⟩ := gta_cons hn hx
      simpa [gtaDimp2] using hu
    · intro u hu
      refine ⟨u :: (List.range (n - 1)).map fun j => gtaDimpG n (j + 1) t, ⟨by simp; omega, ?_⟩, ?_⟩
      · intro v hv
        rcases List.mem_cons.1 hv with rfl | hv
        · exact hu
        · obtain ⟨j, hj, rfl⟩ := List.mem_map.1 hv
          exact ⟨hG _ (by omega) (by have := List.mem_range.1 hj; omega), Real.sin_le_one _⟩
      · have e : ((List.range (n - 1)).map fun j =>
            ((u :: (List.range (n - 1)).map fun j => gtaDimpG n (j + 1) t).getD (j + 1) 0 - gtaDimpG n (j + 1) t) ^ 2 -
              2 * Real.cos (3 * Real.pi * ((u :: (List.range (n - 1)).map fun j => gtaDimpG n (j + 1) t).getD (j + 1) 0 - gtaDimpG n (j + 1) t))) =
            (List.range (n - 1)).map fun j => (-2 : ℝ) := by
          apply List.map_congr_left
          intro j hj
          have hj' := List.mem_range.1 hj
          have : (u :: (List.range (n - 1)).map fun j => gtaDimpG n (j + 1) t).getD (j + 1) 0 = gtaDimpG n (j + 1) t := by
            simp [List.getD, hj']
          rw [this]; simp
        have hlen : (u :: (List.range (n - 1)).map fun j => gtaDimpG n (j + 1) t).length = n := by simp; omega
        simp only [gtaDimp2, hlen]
        rw [e]
        simp
        have : 1 + 2 * ((n - 1 : ℕ) : ℝ) + -(((n - 1 : ℕ) : ℝ) * 2) = 1 := by ring
        rw [this]
        simp
    · intro s t' hs ht h
      have := Real.sqrt_lt_sqrt hs.1 h
      linarith
  · rintro ⟨k, hk1, hkn, hneg⟩ x hx
    obtain ⟨g, e, hg⟩ := gta_dimp_form hn t hx
    have hh : Unit01 (x.headD 0) := by
      obtain ⟨u, l, rfl, hu, -, -⟩ := gta_cons hn hx
      exact hu
    have hpos : 0 < ((List.range (n - 1)).map fun j => (x.getD (j + 1) 0 - gtaDimpG n (j + 1) t) ^ 2).sum := by
      have hx0 : 0 ≤ x.getD k 0 := by
        have hlt : k < x.length := by rw [hx.1]; exact hkn
        rw [List.getD_eq_getElem _ _ hlt]
        exact (hx.2 _ (List.getElem_mem hlt)).1
      have hmem : (x.getD k 0 - gtaDimpG n k t) ^ 2 ∈ (List.range (n - 1)).map fun j => (x.getD (j + 1) 0 - gtaDimpG n (j + 1) t) ^ 2 :=
        List.mem_map.2 ⟨k - 1, List.mem_range.2 (by omega), by rw [show k - 1 + 1 = k by omega]⟩
      have h1 := List.single_le_sum (fun v hv => by obtain ⟨w, -, rfl⟩ := List.mem_map.1 hv; positivity) _ hmem
      have h2 : 0 < (x.getD k 0 - gtaDimpG n k t) ^ 2 := by
        apply pow_pos; linarith
      linarith
    rw [e]
    simpa using (gta_sqrt_scaled hh.1 hh.2 (by linarith)).2.2 (by linarith)

/-- With the default 30 variables the documented front is unreachable at the very first time. -/
theorem C145_dimp2_start_refuted : ∀ x, Cube 30 0 1 x → 1 - √(gtaDimp2 x 0 0) < gtaDimp2 x 0 1 := by
  refine (C145_dimp2 30 (by norm_num) 0).2.2 ⟨8, by norm_num, by norm_num, ?_⟩
  unfold gtaDimpG
  have h1 := Real.pi_gt_d2
  have h2 := Real.pi_lt_d2
  have e : (0.5 * Real.pi * 0 + 2 * Real.pi * (((8 : ℕ) : ℝ) + 1) / (((30 : ℕ) : ℝ) + 1)) ^ 2 = 324 / 961 * Real.pi * Real.pi := by
    push_cast; ring
  rw [e]
  have a : Real.pi < 324 / 961 * Real.pi * Real.pi := by nlinarith
  have b : 324 / 961 * Real.pi * Real.pi < 2 * Real.pi := by nlinarith
  rw [← Real.sin_sub_two_pi]
  exact Real.sin_neg_of_neg_of_neg_pi_lt (by linarith) (by linarith)

/-! ### HE2 -/

theorem gta_he2_low {u g H s : ℝ} (hu : 0 ≤ u) (hu1 : u ≤ 1) (hg : 1 ≤ g) (hH1 : 1 ≤ H) (hH2 : H ≤ 2) (hs : |s| ≤ 1) :
    1 - √u ^ H - u ^ H * s ≤ g * (1 - √(u / g) ^ H - (u / g) ^ H * s) := by
  have hgp : 0 < g := by linarith
  have e1 : g * √(u / g) ^ H = √u ^ H * g ^ (1 - H / 2) := by
    rw [Real.sqrt_div' _ hgp.le, Real.div_rpow (Real.sqrt_nonneg _) (Real.sqrt_nonneg _), Real.sqrt_eq_rpow g, ← Real.rpow_mul hgp.le, Real.rpow_sub hgp, Real.rpow_one]
    rw [show (1 / 2 : ℝ) * H = H / 2 by ring]
    ring
  have e2 : g * ((u / g) ^ H * s) = u ^ H * s * g ^ (1 - H) := by
    rw [Real.div_rpow hu hgp.le, Real.rpow_sub hgp, Real.rpow_one]; ring
  have hA : 0 ≤ √u ^ H ∧ √u ^ H ≤ 1 := ⟨Real.rpow_nonneg (Real.sqrt_nonneg _) _, Real.rpow_le_one (Real.sqrt_nonneg _) (by rw [Real.sqrt_le_one]; exact hu1) (by linarith)⟩
  have hB : 0 ≤ u ^ H ∧ u ^ H ≤ 1 := ⟨Real.rpow_nonneg hu _, Real.rpow_le_one hu hu1 (by linarith)⟩
  have b1 : g ^ (1 - H / 2) ≤ 1 + (1 - H / 2) * (g - 1) := by
    have := rpow_one_add_le_one_add_mul_self (s := g - 1) (p := 1 - H / 2) (by linarith) (by linarith) (by linarith)
    rwa [show 1 + (g - 1) = g by ring] at this
  have b1' : 1 ≤ g ^ (1 - H / 2) := Real.one_le_rpow hg (by linarith)
  have b2 : g ^ (1 - H) ≤ 1 := Real.rpow_le_one_of_one_le_of_nonpos hg (by linarith)
  have b3 : 1 - g ^ (1 - H) ≤ (H - 1) * (g - 1) := by
    have h1 := rpow_one_add_le_one_add_mul_self (s := g - 1) (p := H - 1) (by linarith) (by linarith) (by linarith)
    rw [show 1 + (g - 1) = g by ring] at h1
    have h2 : 1 ≤ g ^ (H - 1) := Real.one_le_rpow hg (by linarith)
    have h3 : g ^ (1 - H) * g ^ (H - 1) = 1 := by rw [← Real.rpow_add hgp]; simp
    have h4 : 0 < g ^ (1 - H) := Real.rpow_pos_of_pos hgp _
    nlinarith
  have hsB : |u ^ H * s| ≤ 1 := by
    rw [abs_mul, abs_of_nonneg hB.1]
    nlinarith [abs_nonneg s]
  have hlo := neg_le_of_abs_le hsB
  rw [mul_sub, mul_sub, mul_one, e1, e2]
  generalize √u ^ H = A at *
  generalize u ^ H * s = B at *
  generalize g ^ (1 - H / 2) = P at *
  generalize g ^ (1 - H) = Q at *
  have k1 : A * (P - 1) ≤ (1 - H / 2) * (g - 1) := by
    have : A * (P - 1) ≤ 1 * (P - 1) := mul_le_mul_of_nonneg_right hA.2 (by linarith)
    linarith
  have k2 : -B * (1 - Q) ≤ (H - 1) * (g - 1) := by
    have : -B * (1 - Q) ≤ 1 * (1 - Q) := mul_le_mul_of_nonneg_right (by linarith) (by linarith)
    linarith
  nlinarith [mul_nonneg (show 0 ≤ 2 - H by linarith) (show 0 ≤ g - 1 by linarith)]

/-- HE2, while the exponent `H` is at least one: the Pareto front is the part of the curve `f2 = 1 - √f1 ^ H - f1 ^ H sin (10 π f1)` that is lower than everything to its left. -/
theorem C145_he2 (n : ℕ) (hn : 1 ≤ n) (t : ℝ) (hH : 1 ≤ 0.75 * Real.sin (0.5 * Real.pi * t) + 1.25) (f : Fin 2 → ℝ) :
    let curve := fun u : ℝ => 1 - √u ^ (0.75 * Real.sin (0.5 * Real.pi * t) + 1.25) - u ^ (0.75 * Real.sin (0.5 * Real.pi * t) + 1.25) * Real.sin (10 * Real.pi * u)
    ParetoPoint (Cube n 0 1) (fun x => gtaHe2 x t) f ↔ ∃ u, (0 ≤ u ∧ u ≤ 1) ∧ f = ![u, curve u] ∧ ∀ s, 0 ≤ s ∧ s ≤ 1 → s < u → curve u < curve s := by
  intro curve
  have hH2 := (gtaH_bounds t).2
  unfold gtaH at hH2
  refine front_of_graph (Cube n 0 1) (fun x => gtaHe2 x t) Unit01 curve ?_ ?_ ?_ f
  · intro x hx
    obtain ⟨u, l, rfl, hu, -, -⟩ := gta_cons hn hx
    simpa [gtaHe2] using hu
  · intro x hx
    obtain ⟨u, l, rfl, hu, hl, hb⟩ := gta_cons hn hx
    have hs : 0 ≤ l.sum := List.sum_nonneg fun v hv => (hb v hv).1
    exact gta_he2_low (u := u) (g := 1 + 9 / (30 - 1) * l.sum) hu.1 hu.2 (by norm_num; linarith) hH hH2 (Real.abs_sin_le_one _)
  · intro u hu
    refine ⟨u :: List.replicate (n - 1) 0, ⟨by simp; omega, ?_⟩, ?_⟩
    · intro v hv
      rcases List.mem_cons.1 hv with rfl | hv
      · exact hu
      · rw [List.eq_of_mem_replicate hv]; norm_num
    · simp [gtaHe2, gtaH, curve]

/-! ### The problem classes -/

/-- The classes of cec2015.py: every solution gets the values of the function at the time of the problem, whatever the other solutions are. `dMOP3` raises for every non-empty input. -/
theorem C146_rows {m : ℕ} {Fr : Type*} (fn : List ℝ → ℝ → Fin m → ℝ) (nt taut : ℕ) (s : DynState Fr) (X : List (List ℝ)) :
    (cecEvaluate fn nt taut s X).length = X.length ∧ ∀ (i : ℕ) x, X[i]? = some x → (cecEvaluate fn nt taut s X)[i]? = some (fn x (dynTime nt taut s : ℚ)) := by
  refine ⟨by simp [cecEvaluate], fun i x h => by simp [cecEvaluate, h]⟩

theorem C146_dmop3_refuted {A : Type} (v : List ℝ → A) (X : List (List ℝ)) (hX : X ≠ []) : cecDmop3 v X = none := by
  cases X with
  | nil => exact absurd rfl hX
  | cons x l => simp [cecDmop3, pyCall, List.mapM_cons]

theorem heLoop_none {body : ℕ → NpVal → NpVal → Option NpVal} (first : ℕ) (rows : List NpVal) (hb : ∀ k v x, v ∈ rows → body k v x = none) : heLoop body first rows = none := by
  unfold heLoop
  cases rows with
  | nil => rfl
  | cons r l =>
    simp only [List.head?_cons, Option.bind_eq_bind, Option.bind_some]
    generalize (List.range (r :: l).length).filter (fun k => first ≤ k ∧ (k - first) % 2 = 0) = ks
    cases ks with
    | nil => simp
    | cons k ks =>
      rw [List.mapM_cons]
      have : ((r :: l)[k]?.bind fun x => body k r x) = none := by
        cases (r :: l)[k]? with
        | none => rfl
        | some x => exact hb k r x (by simp)
      simp [this]

/-- The classes `FDA2_deb`, `DIMP2b`, `HE2b`, `HE7b` and `HE9b` of misc.py cannot be evaluated at all: every evaluation raises, for every time and every set of solutions with more than one variable. -/
theorem C146_misc_refuted {A : Type} (k : MiscKind) (nt taut nvar : ℕ) (hn : 2 ≤ nvar) (now : ℝ) (rest : ℝ → Option NpVal → A) (X : List (List ℝ)) (hX : ∀ x ∈ X, x.length = nvar) :
    miscEvaluate k nt taut now rest X = none := by
  have harr : ∀ v ∈ X.map NpVal.arr, ∃ a b l, v = NpVal.arr (a :: b :: l) := by
    intro v hv
    obtain ⟨x, hx, rfl⟩ := List.mem_map.1 hv
    have := hX x hx
    match x, this with
    | [], h => simp at h; omega
    | [a], h => simp at h; omega
    | a :: b :: l, _ => exact ⟨a, b, l, rfl⟩
  cases k with
  | fda2 => rfl
  | dimp2 => rfl
  | he2 => rfl
  | he7 =>
    have := heLoop_none (body := he7Body Real.cos X.length) 2 (X.map NpVal.arr) fun k v x hv => by
      obtain ⟨a, b, l, rfl⟩ := harr v hv
      simp [he7Body, npMap, mathFn]
    simp [miscEvaluate, MiscKind.time, TimeAttr.call, this]
  | he9 =>
    have := heLoop_none (body := he9Body X.length) 2 (X.map NpVal.arr) fun k v x hv => by
      obtain ⟨a, b, l, rfl⟩ := harr v hv
      simp [he9Body, npMap, mathFn]
    simp [miscEvaluate, MiscKind.time, TimeAttr.call, this]

/-- `DMOP2` of misc.py raises unless there are as many solutions as variables, -/
theorem C146_misc_dmop2_shape_refuted (nvar : ℕ) (t : ℝ) (X : List (List ℝ)) (h : X.length ≠ nvar) : miscDmop2 nvar t X = none := by
  cases X with
  | nil => rfl
  | cons x l => simp only [miscDmop2]; rw [if_neg (fun e => h e.symm)]

/-- and then the objectives of a solution change with the other solutions: the last row alone decides nothing. -/
theorem C146_misc_dmop2_mixed_refuted : ∃ X X' : List (List ℝ), X.length = 10 ∧ X'.length = 10 ∧ (∀ x ∈ X, x.length = 10) ∧ (∀ x ∈ X', x.length = 10) ∧ X[9]? = X'[9]? ∧
    ∃ f f', (miscDmop2 10 0 X).bind (·[9]?) = some f ∧ (miscDmop2 10 0 X').bind (·[9]?) = some f' ∧ f ≠ f' := by
  refine ⟨List.replicate 10 (List.replicate 10 0), List.replicate 10 1 |>.map (fun _ => List.replicate 10 1) |>.take 9 |>.append [List.replicate 10 0], by simp, by simp, ?_, ?_, ?_, ?_⟩
  · intro x hx; rw [List.eq_of_mem_replicate hx]; simp
  · intro x hx
    simp only [List.append_eq, List.mem_append, List.mem_singleton] at hx
    rcases hx with hx | rfl
    · have := List.mem_of_mem_take hx
      obtain ⟨w, -, rfl⟩ := List.mem_map.1 this
      simp
    · simp
  · simp [List.replicate]
  · refine ⟨_, _, rfl, rfl, ?_⟩
    intro e
    have := congrFun e 0
    simp [List.getD, List.replicate] at this

/-- `DMOP2.pareto_front` of misc.py raises: nothing ever sets `t`. -/
theorem C146_misc_dmop2_front_refuted (n : ℕ) : miscDmop2Front none n = none := rfl

/-- If the user sets the attribute `t`, the front returned has `n` points, all of them Pareto-optimal for the function `dMOP2` at this time as long as `sin (π t / 2)` is not negative; it has both ends of the front. -/
theorem C146_misc_dmop2_front (t : ℝ) (n : ℕ) : ∃ P, miscDmop2Front (some t) n = some P ∧ P.length = n ∧
    (0 ≤ Real.sin (0.5 * Real.pi * t) → ∀ nvar, 1 ≤ nvar → ∀ f ∈ P, ParetoPoint (Cube nvar 0 1) (fun x => gtaDmop2 x t) f) ∧
    (2 ≤ n → ![0, 1] ∈ P ∧ ![1, 0] ∈ P) := by
  refine ⟨_, rfl, by simp [linspace], ?_, ?_⟩
  · intro h nvar hv f hf
    rw [C145_dmop2 nvar hv]
    obtain ⟨x, hx, rfl⟩ := List.mem_map.1 hf
    refine ⟨x, linspace_mem zero_le_one hx, ?_⟩
    rw [min_eq_right h]
    simp only [gtaH, ne_eq, OfNat.ofNat_ne_zero, not_false_eq_true, zero_pow, mul_zero, add_zero, div_one, one_mul]
  · intro hn
    have hH : gtaH t ≠ 0 := by
      have := (gtaH_bounds t).1
      norm_num at this
      intro e; rw [e] at this; linarith
    have hn' : (2:ℝ) ≤ n := by exact_mod_cast hn
    have hne : (n : ℝ) - 1 ≠ 0 := by linarith
    refine ⟨List.mem_map.2 ⟨0, List.mem_map.2 ⟨0, List.mem_range.2 (by omega), by simp⟩, by simp [Real.zero_rpow hH]⟩,
      List.mem_map.2 ⟨1, List.mem_map.2 ⟨n - 1, List.mem_range.2 (by omega), ?_⟩, by simp⟩⟩
    rw [Nat.cast_sub (by omega), Nat.cast_one]
    field_simp
    ring

theorem gta_mapM_some {α β : Type} (f : α → Option β) (g : α → β) : ∀ l : List α, (∀ a ∈ l, f a = some (g a)) → l.mapM f = some (l.map g)
  | [], _ => rfl
  | a :: l, h => by
    rw [List.mapM_cons, h a (by simp), gta_mapM_some f g l fun b hb => h b (by simp [hb])]; rfl

theorem gta_fold_arr : ∀ (l : List ℝ) (s : ℝ), (l.map fun v => NpVal.arr [v]).foldlM (npBin (· + ·)) (.arr [s]) = some (.arr [s + l.sum])
  | [], s => by simp
  | v :: l, s => by
    rw [List.map_cons, List.foldlM_cons]
    simp only [npBin, List.length_cons, List.length_nil, if_true, List.zipWith_cons_cons, List.zipWith_nil_left, Option.bind_eq_bind, Option.bind_some]
    rw [gta_fold_arr l (s + v), List.sum_cons, add_assoc]

/-- The indices of the loops of `HE7` and `HE9`: every second one from `first` on. -/
def heIndices (first n : ℕ) : List ℕ := (List.range n).filter fun k => first ≤ k ∧ (k - first) % 2 = 0

theorem heLoop_column (first : ℕ) (body : ℕ → NpVal → NpVal → Option NpVal) (term : ℕ → ℝ → ℝ → ℝ)
    (hb : ∀ k v x, body k (.arr [v]) (.arr [x]) = some (.arr [term k v x])) (x0 : ℝ) (l : List ℝ) (hf : first < (x0 :: l).length) :
    heLoop body first ((x0 :: l).map fun v => NpVal.arr [v]) =
      some (.arr [((heIndices first (x0 :: l).length).map fun k => term k x0 ((x0 :: l).getD k 0)).sum * (2 / (heIndices first (x0 :: l).length).length)]) := by
  have hk : first ∈ heIndices first (x0 :: l).length := by simp [heIndices] at hf ⊢; omega
  have hlt : ∀ k ∈ heIndices first (x0 :: l).length, k < (x0 :: l).length := fun k h => by
    have := (List.mem_filter.1 h).1
    simpa using this
  unfold heLoop
  rw [List.length_map]
  change (do
    let value ← ((x0 :: l).map fun v => NpVal.arr [v]).head?
    let terms ← (heIndices first (x0 :: l).length).mapM fun k => do
      let x ← ((x0 :: l).map fun v => NpVal.arr [v])[k]?
      body k value x
    let sum ← terms.foldlM (npBin (· + ·)) (.num 0)
    if heIndices first (x0 :: l).length = [] then none else pure (npMap (fun v => v * (2 / (heIndices first (x0 :: l).length).length)) sum)) = _
  generalize heIndices first (x0 :: l).length = ks at hk hlt ⊢
  rw [List.map_cons, List.head?_cons]
  simp only [Option.bind_eq_bind, Option.bind_some]
  rw [gta_mapM_some _ (fun k => NpVal.arr [term k x0 ((x0 :: l).getD k 0)]) ks fun k h => by
    have h := hlt k h
    rw [← List.map_cons (f := fun v => NpVal.arr [v]), List.getElem?_map, List.getElem?_eq_getElem h, Option.map_some, Option.bind_some, hb,
      List.getD_eq_getElem _ _ h]]
  rw [Option.bind_some]
  cases ks with
  | nil => simp at hk
  | cons k ks =>
    rw [List.map_cons, List.foldlM_cons]
    simp only [npBin, List.map_cons, List.map_nil, zero_add, Option.bind_eq_bind, Option.bind_some]
    have := gta_fold_arr (ks.map fun k => term k x0 ((x0 :: l).getD k 0)) (term k x0 ((x0 :: l).getD k 0))
    rw [List.map_map] at this
    rw [show (ks.map fun k => NpVal.arr [term k x0 ((x0 :: l).getD k 0)]) = ks.map ((fun v => NpVal.arr [v]) ∘ fun k => term k x0 ((x0 :: l).getD k 0)) from rfl, this]
    simp [npMap]

/-- With a single variable, `HE7b` and `HE9b` do not raise for three or more solutions, but what they compute mixes the solutions: the sum of the paper runs over the solutions `2, 4, …` instead of over the variables,
and the value of the first solution takes the place of the first variable. -/
theorem C146_misc_column_refuted {A : Type} (nt taut : ℕ) (now : ℝ) (rest : ℝ → Option NpVal → A) (x0 : ℝ) (l : List ℝ) (h : 2 ≤ l.length) :
    miscEvaluate .he9 nt taut now rest ((x0 :: l).map fun v => [v]) = some (rest (1 / (nt : ℝ) * ((1 / taut : ℕ) : ℝ)) (some (.arr
      [((heIndices 2 (l.length + 1)).map fun k => ((x0 :: l).getD k 0 - Real.sin (6 * Real.pi * x0 + k * Real.pi / (l.length + 1 : ℕ))) ^ 2).sum * (2 / (heIndices 2 (l.length + 1)).length)]))) ∧
    miscEvaluate .he7 nt taut now rest ((x0 :: l).map fun v => [v]) = some (rest (1 / (nt : ℝ) * ((1 / taut : ℕ) : ℝ)) (some (.arr
      [((heIndices 2 (l.length + 1)).map fun k => ((x0 :: l).getD k 0 -
          (0.3 * x0 ^ 2 * Real.cos (24 * Real.pi * x0 + 4 * k * Real.pi / (l.length + 1 : ℕ)) + 0.6 * x0) * Real.cos (6 * Real.pi * x0 + k * Real.pi / (l.length + 1 : ℕ))) ^ 2).sum *
        (2 / (heIndices 2 (l.length + 1)).length)]))) := by
  have hrows : (((x0 :: l).map fun v => [v]).map NpVal.arr) = (x0 :: l).map fun v => NpVal.arr [v] := by rw [List.map_map]; rfl
  have hlen : ((x0 :: l).map fun v => [v]).length = l.length + 1 := by simp
  have h9 := heLoop_column 2 (he9Body (l.length + 1)) (fun k v x => (x - Real.sin (6 * Real.pi * v + k * Real.pi / (l.length + 1 : ℕ))) ^ 2) (fun k v x => by
    simp [he9Body, npMap, mathFn, npBin]) x0 l (by simp; omega)
  have h7 := heLoop_column 2 (he7Body Real.cos (l.length + 1)) (fun k v x => (x - (0.3 * v ^ 2 * Real.cos (24 * Real.pi * v + 4 * k * Real.pi / (l.length + 1 : ℕ)) + 0.6 * v) *
      Real.cos (6 * Real.pi * v + k * Real.pi / (l.length + 1 : ℕ))) ^ 2) (fun k v x => by
    simp only [he7Body, npMap, mathFn, npBin, List.map_cons, List.map_nil, Option.bind_eq_bind, Option.bind_some, Option.pure_def, List.length_cons, List.length_nil, if_true, List.zipWith_cons_cons, List.zipWith_nil_left]
    rw [show 4 * (6 * Real.pi * v + k * Real.pi / (l.length + 1 : ℕ)) = 24 * Real.pi * v + 4 * k * Real.pi / (l.length + 1 : ℕ) by ring, show (0.3 : ℝ) * v * v = 0.3 * v ^ 2 by ring]) x0 l (by simp; omega)
  rw [List.length_cons] at h9 h7
  constructor
  · simp only [miscEvaluate, MiscKind.time, TimeAttr.call, Option.bind_eq_bind, Option.bind_some, Option.pure_def, hrows, hlen, h9]
  · simp only [miscEvaluate, MiscKind.time, TimeAttr.call, Option.bind_eq_bind, Option.bind_some, Option.pure_def, hrows, hlen, h7]

/-! ### The hypotheses can be met -/

/-- The first hypothesis of the second part of `C145_dimp2`, for two variables. -/
example : ∃ t, ∀ k, 1 ≤ k → k < 2 → 0 ≤ gtaDimpG 2 k t := by
  refine ⟨-8 / 3, fun k h1 h2 => ?_⟩
  have : k = 1 := by omega
  subst this
  have : (0.5 * Real.pi * (-8 / 3) + 2 * Real.pi * (((1 : ℕ) : ℝ) + 1) / (((2 : ℕ) : ℝ) + 1)) = 0 := by push_cast; ring
  unfold gtaDimpG
  rw [this]
  simp

/-- `H ≥ 1` at the start. -/
example : 1 ≤ 0.75 * Real.sin (0.5 * Real.pi * 0) + 1.25 := by norm_num

/-- FDA4: a point of the front. -/
example : ParetoPoint (Cube 30 0 1) (fun x => gtaFda4 x 0.1) ![1, 0, 0] := by
  rw [C145_fda4 30 (by norm_num)]
  refine ⟨fun i => ?_, ?_⟩
  · fin_cases i <;> simp
  · simp

end Props
