import Verif.Model.ZDT
import Verif.Spec.TestProblem
import Verif.Lemmas.Taylor
import Mathlib.Analysis.Real.Pi.Bounds
import Mathlib.Analysis.Complex.ExponentialBounds
import Mathlib.Topology.Order.IntermediateValue
import Mathlib.Tactic.NormNum
import Mathlib.Tactic.Ring
import Mathlib.Tactic.FieldSimp
import Mathlib.Tactic.Positivity
import Mathlib.Tactic.FinCases
import Mathlib.Algebra.Order.BigOperators.Group.List

/-!
# C81: the Pareto fronts of the ZDT problems

For ZDT1, 2, 4, 5 and 6 every returned point is Pareto-optimal for every number of variables and of points, and the curve that is
sampled is exactly the set of all Pareto-optimal points. For ZDT3 the curve is reduced to its record minima.
-/

set_option linter.unusedSimpArgs false
set_option linter.unusedVariables false

namespace Props
open Model Spec Lemmas

/-- Values of `np.linspace` lie between the ends. -/
theorem linspace_mem {a b : ℝ} (h : a ≤ b) {n : ℕ} {t : ℝ} (ht : t ∈ linspace a b n) : a ≤ t ∧ t ≤ b := by
  obtain ⟨i, hi, rfl⟩ := List.mem_map.1 ht
  rw [List.mem_range] at hi
  have hn : (1:ℝ) ≤ n := by exact_mod_cast (by omega : 1 ≤ n)
  have hi' : (i:ℝ) ≤ (n:ℝ) - 1 := by
    have : ((i + 1 : ℕ) : ℝ) ≤ n := by exact_mod_cast hi
    push_cast at this; linarith
  have hi0 : (0:ℝ) ≤ i := by positivity
  rcases eq_or_lt_of_le hn with h1 | h1
  · rw [← h1]; simp; exact h
  · have hpos : (0:ℝ) < (n:ℝ) - 1 := by linarith
    constructor
    · have : 0 ≤ (i:ℝ) * ((b - a) / ((n:ℝ) - 1)) := mul_nonneg hi0 (div_nonneg (by linarith) hpos.le)
      linarith
    · have : (i:ℝ) * ((b - a) / ((n:ℝ) - 1)) ≤ b - a := by
        rw [← mul_div_assoc, div_le_iff₀ hpos]
        nlinarith
      linarith

/-- C81. A sample consists of as many points as asked for, evenly spaced, from the one end to the other. -/
theorem C81_linspace (a b : ℝ) (n : ℕ) :
    (linspace a b n).length = n ∧
    (∀ h : 0 < n, (linspace a b n)[0]'(by simpa [linspace] using h) = a) ∧
    (∀ h : 1 < n, (linspace a b n)[n - 1]'(by simp [linspace]; omega) = b) ∧
    ∀ i (h : i + 2 < n), (linspace a b n)[i + 1]'(by simp [linspace]; omega) - (linspace a b n)[i]'(by simp [linspace]; omega) =
      (linspace a b n)[i + 2]'(by simpa [linspace] using h) - (linspace a b n)[i + 1]'(by simp [linspace]; omega) := by
  refine ⟨by simp [linspace], fun h => by simp [linspace], fun h => ?_, fun i h => ?_⟩
  · have hn : ((n - 1 : ℕ) : ℝ) = (n:ℝ) - 1 := by rw [Nat.cast_sub h.le]; simp
    have : (n:ℝ) - 1 ≠ 0 := by
      have : (1:ℝ) < n := by exact_mod_cast h
      linarith
    simp only [linspace, List.getElem_map, List.getElem_range, hn]
    field_simp
    ring
  · simp only [linspace, List.getElem_map, List.getElem_range]
    push_cast
    ring

/-- Two objectives, every attained vector lies above the graph of `h` over `T`, and the whole graph is attained: the Pareto-optimal
points are the points of the graph that are lower than everything to their left. -/
theorem front_of_graph (D : List ℝ → Prop) (F : List ℝ → Fin 2 → ℝ) (T : ℝ → Prop) (h : ℝ → ℝ)
    (hT : ∀ x, D x → T (F x 0)) (hlow : ∀ x, D x → h (F x 0) ≤ F x 1) (hatt : ∀ t, T t → ∃ x, D x ∧ F x = ![t, h t])
    (f : Fin 2 → ℝ) : ParetoPoint D F f ↔ ∃ t, T t ∧ f = ![t, h t] ∧ ∀ s, T s → s < t → h t < h s := by
  constructor
  · rintro ⟨⟨x, hx, rfl⟩, hnd⟩
    obtain ⟨y, hy, hyF⟩ := hatt _ (hT x hx)
    have heq : F x 1 = h (F x 0) := by
      by_contra hne
      apply hnd y hy
      rw [hyF]
      have hlt : h (F x 0) < F x 1 := lt_of_le_of_ne (hlow x hx) (Ne.symm hne)
      refine ⟨fun i => ?_, 1, by simpa using hlt⟩
      fin_cases i
      · simp
      · simpa using hlt.le
    refine ⟨F x 0, hT x hx, ?_, fun s hs hst => ?_⟩
    · ext i; fin_cases i
      · simp
      · simpa using heq
    · by_contra hc
      push Not at hc
      obtain ⟨z, hz, hzF⟩ := hatt s hs
      apply hnd z hz
      rw [hzF]
      refine ⟨fun i => ?_, 0, by simpa using hst⟩
      fin_cases i
      · simpa using hst.le
      · simpa [heq] using hc
  · rintro ⟨t, ht, rfl, hrec⟩
    refine ⟨hatt t ht, fun x hx hd => ?_⟩
    have h0 : F x 0 ≤ t := by simpa using hd.1 0
    have h1 : F x 1 ≤ h t := by simpa using hd.1 1
    rcases eq_or_lt_of_le h0 with he | hlt
    · have := hlow x hx
      rw [he] at this
      obtain ⟨i, hi⟩ := hd.2
      fin_cases i
      · simp [he] at hi
      · have : F x 1 < h t := by simpa using hi
        linarith
    · have := hrec _ (hT x hx) hlt
      have := hlow x hx
      linarith

/-- The same for a strictly decreasing graph: exactly the points of the graph are Pareto-optimal. -/
theorem front_of_curve (D : List ℝ → Prop) (F : List ℝ → Fin 2 → ℝ) (T : ℝ → Prop) (h : ℝ → ℝ)
    (hT : ∀ x, D x → T (F x 0)) (hlow : ∀ x, D x → h (F x 0) ≤ F x 1) (hatt : ∀ t, T t → ∃ x, D x ∧ F x = ![t, h t])
    (hanti : ∀ s t, T s → T t → s < t → h t < h s)
    (f : Fin 2 → ℝ) : ParetoPoint D F f ↔ ∃ t, T t ∧ f = ![t, h t] := by
  rw [front_of_graph D F T h hT hlow hatt]
  exact ⟨fun ⟨t, h1, h2, _⟩ => ⟨t, h1, h2⟩, fun ⟨t, h1, h2⟩ => ⟨t, h1, h2, fun s hs hst => hanti s t hs h1 hst⟩⟩

/-- The unit interval. -/
def Unit01 (t : ℝ) : Prop := 0 ≤ t ∧ t ≤ 1

theorem head_unit {n : ℕ} (hn : 2 ≤ n) {x : List ℝ} (hx : Cube n 0 1 x) : Unit01 (x.headD 0) := by
  cases x with
  | nil => have := hx.1; simp at this; omega
  | cons a l => exact hx.2 a List.mem_cons_self

theorem tail_nonneg {n : ℕ} {x : List ℝ} (hx : Cube n 0 1 x) : 0 ≤ x.tail.sum :=
  List.sum_nonneg fun v hv => (hx.2 v (List.mem_of_mem_tail hv)).1

theorem len_pos {n : ℕ} (hn : 2 ≤ n) {x : List ℝ} (hx : x.length = n) : (0:ℝ) < (x.length : ℝ) - 1 := by
  rw [hx]
  have : (2:ℝ) ≤ n := by exact_mod_cast hn
  linarith

/-- The decision vector `t, 0, 0, …`. -/
noncomputable def firstOnly (n : ℕ) (t : ℝ) : List ℝ := t :: List.replicate (n - 1) 0

theorem firstOnly_cube {n : ℕ} (hn : 2 ≤ n) {t : ℝ} (ht : Unit01 t) : Cube n 0 1 (firstOnly n t) := by
  refine ⟨by simp [firstOnly]; omega, fun v hv => ?_⟩
  rcases List.mem_cons.1 hv with rfl | hv
  · exact ht
  · rw [List.eq_of_mem_replicate hv]; norm_num

theorem sqrt_curve {g f : ℝ} (hg : 1 ≤ g) (h0 : 0 ≤ f) (h1 : f ≤ 1) : 1 - √f ≤ g * (1 - √(f / g)) := by
  have hg0 : 0 ≤ g := by linarith
  have hs : √g * √g = g := Real.mul_self_sqrt hg0
  have hs1 : 1 ≤ √g := by rw [Real.one_le_sqrt]; exact hg
  have hr1 : √f ≤ 1 := by rw [Real.sqrt_le_iff]; norm_num; exact h1
  have hdiv : g * √(f / g) = √g * √f := by
    rw [Real.sqrt_div h0]
    have : √g ≠ 0 := by linarith
    nth_rewrite 1 [← hs]
    field_simp
  have : (0:ℝ) ≤ (√g - 1) * (√g + 1 - √f) := mul_nonneg (by linarith) (by linarith)
  nlinarith

theorem square_curve {g f : ℝ} (hg : 1 ≤ g) : 1 - f ^ 2 ≤ g * (1 - (f / g) ^ 2) := by
  have hg0 : 0 < g := by linarith
  have : g * (1 - (f / g) ^ 2) - (1 - f ^ 2) = (g - 1) * (1 + f ^ 2 / g) := by field_simp; ring
  have h2 : 0 ≤ (g - 1) * (1 + f ^ 2 / g) := mul_nonneg (by linarith) (by positivity)
  linarith

theorem sqrt_anti (s t : ℝ) (hs : Unit01 s) (ht : Unit01 t) (h : s < t) : 1 - √t < 1 - √s := by
  have := Real.sqrt_lt_sqrt hs.1 h
  linarith

theorem square_anti (s t : ℝ) (hs : 0 ≤ s) (h : s < t) : 1 - t ^ 2 < 1 - s ^ 2 := by
  have := pow_lt_pow_left₀ h hs (n := 2) (by norm_num)
  linarith

/-- C81, ZDT1: the Pareto-optimal points are exactly the points of the curve. -/
theorem C81_zdt1_curve (n : ℕ) (hn : 2 ≤ n) (f : Fin 2 → ℝ) :
    ParetoPoint (Cube n 0 1) zdt1 f ↔ ∃ t, Unit01 t ∧ f = ![t, 1 - √t] := by
  refine front_of_curve _ _ _ _ (fun x hx => head_unit hn hx) (fun x hx => ?_) (fun t ht => ?_) sqrt_anti f
  · have hg : 1 ≤ zdt1g x := by
      have := tail_nonneg hx
      have := len_pos hn hx.1
      unfold zdt1g
      have : 0 ≤ 9 / ((x.length : ℝ) - 1) * x.tail.sum := by positivity
      linarith
    have := sqrt_curve hg (head_unit hn hx).1 (head_unit hn hx).2
    rw [Real.sqrt_eq_rpow (x.headD 0 / zdt1g x)] at this
    simpa [zdt1] using this
  · refine ⟨firstOnly n t, firstOnly_cube hn ht, ?_⟩
    ext i
    have : zdt1g (firstOnly n t) = 1 := by simp [zdt1g, firstOnly]
    simp only [zdt1, this]
    fin_cases i
    · simp [firstOnly]
    · simp [firstOnly, Real.sqrt_eq_rpow]

/-- C81, ZDT1: every returned point is Pareto-optimal. -/
theorem C81_zdt1 (n : ℕ) (hn : 2 ≤ n) (k : ℕ) : ∀ f ∈ zdt1Front k, ParetoPoint (Cube n 0 1) zdt1 f := by
  intro f hf
  obtain ⟨t, ht, rfl⟩ := List.mem_map.1 hf
  exact (C81_zdt1_curve n hn _).2 ⟨t, linspace_mem (by norm_num) ht, rfl⟩

theorem zdt2g_ge {n : ℕ} (hn : 2 ≤ n) {x : List ℝ} (hx : Cube n 0 1 x) : 1 ≤ zdt2g x := by
  have := tail_nonneg hx
  have := len_pos hn hx.1
  unfold zdt2g
  have : 0 ≤ 9 * x.tail.sum / ((x.length : ℝ) - 1) := by positivity
  linarith

theorem zdt2g_first (n : ℕ) (t : ℝ) : zdt2g (firstOnly n t) = 1 := by simp [zdt2g, firstOnly]

/-- C81, ZDT2: the Pareto-optimal points are exactly the points of the curve. -/
theorem C81_zdt2_curve (n : ℕ) (hn : 2 ≤ n) (f : Fin 2 → ℝ) :
    ParetoPoint (Cube n 0 1) zdt2 f ↔ ∃ t, Unit01 t ∧ f = ![t, 1 - t ^ 2] := by
  refine front_of_curve _ _ _ _ (fun x hx => head_unit hn hx) (fun x hx => ?_) (fun t ht => ?_)
    (fun s t hs _ h => square_anti s t hs.1 h) f
  · have := square_curve (f := x.headD 0) (zdt2g_ge hn hx)
    simpa [zdt2] using this
  · refine ⟨firstOnly n t, firstOnly_cube hn ht, ?_⟩
    ext i
    simp only [zdt2, zdt2g_first]
    fin_cases i <;> simp [firstOnly]

/-- C81, ZDT2: every returned point is Pareto-optimal. -/
theorem C81_zdt2 (n : ℕ) (hn : 2 ≤ n) (k : ℕ) : ∀ f ∈ zdt2Front k, ParetoPoint (Cube n 0 1) zdt2 f := by
  intro f hf
  obtain ⟨t, ht, rfl⟩ := List.mem_map.1 hf
  exact (C81_zdt2_curve n hn _).2 ⟨t, linspace_mem (by norm_num) ht, rfl⟩

/-- The curve of ZDT3. -/
noncomputable def zdt3Curve (t : ℝ) : ℝ := 1 - √t - t * Real.sin (10 * Real.pi * t)

/-- C81, ZDT3: the Pareto-optimal points are exactly the points of the curve that lie below everything to their left. -/
theorem C81_zdt3_curve (n : ℕ) (hn : 2 ≤ n) (f : Fin 2 → ℝ) :
    ParetoPoint (Cube n 0 1) zdt3 f ↔
      ∃ t, Unit01 t ∧ f = ![t, zdt3Curve t] ∧ ∀ s, Unit01 s → s < t → zdt3Curve t < zdt3Curve s := by
  refine front_of_graph _ _ _ _ (fun x hx => head_unit hn hx) (fun x hx => ?_) (fun t ht => ?_) f
  · have hg := zdt2g_ge hn hx
    have h := sqrt_curve hg (head_unit hn hx).1 (head_unit hn hx).2
    rw [Real.sqrt_eq_rpow (x.headD 0 / zdt2g x)] at h
    have hg0 : zdt2g x ≠ 0 := by linarith
    simp only [zdt3, zdt3Curve, Matrix.cons_val_zero, Matrix.cons_val_one, mul_one]
    have : zdt2g x * (1 - (x.headD 0 / zdt2g x) ^ (1 / 2 : ℝ) - x.headD 0 / zdt2g x * Real.sin (10 * Real.pi * x.headD 0)) =
        zdt2g x * (1 - (x.headD 0 / zdt2g x) ^ (1 / 2 : ℝ)) - x.headD 0 * Real.sin (10 * Real.pi * x.headD 0) := by
      field_simp
    rw [this]
    linarith
  · refine ⟨firstOnly n t, firstOnly_cube hn ht, ?_⟩
    ext i
    simp only [zdt3, zdt2g_first]
    fin_cases i
    · simp [firstOnly]
    · simp [firstOnly, zdt3Curve, Real.sqrt_eq_rpow]

/-- C81, ZDT3, the part that holds: every returned point is attained and lies on the curve that bounds all attainable points from below.
Missing: that it lies below everything to its left, which is false for some returned points (`C81_zdt3_refuted`). -/
theorem C81_zdt3_partial (n : ℕ) (hn : 2 ≤ n) (k : ℕ) : ∀ f ∈ zdt3Front k,
    (∃ x, Cube n 0 1 x ∧ zdt3 x = f) ∧ Unit01 (f 0) ∧ f 1 = zdt3Curve (f 0) ∧ ∀ x, Cube n 0 1 x → zdt3 x 0 = f 0 → f 1 ≤ zdt3 x 1 := by
  intro f hf
  obtain ⟨r, hr, hf⟩ := List.mem_flatMap.1 hf
  obtain ⟨t, ht, rfl⟩ := List.mem_map.1 hf
  have hu : Unit01 t := by
    simp only [zdt3Regions, List.mem_cons, List.not_mem_nil, or_false] at hr
    rcases hr with rfl | rfl | rfl | rfl | rfl <;>
    · have := linspace_mem (by norm_num) ht
      norm_num at this
      constructor <;> linarith [this.1, this.2]
  refine ⟨⟨firstOnly n t, firstOnly_cube hn hu, ?_⟩, hu, rfl, fun x hx h0 => ?_⟩
  · ext i
    simp only [zdt3, zdt2g_first]
    fin_cases i
    · simp [firstOnly]
    · simp [firstOnly, Real.sqrt_eq_rpow]
  · have hg := zdt2g_ge hn hx
    have h := sqrt_curve hg (head_unit hn hx).1 (head_unit hn hx).2
    rw [Real.sqrt_eq_rpow (x.headD 0 / zdt2g x)] at h
    have hg0 : zdt2g x ≠ 0 := by linarith
    have ht' : x.headD 0 = t := by simpa [zdt3] using h0
    simp only [zdt3, Matrix.cons_val_zero, Matrix.cons_val_one, mul_one]
    have : zdt2g x * (1 - (x.headD 0 / zdt2g x) ^ (1 / 2 : ℝ) - x.headD 0 / zdt2g x * Real.sin (10 * Real.pi * x.headD 0)) =
        zdt2g x * (1 - (x.headD 0 / zdt2g x) ^ (1 / 2 : ℝ)) - x.headD 0 * Real.sin (10 * Real.pi * x.headD 0) := by
      field_simp
    rw [this]
    rw [ht'] at h ⊢
    linarith

theorem zdt4g_eq (l : List ℝ) (c : ℝ) :
    l.foldl (fun g v => g + (v * v - 10 * Real.cos (4 * Real.pi * v))) c + 10 * 0 =
      c - 10 * l.length + (l.map fun v => v * v + 10 * (1 - Real.cos (4 * Real.pi * v))).sum := by
  induction l generalizing c with
  | nil => simp
  | cons a l ih =>
    rw [List.foldl_cons, ih]
    simp only [List.length_cons, List.map_cons, List.sum_cons, Nat.cast_add, Nat.cast_one]
    ring

theorem zdt4g_ge {n : ℕ} (hn : 2 ≤ n) {x : List ℝ} (hx : zdt4Box n x) : 1 ≤ zdt4g x := by
  have h := zdt4g_eq x.tail (1 + 10 * ((x.length : ℝ) - 1))
  have hl : (x.tail.length : ℝ) = (x.length : ℝ) - 1 := by
    rw [List.length_tail, Nat.cast_sub (by rw [hx.1]; omega)]; simp
  have hs : 0 ≤ (x.tail.map fun v => v * v + 10 * (1 - Real.cos (4 * Real.pi * v))).sum := by
    apply List.sum_nonneg
    simp only [List.mem_map]
    rintro _ ⟨v, _, rfl⟩
    have := Real.cos_le_one (4 * Real.pi * v)
    have := mul_self_nonneg v
    nlinarith
  rw [hl] at h
  unfold zdt4g
  linarith

/-- C81, ZDT4: the Pareto-optimal points are exactly the points of the curve. -/
theorem C81_zdt4_curve (n : ℕ) (hn : 2 ≤ n) (f : Fin 2 → ℝ) :
    ParetoPoint (zdt4Box n) zdt4 f ↔ ∃ t, Unit01 t ∧ f = ![t, 1 - √t] := by
  have hh : ∀ x, zdt4Box n x → Unit01 (x.headD 0) := by
    intro x hx
    cases x with
    | nil => have := hx.1; simp at this; omega
    | cons a l => exact hx.2.1 a rfl
  refine front_of_curve _ _ _ _ (fun x hx => hh x hx) (fun x hx => ?_) (fun t ht => ?_) sqrt_anti f
  · simpa [zdt4] using sqrt_curve (zdt4g_ge hn hx) (hh x hx).1 (hh x hx).2
  · refine ⟨firstOnly n t, ⟨by simp [firstOnly]; omega, ?_, ?_⟩, ?_⟩
    · intro v hv
      simp [firstOnly] at hv
      rw [← hv]; exact ht
    · intro v hv
      simp only [firstOnly, List.tail_cons] at hv
      rw [List.eq_of_mem_replicate hv]; norm_num
    · have hg : zdt4g (firstOnly n t) = 1 := by
        have h := zdt4g_eq (firstOnly n t).tail (1 + 10 * (((firstOnly n t).length : ℝ) - 1))
        have hz : ((firstOnly n t).tail.map fun v => v * v + 10 * (1 - Real.cos (4 * Real.pi * v))).sum = 0 := by
          simp [firstOnly]
        rw [hz] at h
        unfold zdt4g
        simp only [firstOnly, List.tail_cons, List.length_cons, List.length_replicate, Nat.cast_add, Nat.cast_one] at h ⊢
        linarith
      ext i
      simp only [zdt4, hg]
      fin_cases i <;> simp [firstOnly]

/-- C81, ZDT4: every returned point is Pareto-optimal. -/
theorem C81_zdt4 (n : ℕ) (hn : 2 ≤ n) (k : ℕ) : ∀ f ∈ zdt4Front k, ParetoPoint (zdt4Box n) zdt4 f := by
  intro f hf
  obtain ⟨t, ht, rfl⟩ := List.mem_map.1 hf
  exact (C81_zdt4_curve n hn _).2 ⟨t, linspace_mem (by norm_num) ht, rfl⟩

/-- The values the first objective of ZDT6 can take. -/
def Zdt6Range (t : ℝ) : Prop := ∃ v, Unit01 v ∧ zdt6f v = t

theorem zdt6f_bounds (v : ℝ) (hv : 0 ≤ v) : 0 ≤ zdt6f v ∧ zdt6f v ≤ 1 := by
  have h1 : Real.exp (-4 * v) ≤ 1 := by rw [Real.exp_le_one_iff]; linarith
  have h2 : Real.sin (6 * Real.pi * v) ^ 6 ≤ 1 := by
    have := Real.sin_sq_le_one (6 * Real.pi * v)
    have h0 := sq_nonneg (Real.sin (6 * Real.pi * v))
    calc Real.sin (6 * Real.pi * v) ^ 6 = (Real.sin (6 * Real.pi * v) ^ 2) ^ 3 := by ring
      _ ≤ 1 ^ 3 := pow_le_pow_left₀ h0 this 3
      _ = 1 := by norm_num
  have h3 : 0 ≤ Real.sin (6 * Real.pi * v) ^ 6 := by positivity
  have h4 := (Real.exp_pos (-4 * v)).le
  unfold zdt6f
  constructor
  · have := mul_le_one₀ h1 h3 h2
    linarith
  · have := mul_nonneg h4 h3
    linarith

theorem zdt6g_ge {n : ℕ} (hn : 2 ≤ n) {x : List ℝ} (hx : Cube n 0 1 x) : 1 ≤ zdt6g x := by
  have h1 := tail_nonneg hx
  have h2 := len_pos hn hx.1
  have := Real.rpow_nonneg (div_nonneg h1 h2.le) (1 / 4)
  unfold zdt6g
  linarith

/-- C81, ZDT6: the Pareto-optimal points are exactly the points of the parabola over the attainable values of the first objective. -/
theorem C81_zdt6_curve (n : ℕ) (hn : 2 ≤ n) (f : Fin 2 → ℝ) :
    ParetoPoint (Cube n 0 1) zdt6 f ↔ ∃ t, Zdt6Range t ∧ f = ![t, 1 - t ^ 2] := by
  refine front_of_curve _ _ _ _ (fun x hx => ⟨_, head_unit hn hx, by simp [zdt6]⟩) (fun x hx => ?_) (fun t ht => ?_)
    (fun s t hs _ h => ?_) f
  · have := square_curve (f := zdt6f (x.headD 0)) (zdt6g_ge hn hx)
    simpa [zdt6] using this
  · obtain ⟨v, hv, rfl⟩ := ht
    refine ⟨firstOnly n v, firstOnly_cube hn hv, ?_⟩
    have hg : zdt6g (firstOnly n v) = 1 := by simp [zdt6g, firstOnly]
    ext i
    simp only [zdt6, hg]
    fin_cases i <;> simp [firstOnly]
  · obtain ⟨v, hv, rfl⟩ := hs
    exact square_anti _ t (zdt6f_bounds v hv.1).1 h

theorem zdt6_start : zdt6f 0.0814578 ≤ 0.2807753191 := by
  have hp1 := Real.pi_gt_d20
  have hp2 := Real.pi_lt_d20
  -- the sine is the cosine of a small angle
  set d := Real.pi / 2 - 6 * Real.pi * 0.0814578 with hd
  have hsin : Real.sin (6 * Real.pi * 0.0814578) = Real.cos d := by
    rw [hd, Real.cos_pi_div_two_sub]
  have hd0 : 0 ≤ d := by rw [hd]; norm_num; nlinarith
  have hd1 : d ≤ 0.03535297045 := by rw [hd]; norm_num at hp2 ⊢; nlinarith
  have hc : 0.99937514882 ≤ Real.cos d := by
    have h6 := cos_ge6 d
    have a2 : d ^ 2 ≤ 0.03535297045 ^ 2 := pow_le_pow_left₀ hd0 hd1 2
    have a6 : d ^ 6 ≤ 0.03535297045 ^ 6 := pow_le_pow_left₀ hd0 hd1 6
    have a4 : 0.03535297 ^ 4 ≤ d ^ 4 := pow_le_pow_left₀ (by norm_num) (by rw [hd]; norm_num at hp1 ⊢; nlinarith) 4
    norm_num at a2 a4 a6 ⊢
    linarith
  have hc6 : 0.99937514882 ^ 6 ≤ Real.cos d ^ 6 := pow_le_pow_left₀ (by norm_num) hc 6
  -- the exponential
  have he : Real.exp (4 * 0.0814578) ≤ 1.3851815305 := by
    have := Real.exp_bound' (x := 4 * 0.0814578) (by norm_num) (by norm_num) (n := 10) (by norm_num)
    refine this.trans ?_
    norm_num [Finset.sum_range_succ, Nat.factorial]
  have hexp : 1 / 1.3851815305 ≤ Real.exp (-4 * 0.0814578) := by
    rw [show (-4 * 0.0814578 : ℝ) = -(4 * 0.0814578) by ring, Real.exp_neg, ← one_div]
    exact one_div_le_one_div_of_le (Real.exp_pos _) he
  unfold zdt6f
  rw [hsin]
  have : 1 / 1.3851815305 * 0.99937514882 ^ 6 ≤ Real.exp (-4 * 0.0814578) * Real.cos d ^ 6 :=
    mul_le_mul hexp hc6 (by norm_num) (Real.exp_pos _).le
  norm_num at this ⊢
  linarith

/-- C81, ZDT6: every returned point is Pareto-optimal. -/
theorem C81_zdt6 (n : ℕ) (hn : 2 ≤ n) (k : ℕ) : ∀ f ∈ zdt6Front k, ParetoPoint (Cube n 0 1) zdt6 f := by
  intro f hf
  obtain ⟨t, ht, rfl⟩ := List.mem_map.1 hf
  obtain ⟨h0, h1⟩ := linspace_mem (by norm_num) ht
  refine (C81_zdt6_curve n hn _).2 ⟨t, ?_, rfl⟩
  have hcont : ContinuousOn zdt6f (Set.Icc 0 0.0814578) := by
    apply Continuous.continuousOn
    unfold zdt6f
    fun_prop
  have hz : zdt6f 0 = 1 := by simp [zdt6f]
  have := intermediate_value_Icc' (by norm_num) hcont
  obtain ⟨v, hv, hvt⟩ := this ⟨zdt6_start.trans h0, by rw [hz]; exact h1⟩
  exact ⟨v, ⟨hv.1, hv.2.trans (by norm_num)⟩, hvt⟩

/-- C81 fails for ZDT3: the point returned for the start of the fourth region (returned whenever at least five points are asked for)
is dominated by an attained one, because the ends of the regions are rounded. -/
theorem C81_zdt3_refuted (n : ℕ) (hn : 2 ≤ n) (k : ℕ) (hk : 5 ≤ k) :
    ∃ f ∈ zdt3Front k, f 0 = 0.6183967944 ∧ ¬ ParetoPoint (Cube n 0 1) zdt3 f := by
  refine ⟨![0.6183967944, 1 - √0.6183967944 - 0.6183967944 * Real.sin (10 * Real.pi * 0.6183967944)], ?_, rfl, ?_⟩
  · unfold zdt3Front
    refine List.mem_flatMap.2 ⟨(0.6183967944, 0.6525117038), by simp [zdt3Regions], ?_⟩
    refine List.mem_map.2 ⟨0.6183967944, ?_, rfl⟩
    refine List.mem_map.2 ⟨0, List.mem_range.2 ?_, by simp⟩
    simp only [zdt3Regions, List.length_cons, List.length_nil]
    omega
  · rw [C81_zdt3_curve n hn]
    rintro ⟨t, ht, heq, hrec⟩
    have h0 := congrFun heq 0
    simp only [Matrix.cons_val_zero] at h0
    subst h0
    have hlt := hrec 0.453882104 (by constructor <;> norm_num) (by norm_num)
    have hp1 := Real.pi_gt_d20
    have hp2 := Real.pi_lt_d20
    -- the curve at 0.453882104 from above
    have hs1 : 0.6737077289151 ≤ √(0.453882104:ℝ) := by
      apply Real.le_sqrt_of_sq_le; norm_num
    have hs2 : √(0.6183967944:ℝ) ≤ 0.7863820918613 := by
      rw [Real.sqrt_le_iff]; norm_num
    obtain ⟨x, hx⟩ : ∃ x, x = (0.03882104:ℝ) * Real.pi := ⟨_, rfl⟩
    obtain ⟨y, hy⟩ : ∃ y, y = (0.183967944:ℝ) * Real.pi := ⟨_, rfl⟩
    have hsinx : Real.sin (10 * Real.pi * 0.453882104) = Real.cos x := by
      rw [show 10 * Real.pi * 0.453882104 = (x + Real.pi / 2) + (2 : ℕ) * (2 * Real.pi) by rw [hx]; push_cast; ring,
        Real.sin_add_nat_mul_two_pi, Real.sin_add_pi_div_two]
    have hsiny : Real.sin (10 * Real.pi * 0.6183967944) = Real.sin y := by
      rw [show 10 * Real.pi * 0.6183967944 = y + (3 : ℕ) * (2 * Real.pi) by rw [hy]; push_cast; ring,
        Real.sin_add_nat_mul_two_pi]
    have hx1 : 0.121959894 ≤ x := by rw [hx]; norm_num at hp1 ⊢; linarith
    have hx2 : x ≤ 0.12195989406872 := by rw [hx]; norm_num at hp2 ⊢; linarith
    have hy1 : 0.57795234136641 ≤ y := by rw [hy]; norm_num at hp1 ⊢; linarith
    have hy2 : y ≤ 0.57795234136642 := by rw [hy]; norm_num at hp2 ⊢; linarith
    have hx0 : 0 ≤ x := by linarith
    have hy0 : 0 ≤ y := by linarith
    have hcx : 0.9925721059 ≤ Real.cos x := by
      have h6 := cos_ge6 x
      have a2 := pow_le_pow_left₀ hx0 hx2 2
      have a4 := pow_le_pow_left₀ (by norm_num) hx1 4
      have a6 := pow_le_pow_left₀ hx0 hx2 6
      norm_num at a2 a4 a6 ⊢
      linarith
    have hsy : Real.sin y ≤ 0.5463099992 := by
      have h9 := sin_le9 y hy0
      have a3 := pow_le_pow_left₀ (by norm_num) hy1 3
      have a5 := pow_le_pow_left₀ hy0 hy2 5
      have a7 := pow_le_pow_left₀ (by norm_num) hy1 7
      have a9 := pow_le_pow_left₀ hy0 hy2 9
      norm_num at a3 a5 a7 a9 ⊢
      linarith
    unfold zdt3Curve at hlt
    rw [hsinx, hsiny] at hlt
    norm_num at hlt hs1 hs2 hcx hsy
    linarith

theorem foldl_min_le (l : List ℝ) (a : ℝ) : l.foldl min a ≤ a ∧ ∀ v ∈ l, l.foldl min a ≤ v := by
  induction l generalizing a with
  | nil => simp
  | cons b l ih =>
    obtain ⟨h1, h2⟩ := ih (min a b)
    refine ⟨h1.trans (min_le_left _ _), fun v hv => ?_⟩
    rcases List.mem_cons.1 hv with rfl | hv
    · exact h1.trans (min_le_right _ _)
    · exact h2 v hv

theorem foldl_min_mem (l : List ℝ) (a : ℝ) : l.foldl min a = a ∨ l.foldl min a ∈ l := by
  induction l generalizing a with
  | nil => simp
  | cons b l ih =>
    rcases ih (min a b) with h | h
    · rcases min_choice a b with hc | hc
      · exact Or.inl (by rw [List.foldl_cons, h, hc])
      · exact Or.inr (by rw [List.foldl_cons, h, hc]; exact List.mem_cons_self)
    · exact Or.inr (List.mem_cons_of_mem _ h)

theorem foldl_max_ge (l : List ℝ) (a : ℝ) : a ≤ l.foldl max a ∧ ∀ v ∈ l, v ≤ l.foldl max a := by
  induction l generalizing a with
  | nil => simp
  | cons b l ih =>
    obtain ⟨h1, h2⟩ := ih (max a b)
    refine ⟨(le_max_left _ _).trans h1, fun v hv => ?_⟩
    rcases List.mem_cons.1 hv with rfl | hv
    · exact (le_max_right _ _).trans h1
    · exact h2 v hv

theorem foldl_max_mem (l : List ℝ) (a : ℝ) : l.foldl max a = a ∨ l.foldl max a ∈ l := by
  induction l generalizing a with
  | nil => simp
  | cons b l ih =>
    rcases ih (max a b) with h | h
    · rcases max_choice a b with hc | hc
      · exact Or.inl (by rw [List.foldl_cons, h, hc])
      · exact Or.inr (by rw [List.foldl_cons, h, hc]; exact List.mem_cons_self)
    · exact Or.inr (List.mem_cons_of_mem _ h)

theorem listMin_eq (l : List ℝ) (a : ℝ) (h : a ∈ l) (hle : ∀ v ∈ l, a ≤ v) : listMin l = a := by
  cases l with
  | nil => simp at h
  | cons b l =>
    obtain ⟨h1, h2⟩ := foldl_min_le l b
    apply le_antisymm
    · rcases List.mem_cons.1 h with rfl | h
      · exact h1
      · exact h2 a h
    · rcases foldl_min_mem l b with he | he
      · rw [listMin, he]; exact hle b List.mem_cons_self
      · exact hle _ (List.mem_cons_of_mem _ he)

theorem listMax_eq (l : List ℝ) (a : ℝ) (h : a ∈ l) (hle : ∀ v ∈ l, v ≤ a) : listMax l = a := by
  cases l with
  | nil => simp at h
  | cons b l =>
    obtain ⟨h1, h2⟩ := foldl_max_ge l b
    apply le_antisymm
    · rcases foldl_max_mem l b with he | he
      · rw [listMax, he]; exact hle b List.mem_cons_self
      · exact hle _ (List.mem_cons_of_mem _ he)
    · rcases List.mem_cons.1 h with rfl | h
      · exact h1
      · exact h2 a h

theorem sum_bounds (l : List ℝ) (h : ∀ v ∈ l, 0 ≤ v ∧ v ≤ 1) : 0 ≤ l.sum ∧ l.sum ≤ l.length := by
  induction l with
  | nil => simp
  | cons a l ih =>
    obtain ⟨h1, h2⟩ := ih fun v hv => h v (List.mem_cons_of_mem _ hv)
    obtain ⟨h3, h4⟩ := h a List.mem_cons_self
    simp only [List.sum_cons, List.length_cons, Nat.cast_add, Nat.cast_one]
    constructor <;> linarith

/-- The two objectives of ZDT5 before normalisation. -/
noncomputable def zdt5Raw (m n : ℕ) (x : List ℝ) : ℝ × ℝ :=
  (1 + (x.take 30).sum, ((zdt5u m n x).map (zdt5v n)).sum * (1 / (1 + (x.take 30).sum)))

theorem zdt5v_ge (n : ℕ) (u : ℝ) (h0 : 0 ≤ u) (h1 : u ≤ n) : 1 ≤ zdt5v n u := by
  unfold zdt5v
  rcases eq_or_lt_of_le h1 with h | h
  · rw [if_neg (by linarith), if_pos h]; norm_num
  · rw [if_pos h, if_neg (by linarith)]; linarith

theorem zdt5_low (m n : ℕ) (hm : 2 ≤ m) (x : List ℝ) (hx : Cube (30 + n * (m - 1)) 0 1 x) :
    (1 ≤ (zdt5Raw m n x).1 ∧ (zdt5Raw m n x).1 ≤ 31) ∧ ((m:ℝ) - 1) / (zdt5Raw m n x).1 ≤ (zdt5Raw m n x).2 := by
  have hs := sum_bounds (x.take 30) fun v hv => hx.2 v (List.mem_of_mem_take hv)
  have hl : ((x.take 30).length : ℝ) ≤ 30 := by
    have : (x.take 30).length ≤ 30 := by rw [List.length_take]; omega
    exact_mod_cast this
  have h1 : 1 ≤ (zdt5Raw m n x).1 := by simp only [zdt5Raw]; linarith
  refine ⟨⟨h1, by simp only [zdt5Raw]; linarith⟩, ?_⟩
  have hg : (m:ℝ) - 1 ≤ ((zdt5u m n x).map (zdt5v n)).sum := by
    have hall : ∀ v ∈ (zdt5u m n x).map (zdt5v n), (1:ℝ) ≤ v := by
      intro v hv
      obtain ⟨u, hu, rfl⟩ := List.mem_map.1 hv
      obtain ⟨i, hi, rfl⟩ := List.mem_map.1 hu
      have hb := sum_bounds ((x.drop (30 + i * n)).take n) fun v hv => hx.2 v (List.mem_of_mem_drop (List.mem_of_mem_take hv))
      have hln : (((x.drop (30 + i * n)).take n).length : ℝ) ≤ n := by
        have : ((x.drop (30 + i * n)).take n).length ≤ n := by rw [List.length_take]; omega
        exact_mod_cast this
      exact zdt5v_ge n _ hb.1 (hb.2.trans hln)
    have := List.card_nsmul_le_sum _ 1 hall
    have hlen : ((zdt5u m n x).map (zdt5v n)).length = m - 1 := by simp [zdt5u]
    rw [hlen, nsmul_eq_mul, mul_one, Nat.cast_sub (by omega)] at this
    simpa using this
  simp only [zdt5Raw] at h1 ⊢
  rw [mul_one_div]
  exact div_le_div_of_nonneg_right hg (by linarith)

/-- The decision vector attaining `t` in the first objective and the best possible second one. -/
noncomputable def zdt5x (m n : ℕ) (t : ℝ) : List ℝ := List.replicate 30 ((t - 1) / 30) ++ List.replicate (n * (m - 1)) 1

theorem zdt5_att (m n : ℕ) (hm : 2 ≤ m) (t : ℝ) (h1 : 1 ≤ t) (h2 : t ≤ 31) :
    Cube (30 + n * (m - 1)) 0 1 (zdt5x m n t) ∧ zdt5Raw m n (zdt5x m n t) = (t, ((m:ℝ) - 1) / t) := by
  refine ⟨⟨by rw [zdt5x, List.length_append, List.length_replicate, List.length_replicate], fun v hv => ?_⟩, ?_⟩
  · rcases List.mem_append.1 hv with h | h
    · rw [List.eq_of_mem_replicate h]
      constructor
      · apply div_nonneg <;> linarith
      · rw [div_le_one (by norm_num)]; linarith
    · rw [List.eq_of_mem_replicate h]; norm_num
  · have ht : (zdt5x m n t).take 30 = List.replicate 30 ((t - 1) / 30) := by
      rw [zdt5x, List.take_append_of_le_length (by simp)]
      simp
    have hsum : 1 + ((zdt5x m n t).take 30).sum = t := by rw [ht, List.sum_replicate]; simp; ring
    have hg : ((zdt5u m n (zdt5x m n t)).map (zdt5v n)).sum = (m:ℝ) - 1 := by
      have hall : ∀ v ∈ (zdt5u m n (zdt5x m n t)).map (zdt5v n), v = (1:ℝ) := by
        intro v hv
        obtain ⟨u, hu, rfl⟩ := List.mem_map.1 hv
        obtain ⟨i, hi, rfl⟩ := List.mem_map.1 hu
        rw [List.mem_range] at hi
        have hd : ((zdt5x m n t).drop (30 + i * n)).take n = List.replicate n 1 := by
          have h30 : (List.replicate 30 ((t - 1) / 30)).length = 30 := List.length_replicate
          rw [zdt5x, List.drop_append, h30, List.drop_eq_nil_of_le (by rw [h30]; omega), List.nil_append, Nat.add_sub_cancel_left,
            List.drop_replicate, List.take_replicate]
          congr 1
          have : n * (m - 1) - i * n = n * (m - 1 - i) := by rw [Nat.mul_sub n (m - 1) i, Nat.mul_comm i n]
          rw [this]
          apply min_eq_left
          exact Nat.le_mul_of_pos_right n (by omega)
        rw [hd, List.sum_replicate]
        simp [zdt5v]
      rw [List.eq_replicate_of_mem hall, List.sum_replicate]
      simp [zdt5u]
      rw [Nat.cast_sub (by omega)]; simp
    unfold zdt5Raw
    rw [hsum, hg, mul_one_div]

/-- C81, ZDT5 with the declared (real) variables, not normalised: the Pareto-optimal points are exactly the points of the hyperbola. -/
theorem C81_zdt5_curve (m n : ℕ) (hm : 2 ≤ m) (f : Fin 2 → ℝ) :
    ParetoPoint (Cube (30 + n * (m - 1)) 0 1) (zdt5 m n false) f ↔ ∃ t, (1 ≤ t ∧ t ≤ 31) ∧ f = ![t, ((m:ℝ) - 1) / t] := by
  have hc : (0:ℝ) < (m:ℝ) - 1 := by
    have : (2:ℝ) ≤ m := by exact_mod_cast hm
    linarith
  have hF : ∀ x, zdt5 m n false x = ![(zdt5Raw m n x).1, (zdt5Raw m n x).2] := fun x => by simp [zdt5, zdt5Raw]
  refine front_of_curve _ _ (fun t => 1 ≤ t ∧ t ≤ 31) (fun t => ((m:ℝ) - 1) / t) (fun x hx => ?_) (fun x hx => ?_) (fun t ht => ?_) (fun s t hs ht h => ?_) f
  · rw [hF]; simpa using (zdt5_low m n hm x hx).1
  · rw [hF]; simpa using (zdt5_low m n hm x hx).2
  · obtain ⟨h1, h2⟩ := zdt5_att m n hm t ht.1 ht.2
    exact ⟨_, h1, by rw [hF, h2]⟩
  · exact div_lt_div_of_pos_left hc (by linarith [hs.1]) h

/-- C81, ZDT5 normalised (the default): the Pareto-optimal points are exactly the points of the normalised hyperbola. -/
theorem C81_zdt5_norm_curve (m n : ℕ) (hm : 2 ≤ m) (f : Fin 2 → ℝ) :
    ParetoPoint (Cube (30 + n * (m - 1)) 0 1) (zdt5 m n true) f ↔
      ∃ t, (1 ≤ t ∧ t ≤ 31) ∧ f = ![(t - 1) / 30, (31 / t - 1) / 30] := by
  have hc : (0:ℝ) < (m:ℝ) - 1 := by
    have : (2:ℝ) ≤ m := by exact_mod_cast hm
    linarith
  have hscale : ∀ b t : ℝ, 0 < t → ((m:ℝ) - 1) / t ≤ b →
      (31 / t - 1) / 30 ≤ (b - ((m:ℝ) - 1) * 1 / 31) / ((m:ℝ) - 1 - ((m:ℝ) - 1) * 1 / 31) := by
    intro b t ht hb
    have hd : (0:ℝ) < (m:ℝ) - 1 - ((m:ℝ) - 1) * 1 / 31 := by linarith
    rw [le_div_iff₀ hd]
    have : (31 / t - 1) / 30 * ((m:ℝ) - 1 - ((m:ℝ) - 1) * 1 / 31) = ((m:ℝ) - 1) / t - ((m:ℝ) - 1) * 1 / 31 := by
      field_simp; ring
    rw [this]; linarith
  have hF : ∀ x, zdt5 m n true x = ![((zdt5Raw m n x).1 - 1) / (31 - 1), ((zdt5Raw m n x).2 - ((m:ℝ) - 1) * 1 / 31) / ((m:ℝ) - 1 - ((m:ℝ) - 1) * 1 / 31)] :=
    fun x => by simp [zdt5, zdt5Raw]
  rw [front_of_curve _ _ (fun s => 0 ≤ s ∧ s ≤ 1) (fun s => (31 / (1 + 30 * s) - 1) / 30) (fun x hx => ?_) (fun x hx => ?_) (fun t ht => ?_) (fun s t hs ht h => ?_) f]
  · constructor
    · rintro ⟨s, hs, rfl⟩
      refine ⟨1 + 30 * s, ⟨by linarith [hs.1], by linarith [hs.2]⟩, ?_⟩
      congr 1
      ring
    · rintro ⟨t, ht, rfl⟩
      refine ⟨(t - 1) / 30, ⟨by apply div_nonneg <;> linarith [ht.1], by rw [div_le_one (by norm_num)]; linarith [ht.2]⟩, ?_⟩
      rw [show 1 + 30 * ((t - 1) / 30) = t by ring]
  · have h := (zdt5_low m n hm x hx).1
    rw [hF]
    simp only [Matrix.cons_val_zero]
    constructor
    · apply div_nonneg <;> linarith [h.1]
    · rw [div_le_one (by norm_num)]; linarith [h.2]
  · have h := zdt5_low m n hm x hx
    rw [hF]
    simp only [Matrix.cons_val_zero, Matrix.cons_val_one]
    rw [show 1 + 30 * (((zdt5Raw m n x).1 - 1) / (31 - 1)) = (zdt5Raw m n x).1 by ring]
    exact hscale _ _ (by linarith [h.1.1]) h.2
  · obtain ⟨h1, h2⟩ := zdt5_att m n hm (1 + 30 * t) (by linarith [ht.1]) (by linarith [ht.2])
    refine ⟨_, h1, ?_⟩
    rw [hF, h2]
    have h0 : (0:ℝ) < 1 + 30 * t := by linarith [ht.1]
    ext i
    fin_cases i
    · simp; ring
    · simp only [Fin.mk_one, Matrix.cons_val_one, Matrix.cons_val_fin_one]
      have : (m:ℝ) - 1 - ((m:ℝ) - 1) * 1 / 31 ≠ 0 := by
        have : (0:ℝ) < (m:ℝ) - 1 - ((m:ℝ) - 1) * 1 / 31 := by linarith
        exact this.ne'
      rw [div_eq_iff this]
      field_simp
      ring
  · have h1 : (0:ℝ) < 1 + 30 * s := by linarith [hs.1]
    have : (31:ℝ) / (1 + 30 * t) < 31 / (1 + 30 * s) := div_lt_div_of_pos_left (by norm_num) h1 (by linarith)
    linarith

/-- C81, ZDT5 with the declared variables: every returned point is Pareto-optimal, whether normalised or not. -/
theorem C81_zdt5 (m n : ℕ) (hm : 2 ≤ m) (norm : Bool) (k : ℕ) (hk : 2 ≤ k) :
    ∀ f ∈ zdt5Front m norm k, ParetoPoint (Cube (30 + n * (m - 1)) 0 1) (zdt5 m n norm) f := by
  have hc : (0:ℝ) < (m:ℝ) - 1 := by
    have : (2:ℝ) ≤ m := by exact_mod_cast hm
    linarith
  have hmem : ∀ v ∈ (linspace 0 1 k).map (fun t => 1 + t * 30), 1 ≤ v ∧ v ≤ 31 := by
    intro v hv
    obtain ⟨t, ht, rfl⟩ := List.mem_map.1 hv
    have := linspace_mem (by norm_num) ht
    constructor <;> linarith [this.1, this.2]
  have h1m : (1:ℝ) ∈ (linspace 0 1 k).map (fun t => 1 + t * 30) := by
    refine List.mem_map.2 ⟨0, ?_, by norm_num⟩
    have := (C81_linspace 0 1 k).2.1 (by omega)
    exact (List.mem_of_getElem (h := by simp [linspace] <;> omega) this)
  have h31m : (31:ℝ) ∈ (linspace 0 1 k).map (fun t => 1 + t * 30) := by
    refine List.mem_map.2 ⟨1, ?_, by norm_num⟩
    have := (C81_linspace 0 1 k).2.2.1 (by omega)
    exact (List.mem_of_getElem (h := by simp [linspace] <;> omega) this)
  intro f hf
  cases norm with
  | false =>
    simp only [zdt5Front, Bool.false_eq_true, if_false] at hf
    obtain ⟨v, hv, rfl⟩ := List.mem_map.1 hf
    exact (C81_zdt5_curve m n hm _).2 ⟨v, hmem v hv, rfl⟩
  | true =>
    simp only [zdt5Front, if_true] at hf
    obtain ⟨v, hv, rfl⟩ := List.mem_map.1 hf
    refine (C81_zdt5_norm_curve m n hm _).2 ⟨v, hmem v hv, ?_⟩
    have e1 := listMin_eq _ 1 h1m fun v hv => (hmem v hv).1
    have e2 := listMax_eq _ 31 h31m fun v hv => (hmem v hv).2
    have e3 := listMin_eq (((linspace 0 1 k).map fun t => 1 + t * 30).map fun x => ((m:ℝ) - 1) / x) (((m:ℝ) - 1) / 31)
      (List.mem_map.2 ⟨31, h31m, rfl⟩) (by
        intro w hw
        obtain ⟨u, hu, rfl⟩ := List.mem_map.1 hw
        exact div_le_div_of_nonneg_left hc.le (by linarith [(hmem u hu).1]) (hmem u hu).2)
    have e4 := listMax_eq (((linspace 0 1 k).map fun t => 1 + t * 30).map fun x => ((m:ℝ) - 1) / x) (((m:ℝ) - 1) / 1)
      (List.mem_map.2 ⟨1, h1m, rfl⟩) (by
        intro w hw
        obtain ⟨u, hu, rfl⟩ := List.mem_map.1 hw
        exact div_le_div_of_nonneg_left hc.le (by norm_num) (hmem u hu).1)
    rw [e1, e2, e3, e4]
    have hv0 : (0:ℝ) < v := by linarith [(hmem v hv).1]
    ext i
    fin_cases i
    · simp; norm_num
    · simp only [Fin.mk_one, Matrix.cons_val_one, Matrix.cons_val_fin_one, div_one]
      have : (m:ℝ) - 1 - ((m:ℝ) - 1) / 31 ≠ 0 := by
        have : (0:ℝ) < (m:ℝ) - 1 - ((m:ℝ) - 1) / 31 := by linarith
        exact this.ne'
      rw [div_eq_iff this]
      field_simp
      ring

/-- C81 fails for ZDT5 with the documented binary variables: the default front contains a point that no binary vector attains. -/
theorem C81_zdt5_refuted : ∃ f ∈ zdt5Front 11 true 100, ∀ x : List ℝ, (∀ v ∈ x, v = 0 ∨ v = 1) → zdt5 11 5 true x ≠ f := by
  have h1m : (1:ℝ) ∈ (linspace 0 1 100).map (fun t => 1 + t * 30) := by
    refine List.mem_map.2 ⟨0, ?_, by norm_num⟩
    have := (C81_linspace 0 1 100).2.1 (by omega)
    exact (List.mem_of_getElem (h := by simp [linspace] <;> omega) this)
  have h31m : (31:ℝ) ∈ (linspace 0 1 100).map (fun t => 1 + t * 30) := by
    refine List.mem_map.2 ⟨1, ?_, by norm_num⟩
    have := (C81_linspace 0 1 100).2.2.1 (by omega)
    exact (List.mem_of_getElem (h := by simp [linspace] <;> omega) this)
  have hmem : ∀ v ∈ (linspace 0 1 100).map (fun t => 1 + t * 30), 1 ≤ v ∧ v ≤ 31 := by
    intro v hv
    obtain ⟨t, ht, rfl⟩ := List.mem_map.1 hv
    have := linspace_mem (by norm_num) ht
    constructor <;> linarith [this.1, this.2]
  have e1 := listMin_eq _ 1 h1m fun v hv => (hmem v hv).1
  have e2 := listMax_eq _ 31 h31m fun v hv => (hmem v hv).2
  have hv : (1 + 1 / 99 * 30 : ℝ) ∈ (linspace 0 1 100).map (fun t => 1 + t * 30) := by
    refine List.mem_map.2 ⟨1 / 99, List.mem_map.2 ⟨1, by simp, by norm_num⟩, by norm_num⟩
  simp only [zdt5Front, if_true]
  refine ⟨_, List.mem_map.2 ⟨_, hv, rfl⟩, fun x hx heq => ?_⟩
  have h0 := congrFun heq 0
  simp only [zdt5, if_true, Matrix.cons_val_zero, e1, e2] at h0
  have hint : ∀ l : List ℝ, (∀ v ∈ l, v = 0 ∨ v = 1) → ∃ z : ℤ, l.sum = z := by
    intro l hl
    induction l with
    | nil => exact ⟨0, by simp⟩
    | cons a l ih =>
      obtain ⟨z, hz⟩ := ih fun v hv => hl v (List.mem_cons_of_mem _ hv)
      rcases hl a List.mem_cons_self with h | h
      · exact ⟨z, by simp [h, hz]⟩
      · exact ⟨1 + z, by simp [h, hz]⟩
  obtain ⟨z, hz⟩ := hint (x.take 30) fun v hv => hx v (List.mem_of_mem_take hv)
  rw [hz] at h0
  have h1 : (33 * z : ℝ) = 10 := by linarith
  have h2 : (33 * z : ℤ) = 10 := by exact_mod_cast h1
  omega

/-- The hypotheses are met by the default sizes. -/
example : (zdt1Front 100).length = 100 ∧ (2:ℕ) ≤ 30 ∧ (zdt5Front 11 true 100).length = 100 :=
  ⟨by simp [zdt1Front, linspace], by norm_num, by simp [zdt5Front, linspace]⟩

end Props
