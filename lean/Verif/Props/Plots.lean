import Verif.Spec.Plots
import Verif.Model.Plots
import Mathlib.RingTheory.RootsOfUnity.Complex
import Mathlib.RingTheory.RootsOfUnity.PrimitiveRoots
import Mathlib.Data.Fin.VecNotation
import Mathlib.Tactic.FinCases
import Mathlib.Algebra.BigOperators.Field
import Mathlib.Tactic.Ring
import Mathlib.Tactic.Linarith
import Mathlib.Tactic.FieldSimp
import Mathlib.Tactic.LinearCombination

/-!
# Properties of the plots: where a solution is drawn
-/

set_option linter.unusedSimpArgs false
set_option linter.unusedVariables false

namespace Props

open Model Spec

/-! ### Heights -/

theorem plots_height_float (lo up x : ℝ) : axisHeight false lo up x = if lo = up then x - lo else (x - lo) / (up - lo) := rfl

theorem plots_height_axis {lo up x : ℝ} (h : lo ≠ up ∨ x = lo) : OnAxis false lo up x (axisHeight false lo up x) := by
  simp only [OnAxis, plots_height_float]
  by_cases e : lo = up
  · rcases h with h | h
    · exact absurd e h
    · simp [e, h]
  · have : up - lo ≠ 0 := fun h0 => e (by linarith)
    simp only [if_neg e, Bool.false_eq_true, if_false]
    field_simp
    ring

theorem plots_height_unit {lo up x : ℝ} (h1 : lo ≤ x) (h2 : x ≤ up) : 0 ≤ axisHeight false lo up x ∧ axisHeight false lo up x ≤ 1 := by
  rw [plots_height_float]
  by_cases e : lo = up
  · have : x = lo := le_antisymm (e ▸ h2) h1
    simp [e, this]
  · have : 0 < up - lo := by
      rcases lt_or_eq_of_le (h1.trans h2) with h | h
      · linarith
      · exact absurd h e
    rw [if_neg e]
    exact ⟨div_nonneg (by linarith) this.le, by rw [div_le_one this]; linarith⟩

theorem plots_foldl_min {n : ℕ} (j : Fin n) (l : PlotSet n) (a : ℝ) :
    (l.foldl (fun m x => min m (x j)) a = a ∨ ∃ x ∈ l, x j = l.foldl (fun m x => min m (x j)) a) ∧ l.foldl (fun m x => min m (x j)) a ≤ a ∧
      ∀ x ∈ l, l.foldl (fun m x => min m (x j)) a ≤ x j := by
  induction l generalizing a with
  | nil => simp
  | cons y l ih =>
    simp only [List.foldl_cons]
    obtain ⟨h1, h2, h3⟩ := ih (min a (y j))
    refine ⟨?_, h2.trans (min_le_left _ _), ?_⟩
    · rcases h1 with h1 | ⟨x, hx, h1⟩
      · rcases min_choice a (y j) with h | h
        · left; rw [h1, h]
        · right; exact ⟨y, by simp, by rw [h1, h]⟩
      · right; exact ⟨x, by simp [hx], h1⟩
    · intro x hx
      rcases List.mem_cons.1 hx with rfl | hx
      · exact h2.trans (min_le_right _ _)
      · exact h3 x hx

theorem plots_foldl_max {n : ℕ} (j : Fin n) (l : PlotSet n) (a : ℝ) :
    (l.foldl (fun m x => max m (x j)) a = a ∨ ∃ x ∈ l, x j = l.foldl (fun m x => max m (x j)) a) ∧ a ≤ l.foldl (fun m x => max m (x j)) a ∧
      ∀ x ∈ l, x j ≤ l.foldl (fun m x => max m (x j)) a := by
  induction l generalizing a with
  | nil => simp
  | cons y l ih =>
    simp only [List.foldl_cons]
    obtain ⟨h1, h2, h3⟩ := ih (max a (y j))
    refine ⟨?_, (le_max_left _ _).trans h2, ?_⟩
    · rcases h1 with h1 | ⟨x, hx, h1⟩
      · rcases max_choice a (y j) with h | h
        · left; rw [h1, h]
        · right; exact ⟨y, by simp, by rw [h1, h]⟩
      · right; exact ⟨x, by simp [hx], h1⟩
    · intro x hx
      rcases List.mem_cons.1 hx with rfl | hx
      · exact (le_max_right _ _).trans h2
      · exact h3 x hx

/-- The range of a column. -/
theorem plots_colRange {n : ℕ} (r : Fin n → ℝ) (l : PlotSet n) (j : Fin n) :
    RangeOf (fun v => ∃ x ∈ r :: l, x j = v) ((colRange r l).1 j) ((colRange r l).2 j) := by
  obtain ⟨a1, a2, a3⟩ := plots_foldl_min j l (r j)
  obtain ⟨b1, b2, b3⟩ := plots_foldl_max j l (r j)
  refine ⟨?_, ?_, ?_⟩
  · rcases a1 with h | ⟨x, hx, h⟩
    · exact ⟨r, by simp, h.symm⟩
    · exact ⟨x, by simp [hx], h⟩
  · rcases b1 with h | ⟨x, hx, h⟩
    · exact ⟨r, by simp, h.symm⟩
    · exact ⟨x, by simp [hx], h⟩
  · rintro v ⟨x, hx, rfl⟩
    rcases List.mem_cons.1 hx with rfl | hx
    · exact ⟨a2, b2⟩
    · exact ⟨a3 x hx, b3 x hx⟩

/-- The height as it is drawn. -/
theorem plots_drawn_height {rev : Bool} {lo up x : ℝ} (h : lo ≠ up ∨ x = lo) :
    OnAxis rev lo up x (if rev then 1 - axisHeight false lo up x else axisHeight false lo up x) := by
  have := plots_height_axis h
  cases rev
  · simpa using this
  · simp only [OnAxis, if_true, Bool.false_eq_true, if_false] at this ⊢
    linarith

theorem plots_axis_inside {rev : Bool} {lo up x h : ℝ} (hlt : lo < up) (ho : OnAxis rev lo up x h) : (0 ≤ h ∧ h ≤ 1) ↔ (lo ≤ x ∧ x ≤ up) := by
  have hp : 0 < up - lo := by linarith
  cases rev
  · simp only [OnAxis, Bool.false_eq_true, if_false] at ho
    rw [ho]
    constructor
    · rintro ⟨h0, h1⟩; constructor <;> nlinarith
    · rintro ⟨h0, h1⟩; constructor <;> by_contra hc <;> push Not at hc <;> nlinarith
  · simp only [OnAxis, if_true] at ho
    rw [ho]
    constructor
    · rintro ⟨h0, h1⟩; constructor <;> nlinarith
    · rintro ⟨h0, h1⟩; constructor <;> by_contra hc <;> push Not at hc <;> nlinarith

theorem plots_mem_stacked {n : ℕ} {data : PlotData n} {F : Bool × PlotSet n} {x : Fin n → ℝ} (hF : F ∈ data) (hx : x ∈ F.2) : x ∈ stacked data := by
  simp only [stacked, List.mem_flatten, List.mem_map]
  exact ⟨F.2, ⟨F, hF, rfl⟩, hx⟩

theorem plots_forall₂_map {A B : Type} (R : A → B → Prop) (f : A → B) (l : List A) (h : ∀ a ∈ l, R a (f a)) : List.Forall₂ R l (l.map f) := by
  induction l with
  | nil => exact List.Forall₂.nil
  | cons a l ih => exact List.Forall₂.cons (h a (by simp)) (ih fun b hb => h b (by simp [hb]))

/-- The pictures of the sets, for a relation that holds for every solution. -/
theorem plots_drawn {n : ℕ} {data : PlotData n} {R : (Fin n → ℝ) → (Fin n → ℝ) → Prop} {f : Bool → (Fin n → ℝ) → (Fin n → ℝ)}
    (h : ∀ F ∈ data, ∀ x ∈ F.2, R x (f F.1 x)) : Drawn R (data.map (·.2)) (data.map fun F => F.2.map (f F.1)) := by
  unfold Drawn
  induction data with
  | nil => exact List.Forall₂.nil
  | cons F data ih =>
    refine List.Forall₂.cons ?_ (ih fun G hG => h G (by simp [hG]))
    exact plots_forall₂_map _ _ _ fun x hx => h F (by simp) x hx

theorem plots_normalize_given {n : ℕ} (b : AxisBounds n) (rev : Bool) (data : PlotData n) (hd : data ≠ []) (hb : ∀ j, b.1 j ≤ b.2 j) :
    plotNormalize (some b) rev data =
      some (data.map fun F => F.2.map fun x j => if rev then 1 - axisHeight F.1 (b.1 j) (b.2 j) (x j) else axisHeight F.1 (b.1 j) (b.2 j) (x j), b) := by
  simp [plotNormalize, hd, hb]

theorem plots_normalize_own {n : ℕ} (rev : Bool) (data : PlotData n) {r l} (h : stacked data = r :: l) :
    plotNormalize none rev data = some (data.map fun F => F.2.map fun x j =>
      if rev then 1 - axisHeight F.1 ((colRange r l).1 j) ((colRange r l).2 j) (x j) else axisHeight F.1 ((colRange r l).1 j) ((colRange r l).2 j) (x j), colRange r l) := by
  have hd : data ≠ [] := by rintro rfl; simp [stacked] at h
  have hb : ∀ j, (colRange r l).1 j ≤ (colRange r l).2 j := by
    intro j
    obtain ⟨⟨x, hx, e⟩, _, h3⟩ := plots_colRange r l j
    exact (h3 _ ⟨x, hx, e⟩).2
  simp [plotNormalize, hd, h, hb]

/-- **C147 (axes with their own range).** Without bounds every axis runs from the smallest to the largest value of its objective over everything that was added: every value is drawn inside, at the height
that is read as that value; values of an objective that never changes are drawn at one end. -/
theorem C147_own_range {n : ℕ} (rev : Bool) (data : PlotData n) (hf : ∀ F ∈ data, F.1 = false) (hd : stacked data ≠ []) :
    ∃ out lo up, plotNormalize none rev data = some (out, (lo, up)) ∧
      (∀ j, RangeOf (fun v => ∃ x ∈ stacked data, x j = v) (lo j) (up j)) ∧
      Drawn (fun x h => ∀ j, 0 ≤ h j ∧ h j ≤ 1 ∧ OnAxis rev (lo j) (up j) (x j) (h j) ∧ (lo j = up j → h j = if rev then 1 else 0)) (data.map (·.2)) out := by
  obtain ⟨r, l, hs⟩ : ∃ r l, stacked data = r :: l := List.exists_cons_of_ne_nil hd
  refine ⟨_, (colRange r l).1, (colRange r l).2, plots_normalize_own rev data hs, fun j => hs ▸ plots_colRange r l j, ?_⟩
  refine plots_drawn (f := fun i x j => if rev then 1 - axisHeight i ((colRange r l).1 j) ((colRange r l).2 j) (x j) else axisHeight i ((colRange r l).1 j) ((colRange r l).2 j) (x j)) ?_
  intro F hF x hx j
  have hin := (plots_colRange r l j).2.2 (x j) ⟨x, hs ▸ plots_mem_stacked hF hx, rfl⟩
  have hu := plots_height_unit hin.1 hin.2
  have hax : (colRange r l).1 j ≠ (colRange r l).2 j ∨ x j = (colRange r l).1 j := by
    by_cases e : (colRange r l).1 j = (colRange r l).2 j
    · right; exact le_antisymm (e ▸ hin.2) hin.1
    · left; exact e
  rw [hf F hF]
  refine ⟨?_, ?_, plots_drawn_height hax, ?_⟩
  · cases rev <;> simp <;> linarith [hu.1, hu.2]
  · cases rev <;> simp <;> linarith [hu.1, hu.2]
  · intro e
    have : x j = (colRange r l).1 j := le_antisymm (e ▸ hin.2) hin.1
    cases rev <;> simp [plots_height_float, e, this]

/-- **C147 (axes with bounds).** With bounds, drawing succeeds exactly if something was added and no lower bound is above the upper one; every value of an axis with distinct bounds is drawn at the height that
is read as that value, so it is inside exactly if it lies within the bounds; a pair of numbers bounds all axes. -/
theorem C147_given_bounds {n : ℕ} (u : UserBounds n) (rev : Bool) (data : PlotData n) (hf : ∀ F ∈ data, F.1 = false) :
    (∀ lo up, u = .flat lo up → ∀ j, (parseBounds u).1 j = lo ∧ (parseBounds u).2 j = up) ∧ (∀ b, u = .full b → parseBounds u = b) ∧
    ((plotNormalize (some (parseBounds u)) rev data).isSome ↔ data ≠ [] ∧ ∀ j, (parseBounds u).1 j ≤ (parseBounds u).2 j) ∧
    ∀ out b, plotNormalize (some (parseBounds u)) rev data = some (out, b) → b = parseBounds u ∧
      Drawn (fun x h => ∀ j, b.1 j < b.2 j → OnAxis rev (b.1 j) (b.2 j) (x j) (h j) ∧ ((0 ≤ h j ∧ h j ≤ 1) ↔ (b.1 j ≤ x j ∧ x j ≤ b.2 j))) (data.map (·.2)) out := by
  have key : (plotNormalize (some (parseBounds u)) rev data).isSome ↔ data ≠ [] ∧ ∀ j, (parseBounds u).1 j ≤ (parseBounds u).2 j := by
    constructor
    · intro h
      by_contra hc
      by_cases hd : data = []
      · simp [plotNormalize, hd] at h
      · by_cases hb : ∀ j, (parseBounds u).1 j ≤ (parseBounds u).2 j
        · exact hc ⟨hd, hb⟩
        · simp [plotNormalize, hd, hb] at h
    · rintro ⟨hd, hb⟩
      rw [plots_normalize_given _ _ _ hd hb]; rfl
  refine ⟨?_, ?_, key, ?_⟩
  · rintro lo up rfl j; exact ⟨rfl, rfl⟩
  · rintro b rfl; rfl
  · intro out b h
    obtain ⟨hd, hb⟩ := key.1 (by rw [h]; rfl)
    rw [plots_normalize_given _ _ _ hd hb] at h
    simp only [Option.some.injEq, Prod.mk.injEq] at h
    obtain ⟨rfl, rfl⟩ := h
    refine ⟨rfl, plots_drawn (f := fun i x j => if rev then 1 - axisHeight i ((parseBounds u).1 j) ((parseBounds u).2 j) (x j) else axisHeight i ((parseBounds u).1 j) ((parseBounds u).2 j) (x j)) ?_⟩
    intro F hF x hx j hlt
    rw [hf F hF]
    have ho := plots_drawn_height (rev := rev) (x := x j) (Or.inl hlt.ne)
    exact ⟨ho, plots_axis_inside hlt ho⟩

/-- Two solutions, one with two different values. -/
example : ∃ out lo up, plotNormalize none false ([(false, [![0, 1], ![2, 1]])] : PlotData 2) = some (out, (lo, up)) ∧ lo 0 = 0 ∧ up 0 = 2 := by
  obtain ⟨out, lo, up, h, hr, _⟩ := C147_own_range false ([(false, [![0, 1], ![2, 1]])] : PlotData 2) (by simp) (by simp [stacked])
  refine ⟨out, lo, up, h, ?_, ?_⟩
  · obtain ⟨⟨x, hx, e⟩, _, h3⟩ := hr 0
    have := (h3 0 ⟨![0, 1], by simp [stacked], by simp⟩).1
    simp [stacked] at hx
    rcases hx with rfl | rfl <;> simp at e <;> linarith
  · obtain ⟨_, ⟨x, hx, e⟩, h3⟩ := hr 0
    have := (h3 2 ⟨![2, 1], by simp [stacked], by simp⟩).2
    simp [stacked] at hx
    rcases hx with rfl | rfl <;> simp at e <;> linarith

/-- **C147 (arrays of integers).** For objective values in an array of integers (non-negative heights) the fraction of the height is lost: every value below the upper bound is drawn at the lower end of the
axis, and every value within the bounds at one of the two ends. -/
theorem C147_integer_data {n : ℕ} (b : AxisBounds n) (F : PlotSet n) (hb : ∀ j, b.1 j < b.2 j) (hF : ∀ x ∈ F, ∀ j, b.1 j ≤ x j ∧ x j ≤ b.2 j) :
    ∃ out, plotNormalize (some b) false [(true, F)] = some (out, b) ∧
      Drawn (fun x h => ∀ j, (x j < b.2 j → h j = 0) ∧ (x j = b.2 j → h j = 1)) [F] out := by
  refine ⟨_, plots_normalize_given b false [(true, F)] (by simp) (fun j => (hb j).le), ?_⟩
  refine plots_drawn (data := [(true, F)]) (f := fun i x j => if false = true then 1 - axisHeight i (b.1 j) (b.2 j) (x j) else axisHeight i (b.1 j) (b.2 j) (x j)) ?_
  intro G hG x hx j
  simp only [List.mem_singleton] at hG
  subst hG
  have hp : 0 < b.2 j - b.1 j := by linarith [hb j]
  have h0 : 0 ≤ (x j - b.1 j) / (b.2 j - b.1 j) := div_nonneg (by linarith [(hF x hx j).1]) hp.le
  simp only [Bool.false_eq_true, if_false, axisHeight, if_neg (hb j).ne, if_pos h0, if_true]
  constructor
  · intro h
    have : ⌊(x j - b.1 j) / (b.2 j - b.1 j)⌋ = 0 := Int.floor_eq_zero_iff.2 ⟨h0, by rw [div_lt_one hp]; linarith⟩
    rw [this]; simp
  · intro h
    rw [h, div_self hp.ne']; simp

example : ∀ x ∈ ([![1], ![2], ![3]] : PlotSet 1), ∀ j, (1 : ℝ) ≤ x j ∧ x j ≤ 3 := by
  intro x hx j
  fin_cases j
  simp at hx
  rcases hx with rfl | rfl | rfl <;> norm_num

/-- **C147 (refuted).** The heights cannot be read as values for an array of integers: of the values 1, 2, 3 the one in the middle is drawn at the bottom. -/
theorem C147_integer_refuted :
    ¬ ∀ (data : PlotData 1) (b : AxisBounds 1), stacked data ≠ [] → ∀ out, plotNormalize none false data = some (out, b) →
      Drawn (fun x h => OnAxis false (b.1 0) (b.2 0) (x 0) (h 0)) (data.map (·.2)) out := by
  intro h
  have hs : stacked ([(true, [![1], ![3], ![2]])] : PlotData 1) = ![1] :: [![3], ![2]] := rfl
  have hc : colRange (![1] : Fin 1 → ℝ) [![3], ![2]] = (fun _ => 1, fun _ => 3) := by
    refine Prod.ext ?_ ?_ <;> funext j <;> fin_cases j <;> norm_num [colRange]
  have hn := plots_normalize_own false _ hs
  have := h [(true, [![1], ![3], ![2]])] _ (by simp [stacked]) _ hn
  simp only [Drawn, List.map_cons, List.map_nil, List.forall₂_cons, hc, OnAxis, axisHeight] at this
  obtain ⟨⟨_, _, h3, _⟩, _⟩ := this
  norm_num at h3

/-! ### Parallel coordinates -/

theorem plots_entries_mem {n : ℕ} {l : PlotSet n} {v : ℝ} : v ∈ allEntries l ↔ ∃ x ∈ l, ∃ j, x j = v := by
  simp [allEntries, List.mem_flatMap, List.mem_ofFn]

theorem plots_min_list (l : List ℝ) (a : ℝ) : l.foldl min a ∈ a :: l ∧ ∀ x ∈ a :: l, l.foldl min a ≤ x := by
  induction l generalizing a with
  | nil => simp
  | cons y l ih =>
    obtain ⟨h1, h2⟩ := ih (min a y)
    simp only [List.foldl_cons]
    constructor
    · rcases List.mem_cons.1 h1 with h | h
      · rw [h]; rcases min_choice a y with e | e <;> simp [e]
      · simp [h]
    · intro x hx
      have hm := h2 (min a y) (by simp)
      rcases List.mem_cons.1 hx with rfl | hx
      · exact hm.trans (min_le_left _ _)
      · rcases List.mem_cons.1 hx with rfl | hx
        · exact hm.trans (min_le_right _ _)
        · exact h2 x (by simp [hx])

theorem plots_max_list (l : List ℝ) (a : ℝ) : l.foldl max a ∈ a :: l ∧ ∀ x ∈ a :: l, x ≤ l.foldl max a := by
  induction l generalizing a with
  | nil => simp
  | cons y l ih =>
    obtain ⟨h1, h2⟩ := ih (max a y)
    simp only [List.foldl_cons]
    constructor
    · rcases List.mem_cons.1 h1 with h | h
      · rw [h]; rcases max_choice a y with e | e <;> simp [e]
      · simp [h]
    · intro x hx
      have hm := h2 (max a y) (by simp)
      rcases List.mem_cons.1 hx with rfl | hx
      · exact (le_max_left _ _).trans hm
      · rcases List.mem_cons.1 hx with rfl | hx
        · exact (le_max_right _ _).trans hm
        · exact h2 x (by simp [hx])

/-- **C147 (parallel coordinates).** On the first drawing without bounds and with `normalize_each_axis=False`, all axes have the same scale: from the smallest to the largest of all numbers that were added;
every number is drawn at the height that is read as that number. With `normalize_each_axis=True` the axes are those of `C147_own_range` / `C147_given_bounds`, and the object stays as it is. -/
theorem C147_pcp {n : ℕ} (data : PlotData n) (hf : ∀ F ∈ data, F.1 = false) :
    (stacked data ≠ [] → 0 < n → ∃ out lo up, (pcpDo false ⟨none, data⟩ = some ((out, (fun _ => lo, fun _ => up)), ⟨some (.flat lo up), data⟩)) ∧
      RangeOf (fun v => ∃ x ∈ stacked data, ∃ j, x j = v) lo up ∧
      Drawn (fun x h => ∀ j, 0 ≤ h j ∧ h j ≤ 1 ∧ OnAxis false lo up (x j) (h j)) (data.map (·.2)) out) ∧
    (∀ u, pcpDo true ⟨u, data⟩ = (plotNormalize (u.map parseBounds) false data).map fun r => (r, ⟨u, data⟩)) ∧
    ∀ u each, pcpDo each ⟨some u, data⟩ = (plotNormalize (some (parseBounds u)) false data).map fun r => (r, ⟨some u, data⟩) := by
  refine ⟨?_, ?_, ?_⟩
  · intro hd hn
    obtain ⟨r, l, hs⟩ : ∃ r l, stacked data = r :: l := List.exists_cons_of_ne_nil hd
    have hne : allEntries (stacked data) ≠ [] := by
      intro h
      have : r ⟨0, hn⟩ ∈ allEntries (stacked data) := plots_entries_mem.2 ⟨r, by simp [hs], ⟨0, hn⟩, rfl⟩
      rw [h] at this; simp at this
    obtain ⟨v, w, hv⟩ : ∃ v w, allEntries (stacked data) = v :: w := List.exists_cons_of_ne_nil hne
    obtain ⟨m1, m2⟩ := plots_min_list w v
    obtain ⟨M1, M2⟩ := plots_max_list w v
    rw [← hv] at m1 m2 M1 M2
    have hdn : data ≠ [] := by rintro rfl; simp [stacked] at hd
    have hle : w.foldl min v ≤ w.foldl max v := m2 _ M1
    refine ⟨data.map fun F => F.2.map fun x j => if false = true then 1 - axisHeight F.1 (w.foldl min v) (w.foldl max v) (x j) else axisHeight F.1 (w.foldl min v) (w.foldl max v) (x j),
      w.foldl min v, w.foldl max v, ?_, ⟨plots_entries_mem.1 m1, plots_entries_mem.1 M1, ?_⟩, ?_⟩
    · have := plots_normalize_given (n := n) (fun _ => w.foldl min v, fun _ => w.foldl max v) false data hdn (fun _ => hle)
      simp only [pcpDo, hv, Option.bind_eq_bind, Option.bind_some, Option.map_some, parseBounds, this]
    · intro x hx
      exact ⟨m2 x (plots_entries_mem.2 hx), M2 x (plots_entries_mem.2 hx)⟩
    · refine plots_drawn (f := fun i x j => if false = true then 1 - axisHeight i (w.foldl min v) (w.foldl max v) (x j) else axisHeight i (w.foldl min v) (w.foldl max v) (x j)) ?_
      intro F hF x hx j
      have hin : x j ∈ allEntries (stacked data) := plots_entries_mem.2 ⟨x, plots_mem_stacked hF hx, j, rfl⟩
      have hu := plots_height_unit (m2 _ hin) (M2 _ hin)
      rw [hf F hF]
      simp only [Bool.false_eq_true, if_false]
      refine ⟨hu.1, hu.2, plots_height_axis ?_⟩
      by_cases e : w.foldl min v = w.foldl max v
      · right; exact le_antisymm (e ▸ M2 _ hin) (m2 _ hin)
      · left; exact e
  · intro u
    simp only [pcpDo, Option.bind_eq_bind, Option.bind_some]
    cases plotNormalize (u.map parseBounds) false data <;> rfl
  · intro u each
    cases each <;> simp only [pcpDo, Option.bind_eq_bind, Option.bind_some, Option.map_some] <;> cases plotNormalize (some (parseBounds u)) false data <;> rfl

example : stacked ([(false, [![0, 1], ![2, 1]])] : PlotData 2) ≠ [] := by simp [stacked]

/-- **C147 (refuted).** With `normalize_each_axis=False` the scale of the first drawing stays: a larger value that is added afterwards is drawn outside the axes. -/
theorem C147_stale_refuted :
    ¬ ∀ (n : ℕ) (data new : PlotData n) r s, pcpDo false ⟨none, data⟩ = some (r, s) → ∀ r' s', pcpDo false ⟨s.bounds, data ++ new⟩ = some (r', s') →
      ∀ F ∈ r'.1, ∀ h ∈ F, ∀ j, 0 ≤ h j ∧ h j ≤ 1 := by
  intro H
  have hb : ∀ j : Fin 1, (fun _ : Fin 1 => (0 : ℝ)) j ≤ (fun _ : Fin 1 => (1 : ℝ)) j := fun _ => zero_le_one
  have e1 : pcpDo false ⟨none, ([(false, [![0], ![1]])] : PlotData 1)⟩ =
      some (([(false, [![0], ![1]])].map fun F : Bool × PlotSet 1 => F.2.map fun x j => if false = true then 1 - axisHeight F.1 0 1 (x j) else axisHeight F.1 0 1 (x j), (fun _ => 0, fun _ => 1)),
        ⟨some (.flat 0 1), [(false, [![0], ![1]])]⟩) := by
    have := plots_normalize_given (n := 1) (fun _ => 0, fun _ => 1) false [(false, [![0], ![1]])] (by simp) hb
    have ha : allEntries (stacked ([(false, [![0], ![1]])] : PlotData 1)) = [0, 1] := by simp [allEntries, stacked]
    simp only [pcpDo, ha, Option.bind_eq_bind, Option.bind_some, Option.map_some, parseBounds, List.foldl_cons, List.foldl_nil, min_eq_left (zero_le_one' ℝ), max_eq_right (zero_le_one' ℝ), this]
  have e2 := plots_normalize_given (n := 1) (fun _ => 0, fun _ => 1) false ([(false, [![0], ![1]])] ++ [(false, [![2]])]) (by simp) hb
  have e3 := (C147_pcp (n := 1) ([(false, [![0], ![1]])] ++ [(false, [![2]])]) (by simp)).2.2 (.flat 0 1) false
  rw [show parseBounds (UserBounds.flat 0 1 : UserBounds 1) = (fun _ => 0, fun _ => 1) from rfl, e2] at e3
  have := H 1 _ [(false, [![2]])] _ _ e1 _ _ e3 _ (by
    simp only [List.cons_append, List.nil_append, List.map_cons, List.map_nil]
    exact List.mem_cons_of_mem _ (List.mem_cons_self)) _ (List.mem_cons_self) 0
  norm_num [axisHeight] at this

/-! ### Radviz and star coordinates -/

theorem plots_circle_norm (n i : ℕ) : (circlePoint n i).1 ^ 2 + (circlePoint n i).2 ^ 2 = 1 := by
  simp only [circlePoint]; rw [add_comm]; exact Real.sin_sq_add_cos_sq _

/-- **C147 (Radviz).** A solution with non-negative values that are not all zero is drawn inside the circle, at the average of the anchors of the objectives weighted by its values (the anchors lie on the
circle at equal angles, the first one to the right); scaling the solution does not move the point; if all other objectives are zero, it is drawn at the anchor. The point is undefined exactly if the values
sum to zero. -/
theorem C147_radviz {n : ℕ} (F : Fin n → ℝ) :
    (radvizPoint F = none ↔ ∑ i, F i = 0) ∧
    (∀ p, radvizPoint F = some p → ∃ w : Fin n → ℝ, ∑ i, w i = 1 ∧ (∀ i, w i * ∑ k, F k = F i) ∧ p.1 = ∑ i, w i * Real.cos (2 * Real.pi * (i : ℕ) / n) ∧ p.2 = ∑ i, w i * Real.sin (2 * Real.pi * (i : ℕ) / n)) ∧
    (∀ p, (∀ i, 0 ≤ F i) → radvizPoint F = some p → p.1 ^ 2 + p.2 ^ 2 ≤ 1) ∧
    (∀ c : ℝ, c ≠ 0 → radvizPoint (fun i => c * F i) = radvizPoint F) ∧
    ∀ k, F k ≠ 0 → (∀ i, i ≠ k → F i = 0) → radvizPoint F = some (Real.cos (2 * Real.pi * (k : ℕ) / n), Real.sin (2 * Real.pi * (k : ℕ) / n)) := by
  have hsome : ∀ p, radvizPoint F = some p → ∑ i, F i ≠ 0 ∧ p = ((∑ i, F i * (circlePoint n i).1) / ∑ i, F i, (∑ i, F i * (circlePoint n i).2) / ∑ i, F i) := by
    intro p hp
    unfold radvizPoint at hp
    split_ifs at hp with h
    exact ⟨h, by simpa using hp.symm⟩
  refine ⟨?_, ?_, ?_, ?_, ?_⟩
  · unfold radvizPoint; split_ifs with h <;> simp [h]
  · intro p hp
    obtain ⟨h0, rfl⟩ := hsome p hp
    refine ⟨fun i => F i / ∑ k, F k, ?_, ?_, ?_, ?_⟩
    · rw [← Finset.sum_div, div_self h0]
    · intro i; field_simp
    · simp only [circlePoint]; rw [Finset.sum_div]; exact Finset.sum_congr rfl fun i _ => by ring
    · simp only [circlePoint]; rw [Finset.sum_div]; exact Finset.sum_congr rfl fun i _ => by ring
  · intro p hF hp
    obtain ⟨h0, rfl⟩ := hsome p hp
    have hS : 0 < ∑ i, F i := lt_of_le_of_ne (Finset.sum_nonneg fun i _ => hF i) (Ne.symm h0)
    have e : ∀ g : Fin n → ℝ, (∑ i, F i * g i) ^ 2 ≤ (∑ i, F i) * ∑ i, F i * g i ^ 2 := by
      intro g
      have := Finset.sum_mul_sq_le_sq_mul_sq Finset.univ (fun i => √(F i)) (fun i => √(F i) * g i)
      have a : ∀ i, √(F i) * (√(F i) * g i) = F i * g i := fun i => by rw [← mul_assoc, Real.mul_self_sqrt (hF i)]
      have b : ∀ i, √(F i) ^ 2 = F i := fun i => Real.sq_sqrt (hF i)
      have c : ∀ i, (√(F i) * g i) ^ 2 = F i * g i ^ 2 := fun i => by rw [mul_pow, b]
      simp only [a, b, c] at this
      exact this
    have e1 := e fun i => (circlePoint n i).1
    have e2 := e fun i => (circlePoint n i).2
    have e3 : ∑ i, F i * (circlePoint n i).1 ^ 2 + ∑ i, F i * (circlePoint n i).2 ^ 2 = ∑ i, F i := by
      rw [← Finset.sum_add_distrib]
      exact Finset.sum_congr rfl fun i _ => by rw [← mul_add, plots_circle_norm, mul_one]
    simp only [div_pow]
    rw [← add_div, div_le_one (by positivity)]
    nlinarith
  · intro c hc
    simp only [radvizPoint, ← Finset.mul_sum, mul_assoc]
    by_cases h : ∑ i, F i = 0
    · simp [h]
    · rw [if_neg h, if_neg (mul_ne_zero hc h), mul_div_mul_left _ _ hc, mul_div_mul_left _ _ hc]
  · intro k hk hz
    have hsum : ∀ g : Fin n → ℝ, ∑ i, F i * g i = F k * g k := fun g =>
      Finset.sum_eq_single k (fun i _ hi => by rw [hz i hi, zero_mul]) (by simp)
    have hS : ∑ i, F i = F k := by simpa using hsum fun _ => 1
    simp only [radvizPoint, hS, hsum, if_neg hk, circlePoint]
    rw [mul_div_cancel_left₀ _ hk, mul_div_cancel_left₀ _ hk]

/-- The hypotheses are met. -/
example : (∀ i, 0 ≤ (![1, 3] : Fin 2 → ℝ) i) ∧ (radvizPoint (![1, 3] : Fin 2 → ℝ)) = some (-1 / 2, 0) := by
  refine ⟨fun i => by fin_cases i <;> simp, ?_⟩
  have h : 2 * Real.pi * 1 / 2 = Real.pi := by ring
  norm_num [radvizPoint, Fin.sum_univ_two, circlePoint, h]

/-- **C147 (refuted).** A solution with a negative value can be drawn outside the circle. -/
theorem C147_radviz_refuted : ¬ ∀ (n : ℕ) (F : Fin n → ℝ) p, radvizPoint F = some p → p.1 ^ 2 + p.2 ^ 2 ≤ 1 := by
  intro H
  have h : 2 * Real.pi * 1 / 2 = Real.pi := by ring
  have e : radvizPoint (![2, -1] : Fin 2 → ℝ) = some (3, 0) := by
    norm_num [radvizPoint, Fin.sum_univ_two, circlePoint, h]
  have := H 2 _ _ e
  norm_num at this

/-- The directions of the axes cancel. -/
theorem plots_directions_cancel {n : ℕ} (hn : 2 ≤ n) : ∑ i : Fin n, Real.cos (2 * Real.pi * (i : ℕ) / n) = 0 ∧ ∑ i : Fin n, Real.sin (2 * Real.pi * (i : ℕ) / n) = 0 := by
  have hp := (Complex.isPrimitiveRoot_exp n (by omega)).geom_sum_eq_zero (by omega)
  have he : ∀ i : ℕ, Complex.exp (2 * Real.pi * Complex.I / n) ^ i = ⟨Real.cos (2 * Real.pi * i / n), Real.sin (2 * Real.pi * i / n)⟩ := by
    intro i
    rw [← Complex.exp_nat_mul]
    have : (i : ℂ) * (2 * Real.pi * Complex.I / n) = ((2 * Real.pi * i / n : ℝ) : ℂ) * Complex.I := by
      push_cast; ring
    rw [this]
    apply Complex.ext
    · rw [Complex.exp_ofReal_mul_I_re]
    · rw [Complex.exp_ofReal_mul_I_im]
  simp only [he] at hp
  have hr := congrArg Complex.re hp
  have hi := congrArg Complex.im hp
  simp only [Complex.re_sum, Complex.im_sum, Complex.zero_re, Complex.zero_im] at hr hi
  rw [← Fin.sum_univ_eq_sum_range (fun i => Real.cos (2 * Real.pi * i / n))] at hr
  rw [← Fin.sum_univ_eq_sum_range (fun i => Real.sin (2 * Real.pi * i / n))] at hi
  exact ⟨hr, hi⟩

/-- **C147 (star coordinates).** The point of a solution is the sum of its heights along the directions of the axes. With two or more objectives, adding the same amount to all heights does not move the
point: the best and the worst corner are both drawn in the centre. With three objectives this is the only case: two solutions are drawn at the same place exactly if their heights differ by a constant. -/
theorem C147_star {n : ℕ} (hn : 2 ≤ n) :
    (∀ h : Fin n → ℝ, starPoint h = (∑ i, h i * Real.cos (2 * Real.pi * (i : ℕ) / n), ∑ i, h i * Real.sin (2 * Real.pi * (i : ℕ) / n))) ∧
    (∀ (h : Fin n → ℝ) (c : ℝ), starPoint (fun i => h i + c) = starPoint h) ∧ starPoint (fun _ : Fin n => (0 : ℝ)) = (0, 0) ∧ starPoint (fun _ : Fin n => (1 : ℝ)) = (0, 0) ∧
    ∀ h h' : Fin 3 → ℝ, starPoint h = starPoint h' ↔ ∃ c, ∀ i, h' i = h i + c := by
  have hshift : ∀ (m : ℕ), 2 ≤ m → ∀ (h : Fin m → ℝ) (c : ℝ), starPoint (fun i => h i + c) = starPoint h := by
    intro m hm h c
    obtain ⟨h1, h2⟩ := plots_directions_cancel hm
    simp only [starPoint, circlePoint, add_mul, Finset.sum_add_distrib, ← Finset.mul_sum, h1, h2, mul_zero, add_zero]
  have h0 : starPoint (fun _ : Fin n => (0 : ℝ)) = (0, 0) := by simp [starPoint]
  refine ⟨fun h => rfl, hshift n hn, h0, ?_, ?_⟩
  · have := hshift n hn (fun _ => 0) 1
    simpa [h0] using this
  · intro h h'
    constructor
    · intro e
      have c1 : Real.cos (2 * Real.pi / 3) = -1 / 2 := by
        rw [show 2 * Real.pi / 3 = Real.pi - Real.pi / 3 by ring, Real.cos_pi_sub, Real.cos_pi_div_three]; ring
      have s1 : Real.sin (2 * Real.pi / 3) = √3 / 2 := by
        rw [show 2 * Real.pi / 3 = Real.pi - Real.pi / 3 by ring, Real.sin_pi_sub, Real.sin_pi_div_three]
      have c2 : Real.cos (2 * Real.pi * 2 / 3) = -1 / 2 := by
        rw [show 2 * Real.pi * 2 / 3 = Real.pi / 3 + Real.pi by ring, Real.cos_add_pi, Real.cos_pi_div_three]; ring
      have s2 : Real.sin (2 * Real.pi * 2 / 3) = -(√3 / 2) := by
        rw [show 2 * Real.pi * 2 / 3 = Real.pi / 3 + Real.pi by ring, Real.sin_add_pi, Real.sin_pi_div_three]
      have hp : ∀ g : Fin 3 → ℝ, starPoint g = (g 0 - g 1 / 2 - g 2 / 2, √3 / 2 * (g 1 - g 2)) := by
        intro g
        simp only [starPoint, Fin.sum_univ_three, circlePoint]
        norm_num
        rw [c1, c2, s1, s2]
        constructor <;> ring
      rw [hp, hp, Prod.mk.injEq] at e
      have hs : (√3 : ℝ) ≠ 0 := by positivity
      have e2 : h 1 - h 2 = h' 1 - h' 2 := by
        have := e.2
        have h3 : (√3 / 2 : ℝ) ≠ 0 := by positivity
        exact mul_left_cancel₀ h3 this
      refine ⟨h' 0 - h 0, fun i => ?_⟩
      fin_cases i
      · simp
      · simp; linarith [e.1]
      · simp; linarith [e.1]
    · rintro ⟨c, hc⟩
      have : h' = fun i => h i + c := funext hc
      rw [this, hshift 3 (by norm_num)]

/-- **C147 (refuted).** With two objectives different solutions of one picture coincide: the best corner, the worst one and the middle. -/
theorem C147_star_refuted :
    ¬ ∀ (x y : Fin 2 → ℝ) b out, starDo (some b) [(false, [x, y])] = some out → x ≠ y → ∀ p q, out = [[p, q]] → p ≠ q := by
  intro H
  have hn := plots_normalize_given (n := 2) (parseBounds (.flat 0 1)) false [(false, [fun _ => 0, fun _ => 1])] (by simp) (by intro j; simp [parseBounds])
  have e : starDo (some (.flat 0 1)) ([(false, [fun _ => 0, fun _ => 1])] : PlotData 2) = some [[starPoint fun _ : Fin 2 => (0 : ℝ), starPoint fun _ : Fin 2 => (1 : ℝ)]] := by
    simp only [starDo, Option.map_some, hn, Option.bind_eq_bind, Option.bind_some, List.map_cons, List.map_nil]
    norm_num [axisHeight, parseBounds]
  obtain ⟨_, _, h0, h1, _⟩ := C147_star (n := 2) le_rfl
  refine H (fun _ => 0) (fun _ => 1) _ _ e (fun h => ?_) _ _ rfl (h0.trans h1.symm)
  have := congrFun h 0
  norm_num at this

/-! ### Radar and petal -/

theorem plots_radar_some {n : ℕ} (each rev : Bool) (u : UserBounds (n + 1)) (data : PlotData (n + 1)) :
    (radarDo each rev (some u) data).isSome ↔ data ≠ [] ∧ (∀ j, (parseBounds u).1 j ≤ (parseBounds u).2 j) ∧ ∀ x ∈ stacked data, ∀ j, (parseBounds u).1 j ≤ x j ∧ x j ≤ (parseBounds u).2 j := by
  classical
  have key : (plotNormalize (some (parseBounds u)) rev data).isSome ↔ data ≠ [] ∧ ∀ j, (parseBounds u).1 j ≤ (parseBounds u).2 j := by
    by_cases hd : data = []
    · simp [plotNormalize, hd]
    · by_cases hb : ∀ j, (parseBounds u).1 j ≤ (parseBounds u).2 j
      · simp [plotNormalize, hd, hb]
      · simp [plotNormalize, hd, hb]
  simp only [radarDo, Option.bind_eq_bind, Option.bind_some]
  split_ifs with h
  · simp only [Option.isSome_none, Bool.false_eq_true, false_iff, not_and]
    intro _ _ hc
    obtain ⟨x, hx, j, hj⟩ := h
    rcases hj with hj | hj
    · exact absurd (hc x hx j).1 (not_le.2 hj)
    · exact absurd (hc x hx j).2 (not_le.2 hj)
  · rw [Option.isSome_bind]
    have : (∀ x ∈ stacked data, ∀ j, (parseBounds u).1 j ≤ x j ∧ x j ≤ (parseBounds u).2 j) := by
      intro x hx j
      push Not at h
      exact h x hx j
    rw [← and_assoc, and_iff_left this, ← key]
    cases plotNormalize (some (parseBounds u)) rev data <;> simp

theorem plots_top {n : ℕ} (b : AxisBounds (n + 1)) : (∃ j, b.2 j = topBound b) ∧ ∀ j, b.2 j ≤ topBound b := by
  obtain ⟨h1, h2⟩ := plots_max_list (List.ofFn fun i : Fin n => b.2 i.succ) (b.2 0)
  have hm : ∀ v, v ∈ b.2 0 :: (List.ofFn fun i : Fin n => b.2 i.succ) ↔ ∃ j, b.2 j = v := by
    intro v
    simp only [List.mem_cons, List.mem_ofFn, Fin.exists_fin_succ, eq_comm]
  exact ⟨(hm _).1 h1, fun j => h2 _ ((hm _).2 ⟨j, rfl⟩)⟩

/-- **C147 (radar).** Drawing succeeds exactly if bounds are given that are in order and contain every value. With `normalize_each_objective=True` the corner of a solution on an axis lies at the distance
from the centre that is the height of its value between the bounds; with `False` and lower bounds zero, at the distance value / (largest upper bound), so that the axes have one scale. -/
theorem C147_radar {n : ℕ} (rev : Bool) (u : UserBounds (n + 1)) (data : PlotData (n + 1)) (hf : ∀ F ∈ data, F.1 = false) :
    (∀ each, radarDo each rev none data = none) ∧
    (∀ each, (radarDo each rev (some u) data).isSome ↔ data ≠ [] ∧ (∀ j, (parseBounds u).1 j ≤ (parseBounds u).2 j) ∧ ∀ x ∈ stacked data, ∀ j, (parseBounds u).1 j ≤ x j ∧ x j ≤ (parseBounds u).2 j) ∧
    (∀ out, radarDo true rev (some u) data = some out →
      Drawn (fun x r => ∀ j, (parseBounds u).1 j < (parseBounds u).2 j → 0 ≤ r j ∧ r j ≤ 1 ∧ OnAxis rev ((parseBounds u).1 j) ((parseBounds u).2 j) (x j) (r j)) (data.map (·.2)) out) ∧
    ∀ out, (∀ j, (parseBounds u).1 j = 0 ∧ 0 < (parseBounds u).2 j) → radarDo false false (some u) data = some out →
      ∃ top, (∃ j, (parseBounds u).2 j = top) ∧ (∀ j, (parseBounds u).2 j ≤ top) ∧ Drawn (fun x r => ∀ j, r j * top = x j) (data.map (·.2)) out := by
  refine ⟨?_, fun each => plots_radar_some each rev u data, ?_, ?_⟩
  · intro each; simp [radarDo]
  · intro out h
    obtain ⟨hd, hb, hin⟩ := (plots_radar_some true rev u data).1 (by rw [h]; rfl)
    have hno : ¬ ∃ x ∈ stacked data, ∃ j, x j < (parseBounds u).1 j ∨ (parseBounds u).2 j < x j := by
      push Not; intro x hx j; exact hin x hx j
    simp only [radarDo, Option.bind_eq_bind, Option.bind_some, if_neg hno, plots_normalize_given _ _ _ hd hb, Option.some.injEq, List.map_map] at h
    subst h
    have H := plots_drawn (data := data) (f := fun i x k => 0 + (if rev then 1 - axisHeight i ((parseBounds u).1 k) ((parseBounds u).2 k) (x k) else axisHeight i ((parseBounds u).1 k) ((parseBounds u).2 k) (x k)) * (1 - 0))
      (R := fun x r => ∀ j, (parseBounds u).1 j < (parseBounds u).2 j → 0 ≤ r j ∧ r j ≤ 1 ∧ OnAxis rev ((parseBounds u).1 j) ((parseBounds u).2 j) (x j) (r j)) (by
      intro F hF x hx j hlt
      rw [hf F hF]
      simp only [zero_add, sub_zero, mul_one]
      have ho := plots_drawn_height (rev := rev) (x := x j) (Or.inl hlt.ne)
      have := (plots_axis_inside hlt ho).2 (hin x (plots_mem_stacked hF hx) j)
      exact ⟨this.1, this.2, ho⟩)
    convert H using 2
    funext F
    simp [Function.comp, radarAxis]
  · intro out hz h
    obtain ⟨hd, hb, hin⟩ := (plots_radar_some false false u data).1 (by rw [h]; rfl)
    have hno : ¬ ∃ x ∈ stacked data, ∃ j, x j < (parseBounds u).1 j ∨ (parseBounds u).2 j < x j := by
      push Not; intro x hx j; exact hin x hx j
    simp only [radarDo, Option.bind_eq_bind, Option.bind_some, if_neg hno, plots_normalize_given _ _ _ hd hb, Option.some.injEq, List.map_map] at h
    subst h
    obtain ⟨t1, t2⟩ := plots_top (parseBounds u)
    refine ⟨topBound (parseBounds u), t1, t2, ?_⟩
    have htop : 0 < topBound (parseBounds u) := lt_of_lt_of_le (hz 0).2 (t2 0)
    have H := plots_drawn (data := data) (f := fun i x k => (parseBounds u).1 k + (if false = true then 1 - axisHeight i ((parseBounds u).1 k) ((parseBounds u).2 k) (x k) else axisHeight i ((parseBounds u).1 k) ((parseBounds u).2 k) (x k)) * ((parseBounds u).2 k / topBound (parseBounds u) - (parseBounds u).1 k))
      (R := fun x r => ∀ j, r j * topBound (parseBounds u) = x j) (by
      intro F hF x hx j
      rw [hf F hF]
      have hu := (hz j).2
      simp only [Bool.false_eq_true, if_false, plots_height_float, (hz j).1, if_neg hu.ne]
      have hu' := hu.ne'
      have ht' := htop.ne'
      generalize (parseBounds u).2 j = a at *
      generalize topBound (parseBounds u) = t at *
      field_simp
      ring)
    convert H using 2
    funext F
    simp [Function.comp, radarAxis]

/-- **C147 (refuted).** With `normalize_each_objective=False` and the bounds (1, 2) all solutions are drawn at the same place: the inner end of the axes is not divided by the largest bound. -/
theorem C147_radar_refuted :
    ¬ ∀ (x y : Fin 2 → ℝ) u out, radarDo false false (some u) [(false, [x, y])] = some out → x ≠ y → ∀ p q, out = [[p, q]] → p ≠ q := by
  intro H
  have hb : ∀ j, (parseBounds (.flat 1 2) : AxisBounds 2).1 j ≤ (parseBounds (.flat 1 2) : AxisBounds 2).2 j := by intro j; norm_num [parseBounds]
  have hn := plots_normalize_given (n := 2) (parseBounds (.flat 1 2)) false [(false, [fun _ => 1, fun _ => 2])] (by simp) hb
  have hno : ¬ ∃ x ∈ stacked ([(false, [fun _ => 1, fun _ => 2])] : PlotData 2), ∃ j, x j < (parseBounds (.flat 1 2) : AxisBounds 2).1 j ∨ (parseBounds (.flat 1 2) : AxisBounds 2).2 j < x j := by
    norm_num [stacked, parseBounds]
  have e : radarDo false false (some (.flat 1 2)) ([(false, [fun _ => 1, fun _ => 2])] : PlotData 2) = some [[fun _ => 1, fun _ => 1]] := by
    simp only [radarDo, Option.bind_eq_bind, Option.bind_some, if_neg hno, hn, List.map_cons, List.map_nil]
    norm_num [radarAxis, topBound, parseBounds, axisHeight]
  refine H (fun _ => 1) (fun _ => 2) _ _ e (fun h => ?_) _ _ rfl rfl
  have := congrFun h 0
  norm_num at this

/-- **C147 (petal).** Every objective has a petal: a sector with a share of the circle that is the same for all objectives, one after the other from angle 0 to 2π; its radius is the height of the objective. Drawing
raises exactly if there are more objectives than colours. -/
theorem C147_petal {n : ℕ} (colors : ℕ) (h : Fin n → ℝ) :
    (petals colors h = none ↔ colors < n) ∧
    ∀ P, petals colors h = some P → P.length = n ∧ ∀ i (hi : i < n), ∃ a b, P[i]? = some ((a, b), h ⟨i, hi⟩) ∧ b - a = 2 * Real.pi / n ∧ (i = 0 → a = 0) ∧ (i + 1 = n → b = 2 * Real.pi) ∧
      ∀ a' b' r, P[i + 1]? = some ((a', b'), r) → a' = b := by
  refine ⟨?_, ?_⟩
  · unfold petals; split_ifs with hc <;> simp [hc] <;> omega
  · intro P hP
    unfold petals at hP
    split_ifs at hP with hc
    simp only [Option.some.injEq] at hP
    subst hP
    refine ⟨by simp, fun i hi => ?_⟩
    have hn : (n : ℝ) ≠ 0 := by
      have : 0 < n := by omega
      positivity
    refine ⟨2 * Real.pi * i / n, 2 * Real.pi * (i + 1) / n, ?_, ?_, ?_, ?_, ?_⟩
    · rw [List.getElem?_ofFn]; simp [hi]
    · field_simp; ring
    · rintro rfl; simp
    · intro e
      have : ((i : ℝ) + 1) = n := by exact_mod_cast e
      rw [this]; field_simp
    · intro a' b' r h'
      rw [List.getElem?_ofFn] at h'
      split_ifs at h' with hj
      simp only [Option.some.injEq, Prod.mk.injEq] at h'
      rw [← h'.1.1]
      push_cast
      ring

example : petals 10 (fun _ : Fin 10 => (1 : ℝ)) ≠ none := by simp [petals]

end Props
