import Verif.Model.Indicators
import Mathlib.Tactic.Linarith
import Mathlib.Tactic.Positivity
import Mathlib.Data.List.MinMax
import Mathlib.Order.ConditionallyCompleteLattice.Finset
import Mathlib.Data.List.Forall2
import Mathlib.Data.List.Sort

set_option linter.unusedSimpArgs false
set_option linter.unusedVariables false
set_option linter.unusedSectionVars false

namespace Lemmas
open Model Spec

/-! ### numpy array functions -/

theorem zipWith_repeat_tile {P R : Type*} (f : P → P → R) (B : List P) : ∀ (A : List P),
    List.zipWith f (npRepeat A B.length) (npTile B A.length) = A.flatMap fun a => B.map (f a)
  | [] => by simp [npRepeat, npTile]
  | a :: A => by
    have ih := zipWith_repeat_tile f B A
    simp only [npRepeat, npTile, List.flatMap_cons, List.length_cons, List.replicate_succ, List.flatten_cons] at ih ⊢
    rw [List.zipWith_append (by simp)]
    congr 1
    apply List.ext_getElem <;> simp

theorem reshape_flatMap {P R : Type*} (g : P → List R) (c : ℕ) : ∀ (A : List P), (∀ a ∈ A, (g a).length = c) →
    npReshape (A.flatMap g) A.length c = A.map g
  | [], _ => by simp [npReshape]
  | a :: A, h => by
    have ih := reshape_flatMap g c A (fun b hb => h b (List.mem_cons_of_mem _ hb))
    have ha := h a List.mem_cons_self
    simp only [npReshape, List.flatMap_cons, List.length_cons, List.map_cons, List.range_succ_eq_map, List.map_map] at ih ⊢
    congr 1
    · simp [← ha]
    · rw [← ih]
      apply List.map_congr_left
      intro i _
      simp only [Function.comp, Nat.succ_mul]
      rw [List.drop_append, List.drop_eq_nil_of_le (by omega)]
      simp [ha]

theorem vcdist_eq {P R : Type*} (f : P → P → R) (A B : List P) : vcdist f A B = A.map fun a => B.map (f a) := by
  unfold vcdist
  rw [zipWith_repeat_tile, reshape_flatMap _ _ _ (by simp)]

/-! ### smallest values -/

theorem min?_eq_least {P : Type*} (f : P → ℝ) (S : List P) (h : S ≠ []) : (S.map f).min? = some (least f S) := by
  cases hm : (S.map f).min? with
  | none => simp [List.min?_eq_none_iff] at hm; exact absurd hm h
  | some v =>
    have hv := (List.min?_eq_some_iff).1 hm
    congr 1
    symm
    apply IsLeast.csInf_eq
    constructor
    · have := hv.1
      simp only [List.mem_map] at this
      obtain ⟨a, ha, he⟩ := this
      exact ⟨a, ha, he.symm⟩
    · rintro r ⟨a, ha, rfl⟩
      exact hv.2 _ (List.mem_map_of_mem ha)

theorem least_isLeast {P : Type*} (f : P → ℝ) (S : List P) (h : S ≠ []) : IsLeast {r | ∃ a ∈ S, r = f a} (least f S) := by
  have hm := min?_eq_least f S h
  have hv := (List.min?_eq_some_iff).1 hm
  constructor
  · have := hv.1
    simp only [List.mem_map] at this
    obtain ⟨a, ha, he⟩ := this
    exact ⟨a, ha, he.symm⟩
  · rintro r ⟨a, ha, rfl⟩
    exact hv.2 _ (List.mem_map_of_mem ha)

theorem least_le {P : Type*} (f : P → ℝ) {S : List P} {a : P} (h : a ∈ S) : least f S ≤ f a :=
  (least_isLeast f S (List.ne_nil_of_mem h)).2 ⟨a, h, rfl⟩

theorem least_mem {P : Type*} (f : P → ℝ) {S : List P} (h : S ≠ []) : ∃ a ∈ S, least f S = f a :=
  (least_isLeast f S h).1

theorem mapM_min_eq {P Q : Type*} (f : P → Q → ℝ) (A : List P) (B : List Q) (h : B ≠ []) :
    A.mapM (fun a => (B.map (f a)).min?) = some (A.map fun a => least (f a) B) := by
  induction A with
  | nil => rfl
  | cons a A ih => simp [List.mapM_cons, ih, min?_eq_least (f a) B h]

theorem minAxis_true {P Q : Type*} (f : P → Q → ℝ) (A : List P) (B : List Q) (h : B ≠ []) :
    minAxis true B.length (A.map fun a => B.map (f a)) = some (A.map fun a => least (f a) B) := by
  unfold minAxis
  rw [if_pos rfl, ← mapM_min_eq f A B h, List.mapM_map]
  rfl

theorem mapM_range_getElem {Q : Type*} (g : Q → Option ℝ) (B : List Q) (G : ℕ → Option ℝ)
    (h : ∀ (j : ℕ) (hj : j < B.length), G j = g B[j]) : (List.range B.length).mapM G = B.mapM g := by
  induction B using List.reverseRecOn with
  | nil => rfl
  | append_singleton B b ih =>
    rw [List.length_append, List.length_singleton, List.range_succ, List.mapM_append, List.mapM_append]
    have hb := h B.length (by simp)
    simp only [List.getElem_concat_length] at hb
    rw [ih (fun j hj => by rw [h j (by simp; omega)]; simp [List.getElem_append_left hj])]
    simp [List.mapM_cons, hb]

theorem minAxis_false {P Q : Type*} (f : P → Q → ℝ) (A : List P) (B : List Q) (h : A ≠ []) :
    minAxis false B.length (A.map fun a => B.map (f a)) = some (B.map fun b => least (fun a => f a b) A) := by
  unfold minAxis
  simp only [Bool.false_eq_true, if_false]
  rw [mapM_range_getElem (fun b => (A.map (fun a => f a b)).min?)]
  · exact mapM_min_eq (fun b a => f a b) B A h
  · intro j hj
    congr 1
    induction A with
    | nil => rfl
    | cons a A ih =>
      simp only [List.map_cons, List.filterMap_cons, List.getElem?_map]
      simp only [List.getElem?_eq_getElem hj, Option.map_some]
      by_cases hA : A = []
      · subst hA; rfl
      · rw [ih hA]

theorem npMean_eq {l : List ℝ} (h : l ≠ []) : npMean l = some (avg l) := by
  unfold npMean avg
  simp [h]

/-! ### averages -/

theorem avg_nonneg {l : List ℝ} (h : ∀ x ∈ l, 0 ≤ x) : 0 ≤ avg l :=
  div_nonneg (List.sum_nonneg h) (Nat.cast_nonneg _)

theorem avg_map_le {P : Type*} (f g : P → ℝ) (S : List P) (h : ∀ a ∈ S, f a ≤ g a) : avg (S.map f) ≤ avg (S.map g) := by
  unfold avg
  simp only [List.length_map]
  exact div_le_div_of_nonneg_right (List.sum_le_sum h) (Nat.cast_nonneg _)

theorem sum_eq_zero_iff_nonneg : ∀ (l : List ℝ), (∀ x ∈ l, 0 ≤ x) → (l.sum = 0 ↔ ∀ x ∈ l, x = 0)
  | [], _ => by simp
  | a :: l, h => by
    have h1 : 0 ≤ l.sum := List.sum_nonneg fun x hx => h x (List.mem_cons_of_mem _ hx)
    have h2 := h a List.mem_cons_self
    have ih := sum_eq_zero_iff_nonneg l fun x hx => h x (List.mem_cons_of_mem _ hx)
    simp only [List.sum_cons, List.mem_cons, forall_eq_or_imp]
    rw [← ih]
    constructor
    · intro hs; constructor <;> linarith
    · rintro ⟨r1, r2⟩; rw [r1, r2]; ring

theorem avg_eq_zero_iff {l : List ℝ} (hl : l ≠ []) (h : ∀ x ∈ l, 0 ≤ x) : avg l = 0 ↔ ∀ x ∈ l, x = 0 := by
  unfold avg
  rw [div_eq_zero_iff, sum_eq_zero_iff_nonneg l h]
  have : (l.length : ℝ) ≠ 0 := by simp [hl]
  simp [this]

/-! ### distances -/

variable {m : ℕ}

theorem indEuclid_eq : @indEuclid m = @euclid m := rfl

theorem indModified_eq : @indModified m = @plusDist m := by
  funext s z a
  unfold indModified plusDist
  congr 1
  apply Finset.sum_congr rfl
  intro k _
  congr 2
  split_ifs with h
  · rw [max_eq_right h.le]
  · rw [max_eq_left (not_lt.1 h)]

theorem euclid_nonneg (s z a : Fin m → ℝ) : 0 ≤ euclid s z a := Real.sqrt_nonneg _
theorem plusDist_nonneg (s z a : Fin m → ℝ) : 0 ≤ plusDist s z a := Real.sqrt_nonneg _

theorem euclid_eq_zero_iff {s : Fin m → ℝ} (hs : ∀ k, 0 < s k) (z a : Fin m → ℝ) : euclid s z a = 0 ↔ z = a := by
  unfold euclid
  rw [Real.sqrt_eq_zero (Finset.sum_nonneg fun k _ => sq_nonneg _),
    Finset.sum_eq_zero_iff_of_nonneg (fun k _ => sq_nonneg _)]
  constructor
  · intro h
    funext k
    have := h k (Finset.mem_univ k)
    rw [sq_eq_zero_iff, div_eq_zero_iff] at this
    rcases this with h | h
    · linarith
    · exact absurd h (hs k).ne'
  · rintro rfl k _; simp

theorem plusDist_eq_zero_iff {s : Fin m → ℝ} (hs : ∀ k, 0 < s k) (z a : Fin m → ℝ) :
    plusDist s z a = 0 ↔ WeaklyDominates a z := by
  unfold plusDist WeaklyDominates
  rw [Real.sqrt_eq_zero (Finset.sum_nonneg fun k _ => sq_nonneg _),
    Finset.sum_eq_zero_iff_of_nonneg (fun k _ => sq_nonneg _)]
  constructor
  · intro h k
    have := h k (Finset.mem_univ k)
    rw [sq_eq_zero_iff, div_eq_zero_iff] at this
    rcases this with h | h
    · have := le_max_left (a k - z k) 0
      rw [h] at this; linarith
    · exact absurd h (hs k).ne'
  · intro h k _
    have := h k
    rw [max_eq_right (by linarith)]; simp

theorem plusDist_mono {s : Fin m → ℝ} (hs : ∀ k, 0 < s k) {z a b : Fin m → ℝ} (h : WeaklyDominates a b) :
    plusDist s z a ≤ plusDist s z b := by
  unfold plusDist
  apply Real.sqrt_le_sqrt
  apply Finset.sum_le_sum
  intro k _
  have h1 := h k
  have h2 : max (a k - z k) 0 ≤ max (b k - z k) 0 := max_le_max (by linarith) le_rfl
  have h3 : 0 ≤ max (a k - z k) 0 := le_max_right _ _
  have hk := hs k
  apply pow_le_pow_left₀ (by positivity)
  exact div_le_div_of_nonneg_right h2 hk.le

theorem plusDist_le_euclid {s : Fin m → ℝ} (hs : ∀ k, 0 < s k) (z a : Fin m → ℝ) : plusDist s z a ≤ euclid s z a := by
  unfold plusDist euclid
  apply Real.sqrt_le_sqrt
  apply Finset.sum_le_sum
  intro k _
  rw [div_pow, div_pow]
  apply div_le_div_of_nonneg_right _ (sq_nonneg _)
  rcases le_total (a k - z k) 0 with h | h
  · rw [max_eq_right h]; simpa using sq_nonneg (z k - a k)
  · rw [max_eq_left h, ← sq_abs (z k - a k), abs_sub_comm, sq_abs]

/-! ### properties of the specification -/

theorem least_nonneg {P : Type*} {f : P → ℝ} (S : List P) (h : ∀ a, 0 ≤ f a) : 0 ≤ least f S := by
  apply Real.sInf_nonneg
  rintro r ⟨a, _, rfl⟩; exact h a

theorem least_zero_iff {P : Type*} {f : P → ℝ} {S : List P} (hS : S ≠ []) (h : ∀ a, 0 ≤ f a) :
    least f S = 0 ↔ ∃ a ∈ S, f a = 0 := by
  constructor
  · intro h0
    obtain ⟨a, ha, he⟩ := least_mem f hS
    exact ⟨a, ha, by rw [← he, h0]⟩
  · rintro ⟨a, ha, h0⟩
    exact le_antisymm (h0 ▸ least_le f ha) (least_nonneg S h)

theorem least_le_of_forall {P Q : Type*} {f : P → ℝ} {g : Q → ℝ} {S : List P} {T : List Q} (hT : T ≠ [])
    (h : ∀ b ∈ T, ∃ a ∈ S, f a ≤ g b) : least f S ≤ least g T := by
  obtain ⟨b, hb, he⟩ := least_mem g hT
  obtain ⟨a, ha, hle⟩ := h b hb
  rw [he]; exact (least_le f ha).trans hle

/-- The columnwise minimum. -/
theorem ptMin_spec {pf : List (Fin m → ℝ)} {lo : Fin m → ℝ} (h : ptMin pf = some lo) (k : Fin m) :
    IsLeast {r | ∃ p ∈ pf, r = p k} (lo k) := by
  cases pf with
  | nil => simp [ptMin] at h
  | cons p ps =>
    simp only [ptMin, Option.some.injEq] at h
    subst h
    have key : ∀ (ps : List (Fin m → ℝ)) (v : ℝ),
        (ps.foldl (fun a q => min a (q k)) v = v ∨ ∃ q ∈ ps, ps.foldl (fun a q => min a (q k)) v = q k) ∧
        ps.foldl (fun a q => min a (q k)) v ≤ v ∧ ∀ q ∈ ps, ps.foldl (fun a q => min a (q k)) v ≤ q k := by
      intro ps
      induction ps with
      | nil => intro v; simp
      | cons q ps ih =>
        intro v
        obtain ⟨h1, h2, h3⟩ := ih (min v (q k))
        refine ⟨?_, h2.trans (min_le_left _ _), ?_⟩
        · simp only [List.foldl_cons]
          rcases h1 with h1 | ⟨q', hq', h1⟩
          · rcases min_choice v (q k) with hc | hc
            · left; rw [h1, hc]
            · right; exact ⟨q, List.mem_cons_self, by rw [h1, hc]⟩
          · right; exact ⟨q', List.mem_cons_of_mem _ hq', h1⟩
        · intro q' hq'
          rcases List.mem_cons.1 hq' with rfl | hq'
          · exact h2.trans (min_le_right _ _)
          · exact h3 q' hq'
    obtain ⟨h1, h2, h3⟩ := key ps (p k)
    constructor
    · rcases h1 with h1 | ⟨q, hq, h1⟩
      · exact ⟨p, List.mem_cons_self, h1⟩
      · exact ⟨q, List.mem_cons_of_mem _ hq, h1⟩
    · rintro r ⟨q, hq, rfl⟩
      rcases List.mem_cons.1 hq with rfl | hq
      · exact h2
      · exact h3 q hq

theorem ptMax_spec {pf : List (Fin m → ℝ)} {hi : Fin m → ℝ} (h : ptMax pf = some hi) (k : Fin m) :
    IsGreatest {r | ∃ p ∈ pf, r = p k} (hi k) := by
  cases pf with
  | nil => simp [ptMax] at h
  | cons p ps =>
    simp only [ptMax, Option.some.injEq] at h
    subst h
    have key : ∀ (ps : List (Fin m → ℝ)) (v : ℝ),
        (ps.foldl (fun a q => max a (q k)) v = v ∨ ∃ q ∈ ps, ps.foldl (fun a q => max a (q k)) v = q k) ∧
        v ≤ ps.foldl (fun a q => max a (q k)) v ∧ ∀ q ∈ ps, q k ≤ ps.foldl (fun a q => max a (q k)) v := by
      intro ps
      induction ps with
      | nil => intro v; simp
      | cons q ps ih =>
        intro v
        obtain ⟨h1, h2, h3⟩ := ih (max v (q k))
        refine ⟨?_, (le_max_left _ _).trans h2, ?_⟩
        · simp only [List.foldl_cons]
          rcases h1 with h1 | ⟨q', hq', h1⟩
          · rcases max_choice v (q k) with hc | hc
            · left; rw [h1, hc]
            · right; exact ⟨q, List.mem_cons_self, by rw [h1, hc]⟩
          · right; exact ⟨q', List.mem_cons_of_mem _ hq', h1⟩
        · intro q' hq'
          rcases List.mem_cons.1 hq' with rfl | hq'
          · exact (le_max_right _ _).trans h2
          · exact h3 q' hq'
    obtain ⟨h1, h2, h3⟩ := key ps (p k)
    constructor
    · rcases h1 with h1 | ⟨q, hq, h1⟩
      · exact ⟨p, List.mem_cons_self, h1⟩
      · exact ⟨q, List.mem_cons_of_mem _ hq, h1⟩
    · rintro r ⟨q, hq, rfl⟩
      rcases List.mem_cons.1 hq with rfl | hq
      · exact h2
      · exact h3 q hq

end Lemmas
