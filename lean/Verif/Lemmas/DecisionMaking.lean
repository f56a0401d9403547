import Verif.Model.DecisionMaking
import Verif.Lemmas.Indicators
import Mathlib.Data.List.Induction

set_option linter.unusedSimpArgs false
set_option linter.unusedVariables false

namespace Lemmas
open Model Spec

theorem Flt.le_refl' {x : Flt} (h : x.isNan = false) : Flt.Le x x := by
  cases x <;> simp_all [Flt.Le, Flt.isNan]

theorem Flt.le_of_not_lt {x y : Flt} (hx : x.isNan = false) (hy : y.isNan = false) (h : Flt.lt x y = false) : Flt.Le y x := by
  cases x <;> cases y <;> simp_all [Flt.Le, Flt.isNan, Flt.lt]

theorem Flt.le_of_lt {x y : Flt} (h : Flt.lt x y = true) : Flt.Le x y := by
  cases x <;> cases y <;> simp_all [Flt.Le, Flt.lt, _root_.le_of_lt]

theorem Flt.not_lt_of_le {x y : Flt} (h : Flt.Le x y) : Flt.lt y x = false := by
  cases x <;> cases y <;> simp_all [Flt.Le, Flt.lt]

theorem Flt.le_trans' {x y z : Flt} (h1 : Flt.Le x y) (h2 : Flt.Le y z) (hx : x.isNan = false) : Flt.Le x z := by
  cases x <;> cases y <;> cases z <;> simp_all [Flt.Le, Flt.isNan]
  exact h1.trans h2

theorem Flt.lt_of_lt_of_le {x y z : Flt} (h1 : Flt.lt x y = true) (h2 : Flt.Le y z) : Flt.lt x z = true := by
  cases x <;> cases y <;> cases z <;> simp_all [Flt.Le, Flt.lt]
  exact h1.trans_le h2

/-- The running minimum: position, value, minimality, first position. -/
theorem argmin_fold (l : List Flt) (h : ∀ x ∈ l, x.isNan = false) (hl : l ≠ []) :
    let b := (l.zipIdx.foldl (fun b e => if Flt.lt e.1 b.1 then e else b) (l.headD .nan, 0))
    l[b.2]? = some b.1 ∧ (∀ x ∈ l, Flt.Le b.1 x) ∧ ∀ j < b.2, ∀ x, l[j]? = some x → Flt.lt b.1 x = true := by
  induction l using List.reverseRecOn with
  | nil => exact absurd rfl hl
  | append_singleton l x ih =>
    by_cases hl' : l = []
    · subst hl'
      have hx := h x (by simp)
      have hlt : Flt.lt x x = false := by cases x <;> simp [Flt.lt]
      simp [hlt, Flt.le_refl' hx]
    · have ih := ih (fun y hy => h y (List.mem_append_left _ hy)) hl'
      have hhead : (l ++ [x]).headD Flt.nan = l.headD Flt.nan := by
        cases l with
        | nil => exact absurd rfl hl'
        | cons a l => rfl
      simp only [hhead, List.zipIdx_append, List.foldl_append, List.zipIdx_singleton, List.foldl_cons, List.foldl_nil] at ih ⊢
      generalize (l.zipIdx.foldl (fun b e => if Flt.lt e.1 b.1 then e else b) (l.headD .nan, 0)) = b at ih ⊢
      obtain ⟨i1, i2, i3⟩ := ih
      have hb : b.2 < l.length := by
        by_contra hc
        rw [List.getElem?_eq_none (not_lt.1 hc)] at i1
        simp at i1
      have hbm : b.1 ∈ l := List.mem_of_getElem? i1
      have hbn := h b.1 (List.mem_append_left _ hbm)
      have hxn := h x (by simp)
      split_ifs with hc
      · simp only [Nat.zero_add]
        refine ⟨by simp, ?_, ?_⟩
        · intro y hy
          rcases List.mem_append.1 hy with hy | hy
          · exact Flt.le_trans' (Flt.le_of_lt hc) (i2 y hy) hxn
          · simp only [List.mem_singleton] at hy; subst hy; exact Flt.le_refl' hxn
        · intro j hj y hy
          rw [List.getElem?_append_left (by omega)] at hy
          exact Flt.lt_of_lt_of_le hc (i2 y (List.mem_of_getElem? hy))
      · refine ⟨by rw [List.getElem?_append_left hb]; exact i1, ?_, ?_⟩
        · intro y hy
          rcases List.mem_append.1 hy with hy | hy
          · exact i2 y hy
          · simp only [List.mem_singleton] at hy; subst hy
            exact Flt.le_of_not_lt hxn hbn (by simpa using hc)
        · intro j hj y hy
          rw [List.getElem?_append_left (by omega)] at hy
          exact i3 j hj y hy

/-- `np.argmin` of a non-empty array without `nan`: valid position, smallest value, first such position. -/
theorem fltArgmin_spec (l : List Flt) (h : ∀ x ∈ l, x.isNan = false) (hl : l ≠ []) :
    ∃ x, l[fltArgmin l]? = some x ∧ (∀ y ∈ l, Flt.Le x y) ∧ ∀ j < fltArgmin l, ∀ y, l[j]? = some y → Flt.lt x y = true := by
  have hf : l.findIdx? Flt.isNan = none := by
    rw [List.findIdx?_eq_none_iff]; exact h
  unfold fltArgmin
  rw [hf]
  obtain ⟨h1, h2, h3⟩ := argmin_fold l h hl
  exact ⟨_, h1, h2, h3⟩

theorem fltArgmin_nan (l : List Flt) (i : ℕ) (hi : (l[i]?).map Flt.isNan = some true)
    (hf : ∀ j < i, (l[j]?).map Flt.isNan = some false) : fltArgmin l = i := by
  have hil : i < l.length := by
    by_contra hc
    rw [List.getElem?_eq_none (not_lt.1 hc)] at hi
    simp at hi
  have : l.findIdx? Flt.isNan = some i := by
    rw [List.findIdx?_eq_some_iff_getElem]
    refine ⟨hil, ?_, ?_⟩
    · rw [List.getElem?_eq_getElem hil] at hi; simpa using hi
    · intro j hj
      have := hf j hj
      rw [List.getElem?_eq_getElem (by omega)] at this
      simpa using this
  unfold fltArgmin
  rw [this]

theorem foldl_min_spec (xs : List Flt) : ∀ (x : Flt), x.isNan = false → (∀ y ∈ xs, y.isNan = false) →
    let b := xs.foldl (fun b e => if Flt.lt e b then e else b) x
    (b ∈ x :: xs) ∧ ∀ y ∈ x :: xs, Flt.Le b y := by
  induction xs with
  | nil => intro x hx _; simp [Flt.le_refl' hx]
  | cons y xs ih =>
    intro x hx hxs
    have hy := hxs y List.mem_cons_self
    have hxs' : ∀ z ∈ xs, z.isNan = false := fun z hz => hxs z (List.mem_cons_of_mem _ hz)
    simp only [List.foldl_cons]
    split_ifs with hc
    · obtain ⟨h1, h2⟩ := ih y hy hxs'
      refine ⟨List.mem_cons_of_mem _ h1, ?_⟩
      intro z hz
      rcases List.mem_cons.1 hz with rfl | hz
      · have h3 := h2 y List.mem_cons_self
        have hb : (xs.foldl (fun b e => if Flt.lt e b then e else b) y).isNan = false := by
          rcases List.mem_cons.1 h1 with h | h
          · rw [h]; exact hy
          · exact hxs' _ h
        exact Flt.le_trans' h3 (Flt.le_of_lt hc) hb
      · exact h2 z hz
    · obtain ⟨h1, h2⟩ := ih x hx hxs'
      refine ⟨?_, ?_⟩
      · rcases List.mem_cons.1 h1 with h | h
        · rw [h]; exact List.mem_cons_self
        · exact List.mem_cons_of_mem _ (List.mem_cons_of_mem _ h)
      · intro z hz
        have hb : (xs.foldl (fun b e => if Flt.lt e b then e else b) x).isNan = false := by
          rcases List.mem_cons.1 h1 with h | h
          · rw [h]; exact hx
          · exact hxs' _ h
        rcases List.mem_cons.1 hz with rfl | hz
        · exact h2 z List.mem_cons_self
        · rcases List.mem_cons.1 hz with rfl | hz
          · exact Flt.le_trans' (h2 x List.mem_cons_self) (Flt.le_of_not_lt hy hx (by simpa using hc)) hb
          · exact h2 z (List.mem_cons_of_mem _ hz)

theorem nanmin_spec (l : List Flt) (h : ∃ x ∈ l, x.isNan = false) :
    nanmin l ∈ l ∧ (nanmin l).isNan = false ∧ ∀ y ∈ l, y.isNan = false → Flt.Le (nanmin l) y := by
  unfold nanmin
  have hmem : ∀ y, y ∈ l.filter (fun x => !x.isNan) ↔ y ∈ l ∧ y.isNan = false := by
    intro y; simp [List.mem_filter]
  cases hf : l.filter (fun x => !x.isNan) with
  | nil =>
    obtain ⟨x, hx, hn⟩ := h
    have := (hmem x).2 ⟨hx, hn⟩
    rw [hf] at this; simp at this
  | cons x xs =>
    rw [hf] at hmem
    have hx := (hmem x).1 List.mem_cons_self
    obtain ⟨h1, h2⟩ := foldl_min_spec xs x hx.2 (fun y hy => ((hmem y).1 (List.mem_cons_of_mem _ hy)).2)
    exact ⟨((hmem _).1 h1).1, ((hmem _).1 h1).2, fun y hy hn => h2 y ((hmem y).2 ⟨hy, hn⟩)⟩

end Lemmas
