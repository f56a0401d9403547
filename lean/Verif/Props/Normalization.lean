import Verif.Model.Normalization
import Mathlib.Tactic.Linarith
import Mathlib.Tactic.Ring
import Mathlib.Tactic.FieldSimp
import Mathlib.Tactic.NormNum
import Mathlib.Tactic.Positivity

/-!
# C31 — normalisation round-trips
-/

namespace Props
open Model

set_option linter.unusedSimpArgs false

/-! ### Helpers -/

theorem zto_bwd_fwd (l u : Option ℚ) (x : ℚ) : ztoBwd (dropEqual l u) (ztoFwd (dropEqual l u) x) = x := by
  unfold dropEqual
  split_ifs with h
  · obtain ⟨v, rfl⟩ := Option.isSome_iff_exists.1 h.1
    simp [ztoBwd, ztoFwd]
  · rcases l with _ | l <;> rcases u with _ | u <;> simp only [ztoBwd, ztoFwd] <;> try ring1
    have : u - l ≠ 0 := by
      intro h0
      exact h ⟨rfl, by rw [sub_eq_zero.1 h0]⟩
    field_simp
    try ring

theorem zto_fwd_bwd (l u : Option ℚ) (x : ℚ) : ztoFwd (dropEqual l u) (ztoBwd (dropEqual l u) x) = x := by
  unfold dropEqual
  split_ifs with h
  · obtain ⟨v, rfl⟩ := Option.isSome_iff_exists.1 h.1
    simp [ztoBwd, ztoFwd]
  · rcases l with _ | l <;> rcases u with _ | u <;> simp only [ztoBwd, ztoFwd] <;> try ring1
    have : u - l ≠ 0 := by
      intro h0
      exact h ⟨rfl, by rw [sub_eq_zero.1 h0]⟩
    field_simp
    try ring

/-- Every object is given by the pairs of bounds after `dropEqual`. -/
theorem ztoInit_form (intNan : ℤ) (xl xu : Option BoundArr) (norm : ZtoNorm) (h : ztoInit intNan xl xu = some norm) :
    norm = none ∨ ∃ l u : List (Option ℚ), norm = some (List.zipWith dropEqual l u) ∧
      (∀ a, xl = some a → l = a.vals) ∧ (∀ a, xu = some a → u = a.vals) ∧
      (xl = none → l = u.map fun _ => if (xu.map BoundArr.isInt).getD false then some (intNan : ℚ) else none) ∧
      (xu = none → u = l.map fun _ => if (xl.map BoundArr.isInt).getD false then some (intNan : ℚ) else none) := by
  rcases xl with _ | l <;> rcases xu with _ | u <;> simp only [ztoInit] at h
  · simp only [Option.some.injEq] at h; exact Or.inl h.symm
  all_goals
    split_ifs at h
    simp only [Option.some.injEq] at h
    subst h
    right
    refine ⟨_, _, rfl, ?_, ?_, ?_, ?_⟩ <;> simp [fullLikeNan]

theorem zipWith_self_inv {α β : Type*} (bs : List α) (X : List β) (f g : α → β → β) (hlen : X.length ≤ bs.length)
    (h : ∀ b ∈ bs, ∀ x, f b (g b x) = x) : List.zipWith f bs (List.zipWith g bs X) = X := by
  induction bs generalizing X with
  | nil => cases X <;> simp_all
  | cons b bs ih =>
    cases X with
    | nil => rfl
    | cons x X =>
      simp only [List.zipWith_cons_cons]
      rw [h b (by simp) x, ih X (by simpa using hlen) fun b hb => h b (by simp [hb])]

/-! ### ZeroToOneNormalization -/

/-- C31. For floating point arrays, `backward` undoes `forward` and `forward` undoes `backward`, whatever bounds are given,
missing (the whole array, or single `nan` entries) or equal. -/
theorem C31_roundtrip_partial (intNan : ℤ) (xl xu : Option BoundArr) (norm : ZtoNorm) (h : ztoInit intNan xl xu = some norm)
    (X : List ℚ) (hl : ∀ a, xl = some a → a.vals.length = X.length) (hu : ∀ a, xu = some a → a.vals.length = X.length) :
    ztoBackward false norm (ztoForward false norm X) = X ∧ ztoForward false norm (ztoBackward false norm X) = X := by
  rcases ztoInit_form intNan xl xu norm h with rfl | ⟨l, u, rfl, h1, h2, h3, h4⟩
  · exact ⟨rfl, rfl⟩
  · have hlen : X.length ≤ (List.zipWith dropEqual l u).length := by
      rw [List.length_zipWith]
      rcases xl with _ | a <;> rcases xu with _ | b
      · simp only [ztoInit, Option.some.injEq] at h; cases h
      · have := hu b rfl; rw [h3 rfl]; rw [h2 b rfl]; simp [this]
      · have := hl a rfl; rw [h4 rfl]; rw [h1 a rfl]; simp [this]
      · rw [h1 a rfl, h2 b rfl, hl a rfl, hu b rfl]; simp
    have hmem : ∀ b ∈ List.zipWith dropEqual l u, ∃ p q, b = dropEqual p q := by
      intro b hb
      obtain ⟨i, hi, rfl⟩ := List.getElem_of_mem hb
      exact ⟨_, _, List.getElem_zipWith ..⟩
    simp only [ztoForward, ztoBackward, storeAs, Bool.false_eq_true, if_false]
    constructor <;> apply zipWith_self_inv _ _ _ _ hlen <;> intro b hb x <;> obtain ⟨p, q, rfl⟩ := hmem b hb
    · exact zto_bwd_fwd p q x
    · exact zto_fwd_bwd p q x

example : ∃ norm, ztoInit 0 (some ⟨false, [some 1, none, some 2, none]⟩) (some ⟨false, [some 3, some 4, some 2, none]⟩) = some norm ∧
    ztoForward false norm [2, 5, 7, 9] = [1 / 2, 2, 5, 9] ∧ ztoBackward false norm [1 / 2, 2, 5, 9] = [2, 5, 7, 9] := by
  refine ⟨_, rfl, ?_, ?_⟩ <;> decide +kernel

/-- C31. The constructor fails exactly if some lower bound is larger than the upper bound of the same variable. -/
theorem C31_rejects (intNan : ℤ) (l u : BoundArr) :
    ztoInit intNan (some l) (some u) = none ↔
      ∃ (i : ℕ) (a b : ℚ), l.vals[i]? = some (some a) ∧ u.vals[i]? = some (some b) ∧ b < a := by
  have key : ∀ p q, boundOk (dropEqual p q) = false ↔ ∃ a b, p = some a ∧ q = some b ∧ b < a := by
    intro p q
    unfold dropEqual
    split_ifs with h
    · obtain ⟨v, rfl⟩ := Option.isSome_iff_exists.1 h.1
      obtain rfl := h.2
      simp [boundOk]
    · rcases p with _ | p <;> rcases q with _ | q <;> simp [boundOk]
  simp only [ztoInit]
  constructor
  · intro h
    split_ifs at h with hall
    simp only [List.all_eq_true, not_forall] at hall
    obtain ⟨b, hb, hok⟩ := hall
    obtain ⟨i, hi, rfl⟩ := List.getElem_of_mem hb
    rw [List.getElem_zipWith, Bool.not_eq_true, key] at hok
    obtain ⟨a, b, h1, h2, h3⟩ := hok
    rw [List.length_zipWith] at hi
    refine ⟨i, a, b, ?_, ?_, h3⟩
    · rw [List.getElem?_eq_getElem (by omega), h1]
    · rw [List.getElem?_eq_getElem (by omega), h2]
  · rintro ⟨i, a, b, h1, h2, h3⟩
    rw [if_neg]
    intro hall
    rw [List.all_eq_true] at hall
    obtain ⟨hi1, h1⟩ := List.getElem?_eq_some_iff.1 h1
    obtain ⟨hi2, h2⟩ := List.getElem?_eq_some_iff.1 h2
    have hi : i < (List.zipWith dropEqual l.vals u.vals).length := by rw [List.length_zipWith]; omega
    have := hall _ (List.getElem_mem hi)
    rw [List.getElem_zipWith, h1, h2] at this
    have h0 := (key (some a) (some b)).2 ⟨a, b, rfl, rfl, h3⟩
    rw [h0] at this
    exact absurd this (by simp)

example : ztoInit 0 (some ⟨false, [some 1, some 3]⟩) (some ⟨false, [some 1, some 2]⟩) = none := by decide +kernel

/-- The documented normalisation of one floating point value `x` with the bounds `l`, `u`: between the bounds if both are
given and different, relative to the one that is given otherwise, and unchanged without bounds. -/
def documented (l u : Option ℚ) (x y : ℚ) : Prop :=
  (∀ a b, l = some a → u = some b → a < b → y = (x - a) / (b - a)) ∧
  (∀ a, l = some a → (u = none ∨ u = some a) → y = x - a) ∧
  (∀ b, l = none → u = some b → y = 1 - (b - x)) ∧
  (l = none → u = none → y = x)

theorem fwd_documented (l u : Option ℚ) (x : ℚ) : documented l u x (ztoFwd (dropEqual l u) x) := by
  unfold documented dropEqual
  refine ⟨?_, ?_, ?_, ?_⟩
  · rintro a b rfl rfl h
    rw [if_neg (by simpa using h.ne)]
    rfl
  · rintro a rfl (rfl | rfl)
    · simp [ztoFwd]
    · simp [ztoFwd]
  · rintro b rfl rfl; simp [ztoFwd]
  · rintro rfl rfl; simp [ztoFwd]

/-- C31. Each component of the result of `forward` is the documented value. -/
theorem C31_forward (intNan : ℤ) (l u : BoundArr) (norm : ZtoNorm) (h : ztoInit intNan (some l) (some u) = some norm)
    (X : List ℚ) (i : ℕ) (p q : Option ℚ) (x : ℚ) (hp : l.vals[i]? = some p) (hq : u.vals[i]? = some q) (hx : X[i]? = some x) :
    ∃ y, (ztoForward false norm X)[i]? = some y ∧ documented p q x y := by
  rcases ztoInit_form intNan _ _ norm h with rfl | ⟨l', u', rfl, h1, h2, -, -⟩
  · simp only [ztoInit] at h; split_ifs at h; cases h
  · obtain rfl := h1 _ rfl
    obtain rfl := h2 _ rfl
    refine ⟨ztoFwd (dropEqual p q) x, ?_, fwd_documented p q x⟩
    simp [ztoForward, storeAs, List.getElem?_zipWith, hp, hq, hx]

/-- C31. With a missing array of (floating point) bounds: the documented value for `nan` bounds. -/
theorem C31_forward_one_sided_partial (intNan : ℤ) (vals : List (Option ℚ)) (norm norm' : ZtoNorm)
    (h : ztoInit intNan (some ⟨false, vals⟩) none = some norm) (h' : ztoInit intNan none (some ⟨false, vals⟩) = some norm')
    (X : List ℚ) (i : ℕ) (p : Option ℚ) (x : ℚ) (hp : vals[i]? = some p) (hx : X[i]? = some x) :
    (∃ y, (ztoForward false norm X)[i]? = some y ∧ documented p none x y) ∧
    (∃ y, (ztoForward false norm' X)[i]? = some y ∧ documented none p x y) ∧
    ∀ isInt, ztoInit intNan none none = some none ∧ ztoForward isInt none X = X := by
  refine ⟨?_, ?_, fun isInt => ⟨rfl, rfl⟩⟩
  · rcases ztoInit_form intNan _ _ norm h with rfl | ⟨l', u', rfl, h1, -, -, h4⟩
    · simp only [ztoInit] at h; split_ifs at h; cases h
    · obtain rfl := h1 _ rfl
      obtain rfl := h4 rfl
      refine ⟨ztoFwd (dropEqual p none) x, ?_, fwd_documented p none x⟩
      simp [ztoForward, storeAs, List.getElem?_zipWith, hp, hx, -List.map_const, -List.map_const', List.getElem?_map]
  · rcases ztoInit_form intNan _ _ norm' h' with rfl | ⟨l', u', rfl, -, h2, h3, -⟩
    · simp only [ztoInit] at h'; split_ifs at h'; cases h'
    · obtain rfl := h2 _ rfl
      obtain rfl := h3 rfl
      refine ⟨ztoFwd (dropEqual none p) x, ?_, fwd_documented none p x⟩
      simp [ztoForward, storeAs, List.getElem?_zipWith, hp, hx, -List.map_const, -List.map_const', List.getElem?_map]

example : (ztoInit 0 (some ⟨false, [some 1, none]⟩) none).isSome ∧ (ztoInit 0 none (some ⟨false, [some 1, none]⟩)).isSome := by
  decide +kernel

/-- C31. What the documented value means: with `a < b` the interval `[a, b]` corresponds to `[0, 1]` and the order is kept
strictly; with one bound, that bound is mapped to 0 (lower) or 1 (upper) and differences are kept. -/
theorem C31_documented_range (a b x y x' y' : ℚ) :
    (a < b → documented (some a) (some b) x y → documented (some a) (some b) x' y' →
      ((0 ≤ y ∧ y ≤ 1) ↔ (a ≤ x ∧ x ≤ b)) ∧ (x < x' ↔ y < y') ∧ (x = a ↔ y = 0) ∧ (x = b ↔ y = 1)) ∧
    (documented (some a) none x y → documented (some a) none x' y' → (x = a ↔ y = 0) ∧ y' - y = x' - x) ∧
    (documented (some a) (some a) x y → documented (some a) (some a) x' y' → (x = a ↔ y = 0) ∧ y' - y = x' - x) ∧
    (documented none (some b) x y → documented none (some b) x' y' → (x = b ↔ y = 1) ∧ y' - y = x' - x) := by
  refine ⟨?_, ?_, ?_, ?_⟩
  · intro hab h h'
    have hy := h.1 a b rfl rfl hab
    have hy' := h'.1 a b rfl rfl hab
    have hpos : 0 < b - a := by linarith
    subst hy hy'
    refine ⟨?_, ?_, ?_, ?_⟩
    · rw [div_nonneg_iff, div_le_one hpos]
      constructor
      · rintro ⟨h1 | h1, h2⟩ <;> constructor <;> linarith
      · rintro ⟨h1, h2⟩
        exact ⟨Or.inl ⟨by linarith, by linarith⟩, by linarith⟩
    · rw [div_lt_div_iff_of_pos_right hpos]
      constructor <;> intro h <;> linarith
    · rw [div_eq_zero_iff]
      constructor
      · intro h; left; linarith
      · rintro (h | h) <;> linarith
    · rw [div_eq_one_iff_eq hpos.ne']
      constructor <;> intro h <;> linarith
  · intro h h'
    have hy := h.2.1 a rfl (Or.inl rfl)
    have hy' := h'.2.1 a rfl (Or.inl rfl)
    refine ⟨⟨fun h => by linarith, fun h => by linarith⟩, by linarith⟩
  · intro h h'
    have hy := h.2.1 a rfl (Or.inr rfl)
    have hy' := h'.2.1 a rfl (Or.inr rfl)
    refine ⟨⟨fun h => by linarith, fun h => by linarith⟩, by linarith⟩
  · intro h h'
    have hy := h.2.2.1 b rfl rfl
    have hy' := h'.2.2.1 b rfl rfl
    refine ⟨⟨fun h => by linarith, fun h => by linarith⟩, by linarith⟩

/-- C31 fails for integer arrays: the result is written into a copy of the input (`normalization.py:76`), which keeps the
integer dtype, so the middle of an interval is mapped to its lower end and does not come back. -/
theorem C31_int_array_truncates : ∃ norm, ztoInit 0 (some ⟨false, [some 0]⟩) (some ⟨false, [some 2]⟩) = some norm ∧
    ztoForward true norm [1] = [0] ∧ ztoBackward true norm (ztoForward true norm [1]) = [0] := by
  refine ⟨_, rfl, ?_, ?_⟩ <;> decide +kernel

/-- C31 fails for one-sided integer bounds: the missing bound is `np.full_like(xu, nan)` of an integer array
(`normalization.py:44`), an arbitrary integer `intNan` instead of `nan`; the value differs from the documented `1 - (5 - 4) = 0`
unless `intNan = 4`; if `intNan > 5` the constructor fails. -/
theorem C31_int_bounds_refuted (intNan : ℤ) (h : intNan < 4) :
    ∃ norm, ztoInit intNan none (some ⟨true, [some 5]⟩) = some norm ∧ ∃ y, ztoForward false norm [4] = [y] ∧
      ¬ documented none (some 5) 4 y := by
  have h' : (intNan : ℚ) < 4 := by exact_mod_cast h
  have hne : (intNan : ℚ) ≠ 5 := by linarith
  refine ⟨some [(some (intNan : ℚ), some 5)], ?_, _, rfl, ?_⟩
  · simp [ztoInit, fullLikeNan, dropEqual, hne, boundOk]; linarith
  · intro hd
    have := hd.2.2.1 5 rfl rfl
    simp only [ztoFwd, storeAs, Bool.false_eq_true, if_false] at this
    rw [div_eq_iff (by linarith)] at this
    linarith

example : ((-9223372036854775808 : ℤ)) < 4 := by decide

/-! ### normalize / denormalize -/

theorem foldl_zipWith_length (f : ℚ → ℚ → ℚ) (rs : List (List ℚ)) (r : List ℚ) (n : ℕ) (hr : r.length = n)
    (h : ∀ s ∈ rs, s.length = n) : (rs.foldl (List.zipWith f) r).length = n := by
  induction rs generalizing r with
  | nil => simpa using hr
  | cons s rs ih =>
    simp only [List.foldl_cons]
    refine ih _ ?_ fun s hs => h s (by simp [hs])
    simp [hr, h s (by simp)]

/-- Specification of the column minimum: a lower bound of the column that is attained. -/
theorem colMin_spec (X : List (List ℚ)) (n : ℕ) (hX : ∀ r ∈ X, r.length = n) (m : List ℚ) (h : colMin X = some m) :
    m.length = n ∧ ∀ (j : ℕ) (v : ℚ), m[j]? = some v → (∃ r ∈ X, r[j]? = some v) ∧ ∀ r ∈ X, ∀ x, r[j]? = some x → v ≤ x := by
  obtain _ | ⟨r, rs⟩ := X
  · cases h
  · simp only [colMin, Option.some.injEq] at h
    subst h
    refine ⟨foldl_zipWith_length _ _ _ _ (hX r (by simp)) fun s hs => hX s (by simp [hs]), ?_⟩
    have : ∀ (rs : List (List ℚ)) (r : List ℚ), r.length = n → (∀ s ∈ rs, s.length = n) → ∀ (j : ℕ) (v : ℚ),
        (rs.foldl (List.zipWith min) r)[j]? = some v →
        (∃ s ∈ r :: rs, s[j]? = some v) ∧ ∀ s ∈ r :: rs, ∀ x, s[j]? = some x → v ≤ x := by
      intro rs
      induction rs with
      | nil =>
        intro r _ _ j v hv
        simp only [List.foldl_nil] at hv
        refine ⟨⟨r, by simp, hv⟩, fun s hs x hx => ?_⟩
        obtain rfl := List.mem_singleton.1 hs
        rw [hv] at hx
        exact (Option.some.inj hx).le
      | cons s rs ih =>
        intro r hr hrs j v hv
        simp only [List.foldl_cons] at hv
        have hs := hrs s (by simp)
        obtain ⟨⟨t, ht, htv⟩, hle⟩ := ih (List.zipWith min r s) (by simp [hr, hs]) (fun s hs => hrs s (by simp [hs])) j v hv
        constructor
        · rcases List.mem_cons.1 ht with rfl | ht
          · rw [List.getElem?_zipWith] at htv
            rcases hrj : r[j]? with _ | a <;> rcases hsj : s[j]? with _ | b <;> rw [hrj, hsj] at htv <;> simp at htv
            rcases min_choice a b with h | h
            · exact ⟨r, by simp, by rw [hrj, ← htv, h]⟩
            · exact ⟨s, by simp, by rw [hsj, ← htv, h]⟩
          · exact ⟨t, by simp [ht], htv⟩
        · intro q hq x hx
          have hj : j < n := by
            have := (List.getElem?_eq_some_iff.1 hx).1
            rcases List.mem_cons.1 hq with rfl | hq
            · omega
            · rw [hrs q hq] at this; exact this
          have hrj : r[j]? = some r[j] := List.getElem?_eq_getElem (by omega)
          have hsj : s[j]? = some s[j] := List.getElem?_eq_getElem (by omega)
          have hz : (List.zipWith min r s)[j]? = some (min r[j] s[j]) := by
            rw [List.getElem?_zipWith, hrj, hsj]
          have hv1 := hle _ (by simp) _ hz
          rcases List.mem_cons.1 hq with rfl | hq
          · rw [hrj] at hx; cases hx; exact hv1.trans (min_le_left _ _)
          · rcases List.mem_cons.1 hq with rfl | hq
            · rw [hsj] at hx; cases hx; exact hv1.trans (min_le_right _ _)
            · exact hle q (by simp [hq]) x hx
    exact this rs r (hX r (by simp)) fun s hs => hX s (by simp [hs])

theorem zipWith_max_neg (r s : List ℚ) :
    List.zipWith max r s = (List.zipWith min (r.map (- ·)) (s.map (- ·))).map (- ·) := by
  induction r generalizing s with
  | nil => simp
  | cons a r ih =>
    cases s with
    | nil => simp
    | cons b s =>
      simp only [List.zipWith_cons_cons, List.map_cons, List.cons.injEq]
      exact ⟨by rcases le_total a b with h | h <;> simp [h], ih s⟩

theorem colMax_eq (X : List (List ℚ)) : colMax X = (colMin (X.map fun r => r.map (- ·))).map fun m => m.map (- ·) := by
  obtain _ | ⟨r, rs⟩ := X
  · rfl
  · simp only [colMax, colMin, List.map_cons, Option.map_some, Option.some.injEq]
    induction rs generalizing r with
    | nil => simp
    | cons s rs ih =>
      simp only [List.foldl_cons, List.map_cons]
      rw [ih, zipWith_max_neg]
      simp

theorem colMax_spec (X : List (List ℚ)) (n : ℕ) (hX : ∀ r ∈ X, r.length = n) (m : List ℚ) (h : colMax X = some m) :
    m.length = n ∧ ∀ (j : ℕ) (v : ℚ), m[j]? = some v → (∃ r ∈ X, r[j]? = some v) ∧ ∀ r ∈ X, ∀ x, r[j]? = some x → x ≤ v := by
  rw [colMax_eq] at h
  obtain ⟨m', hm', rfl⟩ := Option.map_eq_some_iff.1 h
  obtain ⟨hlen, hs⟩ := colMin_spec _ n (by
    intro r hr
    obtain ⟨s, hs, rfl⟩ := List.mem_map.1 hr
    simp [hX s hs]) m' hm'
  refine ⟨by simp [hlen], fun j v hv => ?_⟩
  rw [List.getElem?_map] at hv
  obtain ⟨w, hw, rfl⟩ := Option.map_eq_some_iff.1 hv
  obtain ⟨⟨r, hr, hrw⟩, hle⟩ := hs j w hw
  constructor
  · obtain ⟨s, hs, rfl⟩ := List.mem_map.1 hr
    rw [List.getElem?_map] at hrw
    obtain ⟨x, hx, rfl⟩ := Option.map_eq_some_iff.1 hrw
    exact ⟨s, hs, by simpa using hx⟩
  · intro r hr x hx
    have := hle (r.map (- ·)) (List.mem_map.2 ⟨r, hr, rfl⟩) (-x) (by simp [hx])
    linarith

/-- C31. `denormalize(normalize(X, xl, xu), xl, xu) = X` for floating point data. -/
theorem C31_denormalize (intNan : ℤ) (X N : List (List ℚ)) (n : ℕ) (hX : ∀ r ∈ X, r.length = n) (l u : BoundArr)
    (hl : l.vals.length = n) (hu : u.vals.length = n) (h : normalizeM intNan false X (some l) (some u) = some N) :
    denormalizeM intNan false N (some l) (some u) = some X := by
  simp only [normalizeM, Option.orElse_some, Option.bind_some] at h
  obtain ⟨norm, hn, rfl⟩ := Option.map_eq_some_iff.1 h
  simp only [denormalizeM, hn, Option.map_some, List.map_map, Option.some.injEq]
  conv_rhs => rw [← List.map_id X]
  apply List.map_congr_left
  intro r hr
  have := (C31_roundtrip_partial intNan _ _ norm hn r (by rintro a ⟨⟩; rw [hl, hX r hr]) (by rintro a ⟨⟩; rw [hu, hX r hr])).1
  simpa using this

example : ∃ N, normalizeM 0 false [[1, 5], [2, 7]] (some ⟨false, [some 1, some 5]⟩) (some ⟨false, [some 3, some 5]⟩) = some N ∧
    N = [[0, 0], [1 / 2, 2]] := by decide +kernel

/-- C31. `normalize(X)` without bounds maps every entry into `[0, 1]`; every column reaches 0, and reaches 1 unless it is
constant. -/
theorem C31_normalize_estimated (intNan : ℤ) (X : List (List ℚ)) (n : ℕ) (hX : ∀ r ∈ X, r.length = n) (hne : X ≠ []) :
    ∃ N, normalizeM intNan false X none none = some N ∧ N.length = X.length ∧
      (∀ r ∈ N, r.length = n ∧ ∀ y ∈ r, 0 ≤ y ∧ y ≤ 1) ∧
      ∀ j < n, (∃ r ∈ N, r[j]? = some 0) ∧
        ((∃ r ∈ X, ∃ s ∈ X, r[j]? ≠ s[j]?) → ∃ r ∈ N, r[j]? = some 1) := by
  obtain ⟨r0, rs, rfl⟩ := List.exists_cons_of_ne_nil hne
  set X := r0 :: rs with hXdef
  obtain ⟨l, hl⟩ : ∃ l, colMin X = some l := ⟨_, rfl⟩
  obtain ⟨u, hu⟩ : ∃ u, colMax X = some u := ⟨_, rfl⟩
  obtain ⟨hll, hls⟩ := colMin_spec X n hX l hl
  obtain ⟨hul, hus⟩ := colMax_spec X n hX u hu
  have hle : ∀ (j : ℕ) (a b : ℚ), l[j]? = some a → u[j]? = some b → a ≤ b := by
    intro j a b ha hb
    obtain ⟨⟨r, hr, hra⟩, -⟩ := hls j a ha
    exact (hus j b hb).2 r hr a hra
  -- the constructor succeeds
  have hok : ztoInit intNan (some (toBound false l)) (some (toBound false u)) ≠ none := by
    intro h
    obtain ⟨i, a, b, ha, hb, hab⟩ := (C31_rejects intNan _ _).1 h
    simp only [toBound, List.getElem?_map, Option.map_eq_some_iff] at ha hb
    obtain ⟨a', ha, h1⟩ := ha
    obtain ⟨b', hb, h2⟩ := hb
    cases h1; cases h2
    exact absurd (hle i a b ha hb) (not_le.2 hab)
  obtain ⟨norm, hnorm⟩ := Option.ne_none_iff_exists'.1 hok
  -- values of the result
  have hval : ∀ r ∈ X, ∀ (j : ℕ) (x : ℚ), r[j]? = some x → ∃ a b y, l[j]? = some a ∧ u[j]? = some b ∧
      (ztoForward false norm r)[j]? = some y ∧ documented (some a) (some b) x y := by
    intro r hr j x hx
    have hj : j < n := by
      have := (List.getElem?_eq_some_iff.1 hx).1
      rwa [hX r hr] at this
    have ha : l[j]? = some l[j] := List.getElem?_eq_getElem (by omega)
    have hb : u[j]? = some u[j] := List.getElem?_eq_getElem (by omega)
    obtain ⟨y, hy, hd⟩ := C31_forward intNan _ _ norm hnorm r j (some l[j]) (some u[j]) x (by simp [toBound, ha])
      (by simp [toBound, hb]) hx
    exact ⟨_, _, y, ha, hb, hy, hd⟩
  have hlenf : ∀ r ∈ X, (ztoForward false norm r).length = n := by
    intro r hr
    rcases ztoInit_form intNan _ _ norm hnorm with rfl | ⟨l', u', rfl, h1, h2, -, -⟩
    · simp only [ztoInit] at hnorm; split_ifs at hnorm; cases hnorm
    · rw [h1 _ rfl, h2 _ rfl]
      simp [ztoForward, toBound, hll, hul, hX r hr]
  refine ⟨X.map (ztoForward false norm), ?_, by simp, ?_, ?_⟩
  · simp [normalizeM, hl, hu, hnorm, Option.orElse]
  · intro r hr
    obtain ⟨s, hs, rfl⟩ := List.mem_map.1 hr
    refine ⟨hlenf s hs, fun y hy => ?_⟩
    obtain ⟨j, hj, rfl⟩ := List.getElem_of_mem hy
    have hjn : j < s.length := by rw [hX s hs]; rwa [hlenf s hs] at hj
    obtain ⟨a, b, y, ha, hb, hy, hd⟩ := hval s hs j s[j] (List.getElem?_eq_getElem hjn)
    rw [List.getElem?_eq_getElem hj] at hy
    cases hy
    have h1 := (hls j a ha).2 s hs _ (List.getElem?_eq_getElem hjn)
    have h2 := (hus j b hb).2 s hs _ (List.getElem?_eq_getElem hjn)
    rcases (hle j a b ha hb).lt_or_eq with hab | rfl
    · exact (((C31_documented_range a b _ _ _ _).1 hab hd hd).1).2 ⟨h1, h2⟩
    · have := hd.2.1 a rfl (Or.inr rfl)
      rw [this]
      constructor <;> linarith
  · intro j hj
    have ha : l[j]? = some l[j] := List.getElem?_eq_getElem (by omega)
    have hb : u[j]? = some u[j] := List.getElem?_eq_getElem (by omega)
    obtain ⟨⟨r, hr, hra⟩, hmin⟩ := hls j _ ha
    obtain ⟨⟨s, hs, hsb⟩, hmax⟩ := hus j _ hb
    constructor
    · obtain ⟨a, b, y, ha', hb', hy, hd⟩ := hval r hr j _ hra
      rw [ha] at ha'; cases ha'
      rw [hb] at hb'; cases hb'
      refine ⟨_, List.mem_map.2 ⟨r, hr, rfl⟩, ?_⟩
      rw [hy]
      rcases (hle j _ _ ha hb).lt_or_eq with hab | hab
      · rw [((C31_documented_range _ _ _ _ _ _).1 hab hd hd).2.2.1.1 rfl]
      · rw [hd.2.1 _ rfl (Or.inr (by rw [hab]))]; simp
    · rintro ⟨p, hp, q, hq, hpq⟩
      obtain ⟨a, b, y, ha', hb', hy, hd⟩ := hval s hs j _ hsb
      rw [ha] at ha'; cases ha'
      rw [hb] at hb'; cases hb'
      refine ⟨_, List.mem_map.2 ⟨s, hs, rfl⟩, ?_⟩
      rw [hy]
      rcases (hle j _ _ ha hb).lt_or_eq with hab | hab
      · rw [((C31_documented_range _ _ _ _ _ _).1 hab hd hd).2.2.2.1 rfl]
      · exfalso
        have hpj : p[j]? = some (p[j]'(by rw [hX p hp]; exact hj)) := List.getElem?_eq_getElem _
        have hqj : q[j]? = some (q[j]'(by rw [hX q hq]; exact hj)) := List.getElem?_eq_getElem _
        have e1 : p[j]'(by rw [hX p hp]; exact hj) = l[j] := le_antisymm ((hmax p hp _ hpj).trans hab.ge) (hmin p hp _ hpj)
        have e2 : q[j]'(by rw [hX q hq]; exact hj) = l[j] := le_antisymm ((hmax q hq _ hqj).trans hab.ge) (hmin q hq _ hqj)
        apply hpq
        rw [hpj, hqj, e1, e2]

example : normalizeM 0 false [[1, 5], [2, 5], [5, 5]] none none = some [[0, 0], [1 / 4, 0], [1, 0]] := by decide +kernel

/-! ### SimpleZeroToOneNormalization -/

/-- C31. `SimpleZeroToOneNormalization` fixes its bounds with the first call: every later call of `forward` uses the same
bounds, whatever data it is given. -/
theorem C31_simple_bounds_fixed (s s1 s2 : SimpleNorm) (X Y N M : List (List ℚ)) (h1 : simpleForward s X = some (s1, N))
    (h2 : simpleForward s1 Y = some (s2, M)) : s2.xl = s1.xl ∧ s2.xu = s1.xu ∧ (∀ a, s.xl = some a → s1.xl = some a) ∧
      ∀ a, s.xu = some a → s1.xu = some a := by
  simp only [simpleForward, Option.bind_eq_some_iff, Option.some.injEq, Prod.mk.injEq] at h1 h2
  obtain ⟨l, hl, u, hu, rfl, -⟩ := h1
  obtain ⟨l', hl', u', hu', rfl, -⟩ := h2
  simp only at hl' hu' ⊢
  have e1 : l' = l := by
    split at hl' <;> simp at hl' <;> exact hl'.symm
  have e2 : u' = u := by
    split at hu' <;> simp at hu' <;> exact hu'.symm
  subst e1 e2
  refine ⟨rfl, rfl, fun a ha => ?_, fun a ha => ?_⟩
  · rw [ha] at hl; split at hl <;> simp at hl <;> rw [hl]
  · rw [ha] at hu; split at hu <;> simp at hu <;> rw [hu]

/-- C31. `SimpleZeroToOneNormalization`: `backward` undoes `forward` for every row in which the variables with equal bounds have
that value. (With equal bounds any other value comes back as the bound.) -/
theorem C31_simple_roundtrip_partial (s s1 : SimpleNorm) (X N : List (List ℚ)) (n : ℕ) (hX : ∀ r ∈ X, r.length = n)
    (h : simpleForward s X = some (s1, N)) (l u : List ℚ) (hl : s1.xl = some l) (hu : s1.xu = some u)
    (hln : l.length = n) (hun : u.length = n)
    (hdeg : ∀ r ∈ X, ∀ (j : ℕ) (x a : ℚ), r[j]? = some x → l[j]? = some a → u[j]? = some a → x = a) :
    simpleBackward s1 N = some X := by
  simp only [simpleForward, Option.bind_eq_some_iff, Option.some.injEq, Prod.mk.injEq] at h
  obtain ⟨l', -, u', -, rfl, rfl⟩ := h
  simp only [Option.some.injEq] at hl hu
  subst hl hu
  simp only [simpleBackward, Option.bind_some, Option.some.injEq, List.map_map]
  conv_rhs => rw [← List.map_id X]
  apply List.map_congr_left
  intro r hr
  simp only [Function.comp, id]
  apply List.ext_getElem?
  intro j
  rw [List.getElem?_zipWith, List.getElem?_zipWith]
  rcases hrj : r[j]? with _ | x
  · rcases ((l'.zip u')[j]?) with _ | p <;> rfl
  · have hj : j < n := by
      have := (List.getElem?_eq_some_iff.1 hrj).1
      rwa [hX r hr] at this
    have ha : l'[j]? = some l'[j] := List.getElem?_eq_getElem (by omega)
    have hb : u'[j]? = some u'[j] := List.getElem?_eq_getElem (by omega)
    have hz : (l'.zip u')[j]? = some (l'[j], u'[j]) := by
      rw [List.getElem?_zip_eq_some]; exact ⟨ha, hb⟩
    rw [hz]
    simp only [simpleFwd, Option.some.injEq]
    split_ifs with h0
    · have heq : u'[j] = l'[j] := by linarith
      have := hdeg r hr j x _ hrj ha (by rw [hb, heq])
      rw [h0, this]; ring
    · field_simp; ring

/-- C31. In particular, with bounds estimated from the data the data comes back. -/
theorem C31_simple_estimated (X : List (List ℚ)) (n : ℕ) (hX : ∀ r ∈ X, r.length = n) (hne : X ≠ []) :
    ∃ s N, simpleForward ⟨none, none, true⟩ X = some (s, N) ∧ simpleBackward s N = some X := by
  obtain ⟨r0, rs, rfl⟩ := List.exists_cons_of_ne_nil hne
  obtain ⟨l, hl⟩ : ∃ l, colMin (r0 :: rs) = some l := ⟨_, rfl⟩
  obtain ⟨u, hu⟩ : ∃ u, colMax (r0 :: rs) = some u := ⟨_, rfl⟩
  obtain ⟨hll, hls⟩ := colMin_spec _ n hX l hl
  obtain ⟨hul, hus⟩ := colMax_spec _ n hX u hu
  have hf : ∃ N, simpleForward ⟨none, none, true⟩ (r0 :: rs) = some (⟨some l, some u, true⟩, N) := by
    refine ⟨(r0 :: rs).map fun r => List.zipWith (fun (b : ℚ × ℚ) x => simpleFwd b.1 b.2 x) (l.zip u) r, ?_⟩
    simp [simpleForward, hl, hu, Option.orElse]
  obtain ⟨N, hN⟩ := hf
  refine ⟨_, N, hN, C31_simple_roundtrip_partial _ _ _ _ n hX hN l u rfl rfl hll hul ?_⟩
  intro r hr j x a hx ha hb
  exact le_antisymm ((hus j a hb).2 r hr x hx) ((hls j a ha).2 r hr x hx)

/-- With equal bounds a different value does not come back. -/
theorem C31_simple_degenerate_lost : ∃ s N, simpleForward ⟨some [1], some [1], true⟩ [[2]] = some (s, N) ∧
    simpleBackward s N = some [[1]] := by
  refine ⟨_, _, rfl, ?_⟩
  decide +kernel

example : ∃ s N, simpleForward ⟨none, none, true⟩ [[1, 5], [3, 5]] = some (s, N) ∧ N = [[0, 0], [1, 0]] := by
  refine ⟨_, _, rfl, ?_⟩
  decide +kernel

end Props
