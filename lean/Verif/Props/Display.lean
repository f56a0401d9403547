import Verif.Model.Display
import Mathlib.Data.Nat.Digits.Lemmas
import Mathlib.Algebra.Order.BigOperators.Group.List
import Mathlib.Tactic.Ring
import Mathlib.Tactic.Linarith
import Mathlib.Tactic.FieldSimp
import Mathlib.Tactic.NormNum
import Mathlib.Tactic.IntervalCases

/-!
# C125: the printed table and the progress bar
-/

set_option linter.unusedSimpArgs false
set_option linter.unusedVariables false

namespace Props
open Model

theorem rjust_length (t : Text) (w : ℕ) (h : t.length ≤ w) : (rjust t w).length = w := by
  unfold rjust; simp; omega

/-- C125: every cell of a truncating column has the width of the column. -/
theorem C125_cell_width (c : DispCol) (h : c.truncate = true) : c.text.length = c.width := by
  unfold DispCol.text formatText
  refine rjust_length _ _ ?_
  split_ifs with hc
  · rw [List.length_take]; exact Nat.min_le_left _ _
  · rw [not_and] at hc; exact Nat.le_of_not_gt (hc h)

/-- C125: a text that fits is printed in full, to the right; one that does not fit is cut off at the end. -/
theorem C125_cell_text (c : DispCol) :
    ((cellText c.value).length ≤ c.width → c.text = List.replicate (c.width - (cellText c.value).length) ' ' ++ cellText c.value) ∧
    (c.width < (cellText c.value).length → c.text = if c.truncate then (cellText c.value).take c.width else cellText c.value) := by
  unfold DispCol.text formatText
  constructor
  · intro h
    rw [if_neg (by intro hc; omega), rjust]
  · intro h
    by_cases ht : c.truncate = true
    · rw [if_pos ⟨ht, h⟩, if_pos ht, rjust, List.length_take, Nat.min_eq_left h.le]; simp
    · rw [if_neg (fun hc => ht hc.1), if_neg ht, rjust, show c.width - (cellText c.value).length = 0 by omega]; simp

theorem natText_length (n w : ℕ) (hw : 0 < w) : (natText n).length ≤ w ↔ n < 10 ^ w := by
  unfold natText
  split_ifs with h
  · subst h; simp; omega
  · rw [List.length_map, List.length_reverse, Nat.digits_length_le_iff (by norm_num)]

theorem digitChar_inj : ∀ a < 10, ∀ b < 10, Nat.digitChar a = Nat.digitChar b → a = b := by decide

theorem natText_inj (a b : ℕ) (h : natText a = natText b) : a = b := by
  have key : ∀ n : ℕ, n ≠ 0 → natText n ≠ ['0'] := by
    intro n hn hc
    unfold natText at hc
    rw [if_neg hn] at hc
    have hl : (Nat.digits 10 n).length = 1 := by have := congrArg List.length hc; simpa using this
    have hlt : n < 10 := by have := (Nat.digits_length_le_iff (b := 10) (k := 1) (by norm_num) n).1 hl.le; simpa using this
    interval_cases n <;> simp_all (decide := true)
  by_cases ha : a = 0
  · by_cases hb : b = 0
    · rw [ha, hb]
    · exact absurd (h.symm.trans (by rw [ha]; rfl)) (key b hb)
  · by_cases hb : b = 0
    · exact absurd (h.trans (by rw [hb]; rfl)) (key a ha)
    · unfold natText at h
      rw [if_neg ha, if_neg hb] at h
      have hd : Nat.digits 10 a = Nat.digits 10 b := by
        have h' : ((Nat.digits 10 a).map Nat.digitChar) = (Nat.digits 10 b).map Nat.digitChar := by
          have := congrArg List.reverse h
          simpa using this
        have hinj : ∀ (l l' : List ℕ), (∀ x ∈ l, x < 10) → (∀ x ∈ l', x < 10) → l.map Nat.digitChar = l'.map Nat.digitChar → l = l' := by
          intro l
          induction l with
          | nil => intro l' _ _ h; simpa using h.symm
          | cons x l ih =>
            intro l' h1 h2 h3
            cases l' with
            | nil => simp at h3
            | cons y l' =>
              simp only [List.map_cons, List.cons.injEq] at h3
              rw [digitChar_inj x (h1 x (by simp)) y (h2 y (by simp)) h3.1,
                ih l' (fun z hz => h1 z (by simp [hz])) (fun z hz => h2 z (by simp [hz])) h3.2]
        exact hinj _ _ (fun x hx => Nat.digits_lt_base (by norm_num) hx) (fun x hx => Nat.digits_lt_base (by norm_num) hx) h'
      rw [← Nat.ofDigits_digits 10 a, hd, Nat.ofDigits_digits]

/-- C125: an integer below `10 ^ width` is printed in full, and different ones are printed differently. -/
theorem C125_integers (c : DispCol) (hw : 0 < c.width) (n : ℕ) (hc : c.value = .int n) (hn : n < 10 ^ c.width) :
    c.text = List.replicate (c.width - (natText n).length) ' ' ++ natText n ∧
    ∀ c' : DispCol, ∀ n', c'.width = c.width → c'.value = .int n' → n' < 10 ^ c.width → c'.text = c.text → n' = n := by
  have fit : ∀ (c : DispCol) (n : ℕ), 0 < c.width → c.value = .int n → n < 10 ^ c.width →
      c.text = List.replicate (c.width - (natText n).length) ' ' ++ natText n := by
    intro c n hw hc hn
    have := (C125_cell_text c).1 (by rw [hc]; exact (natText_length n _ hw).2 hn)
    rw [this, hc]; rfl
  have blank : ∀ n : ℕ, ∀ x ∈ natText n, x ≠ ' ' := by
    intro n x hx
    unfold natText at hx
    split_ifs at hx with h0
    · simp only [List.mem_singleton] at hx; rw [hx]; decide
    · rw [List.mem_map] at hx
      obtain ⟨d, hd, rfl⟩ := hx
      rw [List.mem_reverse] at hd
      have := Nat.digits_lt_base (by norm_num : 1 < 10) hd
      interval_cases d <;> decide
  refine ⟨fit c n hw hc hn, fun c' n' hw' hc' hn' he => ?_⟩
  rw [fit c n hw hc hn, fit c' n' (by omega) hc' (by rw [hw']; exact hn')] at he
  have := congrArg (List.filter fun x => decide (x ≠ ' ')) he
  simp only [List.filter_append] at this
  have hr : ∀ k, (List.replicate k ' ').filter (fun x => decide (x ≠ ' ')) = [] := fun k => by simp
  have hf : ∀ n, (natText n).filter (fun x => decide (x ≠ ' ')) = natText n := fun n => by
    rw [List.filter_eq_self]; intro x hx; simpa using blank n x hx
  rw [hr, hr, hf, hf, List.nil_append, List.nil_append] at this
  exact natText_inj _ _ this

example : (DispCol.mk "n_gen".toList 6 true (.int 42)).text = "    42".toList := by decide +kernel

/-- C125, refuted: from the millionth generation on the column `n_gen` (width 6) shows another number, and so does `n_eval` (width 8) from `10 ^ 8`
evaluations on. -/
theorem C125_integers_refuted :
    (DispCol.mk "n_gen".toList 6 true (.int 1000000)).text = (DispCol.mk "n_gen".toList 6 true (.int 100000)).text ∧
    (DispCol.mk "n_eval".toList 8 true (.int 123456789)).text = (DispCol.mk "n_eval".toList 8 true (.int 12345678)).text := by
  constructor <;> decide +kernel

/-- C125: a number printed with a fixed number of digits fits, and so does one in scientific notation unless it is negative with an exponent of three digits. -/
theorem C125_numbers (width : ℕ) (hw : 8 ≤ width) :
    (∀ int frac, int ≤ 10 → frac.length = width - 3 → (cellText (.fix int frac)).length ≤ width) ∧
    ∀ s : SciNum, s.frac.length = width - 7 → s.expo < 1000 →
      (cellText (.sci s)).length = width - 1 + (if s.neg then 1 else 0) + (if 100 ≤ s.expo then 1 else 0) ∧
      ((cellText (.sci s)).length ≤ width ↔ ¬ (s.neg = true ∧ 100 ≤ s.expo)) := by
  constructor
  · intro int frac hi hf
    have h1 : (natText int).length ≤ 2 := (natText_length int 2 (by norm_num)).2 (by norm_num; omega)
    unfold cellText fixText
    have : frac ≠ [] := by intro h; rw [h] at hf; simp at hf; omega
    simp only [this, if_false, List.length_append, List.length_cons]
    omega
  · intro s hf he
    have hne : s.frac ≠ [] := by intro h; rw [h] at hf; simp at hf; omega
    have e3 : (natText s.expo).length ≤ 3 := (natText_length _ 3 (by norm_num)).2 (by norm_num; omega)
    have e2 : (natText s.expo).length ≤ 2 ↔ s.expo < 100 := by rw [natText_length _ 2 (by norm_num)]; norm_num
    have e1 : (natText s.expo).length ≤ 1 ↔ s.expo < 10 := by rw [natText_length _ 1 (by norm_num)]; simp
    have e0 : 1 ≤ (natText s.expo).length := by
      by_contra hc
      have : natText s.expo = [] := List.length_eq_zero_iff.1 (by omega)
      unfold natText at this
      split_ifs at this with h0
      rw [List.map_eq_nil_iff, List.reverse_eq_nil_iff, Nat.digits_eq_nil_iff_eq_zero] at this
      exact h0 this
    unfold cellText sciText
    simp only [hne, if_false, List.length_append, List.length_cons, List.length_nil]
    cases hs : s.neg <;> by_cases h10 : s.expo < 10 <;> by_cases h100 : 100 ≤ s.expo <;> simp only [hs, h10, h100, and_true, and_false, not_true_eq_false, iff_false, Bool.false_eq_true, if_false, if_true, List.length_cons, List.length_nil, false_and, not_false_eq_true, true_and, iff_true] <;> omega

example : sciText ⟨true, '1', "234567".toList, true, 7⟩ = "-1.234567E-07".toList ∧ fixText 3 "1415926535".toList = "3.1415926535".toList := by decide +kernel

/-- C125, refuted: two negative numbers, one `10 ^ 90` times the other, are printed alike. -/
theorem C125_numbers_refuted : (DispCol.mk "f_min".toList 13 true (.sci ⟨true, '1', "234567".toList, false, 100⟩)).text =
    (DispCol.mk "f_min".toList 13 true (.sci ⟨true, '1', "234567".toList, false, 10⟩)).text := by decide +kernel

/-! ### Lines -/

theorem joinBar_length (l : List Text) : (joinBar l).length = (l.map List.length).sum + 3 * (l.length - 1) := by
  induction l with
  | nil => rfl
  | cons t l ih =>
    cases l with
    | nil => simp [joinBar]
    | cons u l =>
      rw [joinBar, List.length_append, List.length_append, ih]
      · simp only [List.map_cons, List.sum_cons, List.length_cons, List.length_nil]; omega
      · simp

theorem center_length (t : Text) (w : ℕ) (h : t.length ≤ w) : (centerText t w).length = w := by
  unfold centerText
  simp only [List.length_append, List.length_replicate]
  split_ifs <;> omega

/-- C125: all lines printed in a run — the header with its two rules and one line per iteration — have the same length, if the columns stay the same, truncate
and are as wide as their names. The header is printed once. -/
theorem C125_aligned (head : List (Text × ℕ)) (hfit : ∀ p ∈ head, p.1.length ≤ p.2) (rows : List (List DispCol)) (hne : rows ≠ [])
    (hrows : ∀ r ∈ rows, r.map (fun c => (c.name, c.width)) = head ∧ ∀ c ∈ r, c.truncate = true) :
    (∀ line ∈ displayRun rows, line.length = (head.map (·.2)).sum + 3 * (head.length - 1)) ∧ (displayRun rows).length = rows.length + 3 ∧
    ∀ i (hi : i < rows.length), (displayRun rows)[i + 3]? = some (outText rows[i]) := by
  have htext : ∀ r ∈ rows, (outText r).length = (head.map (·.2)).sum + 3 * (head.length - 1) := by
    intro r hr
    obtain ⟨h1, h2⟩ := hrows r hr
    unfold outText
    rw [joinBar_length, List.map_map, List.length_map]
    have e : r.map (List.length ∘ DispCol.text) = head.map (·.2) := by
      rw [← h1, List.map_map]
      exact List.map_congr_left fun c hc => C125_cell_width c (h2 c hc)
    rw [e, ← h1, List.length_map]
  cases rows with
  | nil => exact absurd rfl hne
  | cons r rs =>
    have hr := hrows r (by simp)
    have hh : (joinBar (r.map fun c => centerText c.name c.width)).length = (head.map (·.2)).sum + 3 * (head.length - 1) := by
      rw [joinBar_length, List.map_map, List.length_map]
      have e : r.map (List.length ∘ fun c => centerText c.name c.width) = head.map (·.2) := by
        rw [← hr.1, List.map_map]
        refine List.map_congr_left fun c hc => center_length _ _ (hfit (c.name, c.width) ?_)
        rw [← hr.1]; exact List.mem_map_of_mem hc
      rw [e, ← hr.1, List.length_map]
    have hflat : (rs.map (displayLines false)).flatten = rs.map outText := by
      have : rs.map (displayLines false) = rs.map fun r => [outText r] := List.map_congr_left fun r _ => rfl
      rw [this]
      clear this hne hrows htext
      induction rs with
      | nil => rfl
      | cons a l ih => rw [List.map_cons, List.flatten_cons, ih]; rfl
    have hrun : displayRun (r :: rs) = outHeader r ++ (r :: rs).map outText := by
      rw [displayRun, hflat]; simp [displayLines]
    refine ⟨fun line hl => ?_, ?_, fun i hi => ?_⟩
    · rw [hrun, List.mem_append] at hl
      rcases hl with hl | hl
      · unfold outHeader at hl
        simp only [List.mem_cons, List.not_mem_nil, or_false] at hl
        rcases hl with rfl | rfl | rfl
        · rw [List.length_replicate, hh]
        · exact hh
        · rw [List.length_replicate, hh]
      · obtain ⟨r', hr', rfl⟩ := List.mem_map.1 hl
        exact htext r' hr'
    · rw [hrun, List.length_append, List.length_map]; simp [outHeader]; omega
    · rw [hrun, List.getElem?_append_right (by simp [outHeader])]
      have : (outHeader r).length = 3 := by simp [outHeader]
      rw [this, Nat.add_sub_cancel, List.getElem?_map, List.getElem?_eq_getElem hi]; rfl

/-- The columns of `MultiObjectiveOutput` and `SingleObjectiveOutput` (output.py:55-57, multi.py:17-48, single.py:15-58), with their widths. -/
def shippedColumns : List (Text × ℕ) :=
  [("n_gen".toList, 6), ("n_eval".toList, 8), ("n_nds".toList, 6), ("cv_min".toList, 13), ("cv_avg".toList, 13), ("igd".toList, 13), ("gd".toList, 13),
   ("hv".toList, 13), ("eps".toList, 13), ("indicator".toList, 13), ("f_avg".toList, 13), ("f_min".toList, 13), ("f_gap".toList, 13)]

/-- The names of the columns that come with pymoo fit. -/
example : ∀ p ∈ shippedColumns, p.1.length ≤ p.2 := by decide +kernel

example : displayRun [[⟨"n_gen".toList, 6, true, .int 1⟩, ⟨"eps".toList, 13, true, .none⟩], [⟨"n_gen".toList, 6, true, .int 2⟩, ⟨"eps".toList, 13, true, .fix 0 "0123456789".toList⟩]] =
    ["======================".toList, "n_gen  |      eps     ".toList, "======================".toList, "     1 |             -".toList, "     2 |  0.0123456789".toList] := by decide +kernel

/-! ### Single-objective rows -/

section Single
variable {K : Type*} [Field K] [LinearOrder K] [IsStrictOrderedRing K]

/-- C125: a row of a single-objective run shows the current iteration only, whatever was shown before: the least objective is shown iff the best solution is
feasible, and is then the least objective of the feasible solutions and at most the average shown; the gap is its distance to the known optimum. -/
theorem C125_single (constrained : Bool) (best : Option K) (prev : SoRow K) (pop : List (SoInd K)) (opt : SoInd K) (optCvs : List K) (hopt : opt ∈ pop)
    (hbest : ∀ x ∈ pop, x.feas = true → opt.feas = true ∧ opt.f ≤ x.f) :
    let r := soUpdate constrained best prev pop opt optCvs
    ((r.fMin = none ↔ ∀ x ∈ pop, x.feas = false) ∧ (r.fAvg = none ↔ r.fMin = none)) ∧
    (∀ f, r.fMin = some f → (∃ x ∈ pop, x.feas = true ∧ x.f = f) ∧ (∀ x ∈ pop, x.feas = true → f ≤ x.f) ∧ (∀ b, best = some b → r.fGap = some (f - b)) ∧
      ∃ a, r.fAvg = some a ∧ f ≤ a) ∧
    (r.fMin = none → r.fGap = none) ∧
    ∀ prev', (soUpdate constrained best prev' pop opt optCvs).fMin = r.fMin ∧ (soUpdate constrained best prev' pop opt optCvs).fAvg = r.fAvg ∧
      (constrained = true → (soUpdate constrained best prev' pop opt optCvs).cvMin = r.cvMin ∧ (soUpdate constrained best prev' pop opt optCvs).cvAvg = r.cvAvg) ∧
      (best.isSome = true → (soUpdate constrained best prev' pop opt optCvs).fGap = r.fGap) := by
  intro r
  have hlen : opt.feas = true → 0 < (pop.filter (·.feas)).length := fun h => List.length_pos_of_mem (List.mem_filter.2 ⟨hopt, h⟩)
  have hnone : opt.feas = false → ∀ x ∈ pop, x.feas = false := fun h x hx => by
    by_contra hc
    have := (hbest x hx (by simpa using hc)).1
    rw [h] at this; cases this
  cases ho : opt.feas with
  | false =>
    have hz := hnone ho
    have hfil : pop.filter (·.feas) = [] := by rw [List.filter_eq_nil_iff]; intro x hx; simp [hz x hx]
    refine ⟨⟨⟨fun _ => hz, fun _ => by simp [r, soUpdate, ho]⟩, by simp [r, soUpdate, ho, hfil]⟩, fun f hf => ?_, fun _ => by simp [r, soUpdate, ho], fun prev' => ?_⟩
    · simp [r, soUpdate, ho] at hf
    · simp [r, soUpdate, ho]
      intro h; simp [h]
  | true =>
    have hpos := hlen ho
    refine ⟨⟨⟨fun h => by simp [r, soUpdate, ho] at h, fun h => by have := h opt hopt; rw [ho] at this; cases this⟩, ?_⟩, fun f hf => ?_, fun h => by simp [r, soUpdate, ho] at h, fun prev' => ?_⟩
    · simp only [r, soUpdate, ho, if_true]; simp [hpos]
    · have hf' : opt.f = f := by simpa [r, soUpdate, ho] using hf
      refine ⟨⟨opt, hopt, ho, hf'⟩, fun x hx h => hf' ▸ (hbest x hx h).2, fun b hb => by simp [r, soUpdate, ho, hb, hf'], ?_⟩
      refine ⟨((pop.filter (·.feas)).map (·.f)).sum / (pop.filter (·.feas)).length, by simp only [r, soUpdate, ho, if_true]; rw [if_pos hpos], ?_⟩
      rw [le_div_iff₀ (by exact_mod_cast hpos), mul_comm, ← nsmul_eq_mul]
      have := List.card_nsmul_le_sum ((pop.filter (·.feas)).map (·.f)) f (by
        intro y hy
        obtain ⟨x, hx, rfl⟩ := List.mem_map.1 hy
        rw [List.mem_filter] at hx
        exact hf' ▸ (hbest x hx.1 hx.2).2)
      rwa [List.length_map] at this
    · refine ⟨by simp [r, soUpdate, ho], by simp [r, soUpdate, ho], fun h => by simp [r, soUpdate, ho, h], fun h => ?_⟩
      obtain ⟨b, rfl⟩ := Option.isSome_iff_exists.1 h
      simp [r, soUpdate, ho]

end Single

example : let p : List (SoInd ℚ) := [⟨3, 0, true⟩, ⟨1, 0, true⟩, ⟨0, 2, false⟩]
    (∀ x ∈ p, x.feas = true → (p[1]).feas = true ∧ (p[1]).f ≤ x.f) ∧ (soUpdate true (some 1) ⟨none, none, none, none, none⟩ p p[1] [0]).fAvg = some 2 := by decide +kernel

/-! ### Progress -/

theorem floor_hundred (v : ℚ) : (⌊v * 100⌋ : ℚ) / 100 ≤ v ∧ v < (⌊v * 100⌋ : ℚ) / 100 + 1 / 100 := by
  have h1 := Int.floor_le (v * 100)
  have h2 := Int.lt_floor_add_one (v * 100)
  constructor <;> linarith

theorem floor_hundred_mono {a b : ℚ} (h : a ≤ b) : (⌊a * 100⌋ : ℚ) / 100 ≤ (⌊b * 100⌋ : ℚ) / 100 := by
  have : ⌊a * 100⌋ ≤ ⌊b * 100⌋ := Int.floor_le_floor (by linarith)
  have : (⌊a * 100⌋ : ℚ) ≤ ⌊b * 100⌋ := by exact_mod_cast this
  linarith

theorem progressRun_get (vs : List ℚ) (mx : ℚ) (i : ℕ) (hi : i < vs.length) :
    (progressRun true mx vs)[i]? = some ((⌊((vs.take (i + 1)).foldl max mx) * 100⌋ : ℚ) / 100) := by
  induction vs generalizing mx i with
  | nil => simp at hi
  | cons v vs ih =>
    rw [progressRun]
    cases i with
    | zero => simp [progressSet]
    | succ i => rw [List.getElem?_cons_succ, ih _ i (by simpa using hi)]; simp [progressSet]

theorem foldl_max_spec (l : List ℚ) (m : ℚ) : m ≤ l.foldl max m ∧ (∀ v ∈ l, v ≤ l.foldl max m) ∧ (l.foldl max m = m ∨ l.foldl max m ∈ l) := by
  induction l generalizing m with
  | nil => simp
  | cons v l ih =>
    obtain ⟨h1, h2, h3⟩ := ih (max m v)
    rw [List.foldl_cons]
    refine ⟨(le_max_left _ _).trans h1, fun w hw => ?_, ?_⟩
    · rcases List.mem_cons.1 hw with rfl | hw
      · exact (le_max_right _ _).trans h1
      · exact h2 w hw
    · rcases h3 with h3 | h3
      · rcases max_choice m v with h | h
        · left; rw [h3, h]
        · right; rw [h3, h]; simp
      · right; exact List.mem_cons_of_mem _ h3

/-- C125: the progress bar never goes back, stays between zero and one if the termination does, is less than one hundredth behind the greatest progress so far
and shows one exactly if a progress of one was reported. -/
theorem C125_progress (vs : List ℚ) (h01 : ∀ v ∈ vs, 0 ≤ v ∧ v ≤ 1) :
    (progressRun true 0 vs).length = vs.length ∧ (progressRun true 0 vs).Pairwise (· ≤ ·) ∧
    ∀ i (hi : i < vs.length), ∃ s, (progressRun true 0 vs)[i]? = some s ∧ 0 ≤ s ∧ s ≤ 1 ∧ (∀ j ≤ i, ∀ v, vs[j]? = some v → v < s + 1 / 100) ∧ (∃ v ∈ 0 :: vs.take (i + 1), s ≤ v) ∧
      (s = 1 ↔ ∃ v ∈ vs.take (i + 1), v = 1) := by
  have hlen : ∀ (vs : List ℚ) mx, (progressRun true mx vs).length = vs.length := by
    intro vs
    induction vs with
    | nil => intro mx; rfl
    | cons v vs ih => intro mx; rw [progressRun, List.length_cons, ih, List.length_cons]
  refine ⟨hlen vs 0, ?_, fun i hi => ?_⟩
  · rw [List.pairwise_iff_getElem]
    intro i j hi hj hij
    have h1 := progressRun_get vs 0 i (by rw [hlen] at hi; exact hi)
    have h2 := progressRun_get vs 0 j (by rw [hlen] at hj; exact hj)
    rw [List.getElem?_eq_getElem hi, Option.some.injEq] at h1
    rw [List.getElem?_eq_getElem hj, Option.some.injEq] at h2
    rw [h1, h2]
    refine floor_hundred_mono ?_
    have hsub : ∀ v ∈ vs.take (i + 1), v ∈ vs.take (j + 1) := fun v hv => (List.take_prefix_take_left (l := vs) (by omega : i + 1 ≤ j + 1)).subset hv
    rcases (foldl_max_spec (vs.take (i + 1)) 0).2.2 with h | h
    · rw [h]; exact (foldl_max_spec _ 0).1
    · exact (foldl_max_spec _ 0).2.1 _ (hsub _ h)
  · obtain ⟨m1, m2, m3⟩ := foldl_max_spec (vs.take (i + 1)) 0
    set mx := (vs.take (i + 1)).foldl max 0
    have hm1 : mx ≤ 1 := by
      rcases m3 with h | h
      · rw [h]; norm_num
      · exact (h01 _ (List.mem_of_mem_take h)).2
    obtain ⟨f1, f2⟩ := floor_hundred mx
    refine ⟨_, progressRun_get vs 0 i hi, ?_, f1.trans hm1, fun j hj v hv => ?_, ⟨mx, ?_, f1⟩, ?_⟩
    · have := floor_hundred_mono m1; simpa using this
    · refine lt_of_le_of_lt (m2 v ?_) f2
      rw [List.mem_take_iff_getElem]
      obtain ⟨hj', rfl⟩ := List.getElem?_eq_some_iff.1 hv
      exact ⟨j, by omega, rfl⟩
    · rcases m3 with h | h
      · rw [h]; simp
      · exact List.mem_cons_of_mem _ h
    · constructor
      · intro h
        have : mx = 1 := le_antisymm hm1 (by linarith)
        rcases m3 with h3 | h3
        · rw [this] at h3; norm_num at h3
        · exact ⟨mx, h3, this⟩
      · rintro ⟨v, hv, rfl⟩
        have : mx = 1 := le_antisymm hm1 (m2 1 hv)
        rw [show (List.foldl max 0 (List.take (i + 1) vs)) = 1 from this]
        norm_num

example : progressRun true 0 [1 / 3, 1 / 4, 1] = [33 / 100, 33 / 100, 1] := by decide +kernel

end Props
