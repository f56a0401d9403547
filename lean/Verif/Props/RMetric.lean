import Mathlib.Tactic.Linarith
import Mathlib.Tactic.Ring
import Mathlib.Data.Fin.VecNotation
import Verif.Model.RMetric
import Verif.Lemmas.Optimum
import Verif.Props.AgeScore
import Verif.Props.Indicators
import Verif.Props.Hypervolume
import Verif.Props.Distances
import Verif.Spec.Pareto

/-! # C135: the R-metric -/

set_option linter.unusedSimpArgs false
set_option linter.unusedVariables false

namespace Props
open Model Spec Lemmas

variable {m q : ℕ}

/-! ### Filtering -/

theorem rmCheck_neg (a b : Fin (m + 1) → ℝ) : rmCheck a b = -1 ↔ Dominates b a := by
  unfold rmCheck Dominates
  simp only
  have h2 : (∃ i, ¬ a i < b i ∧ b i < a i) ↔ ∃ i, b i < a i :=
    ⟨fun ⟨i, _, h⟩ => ⟨i, h⟩, fun ⟨i, h⟩ => ⟨i, not_lt.2 h.le, h⟩⟩
  have h1 : (¬ ∃ i, a i < b i) ↔ ∀ i, b i ≤ a i := by push Not; rfl
  simp only [h2]
  by_cases e1 : ∃ i, a i < b i
  · have n1 : ¬ ∀ i, b i ≤ a i := fun h => absurd e1 (h1.2 h)
    by_cases e2 : ∃ i, b i < a i <;> simp [e1, e2, n1]
  · have n1 := h1.1 e1
    by_cases e2 : ∃ i, b i < a i <;> simp [e1, e2, n1]

/-- The solutions used are, in their order, those that no solution of the other algorithms dominates. -/
theorem C135_filter (others : List (Fin (m + 1) → ℝ)) (F : List (Fin (m + 1) → ℝ)) : rmFilter none F = F ∧
    (rmFilter (some others) F).Sublist F ∧ ∀ x, x ∈ rmFilter (some others) F ↔ x ∈ F ∧ ∀ y ∈ others, ¬ Dominates y x := by
  refine ⟨rfl, List.filter_sublist, fun x => ?_⟩
  simp only [rmFilter, List.mem_filter, decide_eq_true_eq, rmCheck_neg]
  push Not
  rfl

/-! ### Translation -/

/-- The reference point is the closest one; ties go to the first. -/
def RmNearest (refs : Fin q → Fin (m + 1) → ℝ) (x : Fin (m + 1) → ℝ) (i : Fin q) : Prop :=
  (∀ j, euclid (fun _ => 1) x (refs i) ≤ euclid (fun _ => 1) x (refs j)) ∧ ∀ j < i, euclid (fun _ => 1) x (refs i) < euclid (fun _ => 1) x (refs j)

theorem rmLabel_iff (refs : Fin q → Fin (m + 1) → ℝ) (x : Fin (m + 1) → ℝ) (i : Fin q) : rmLabel refs x = i ↔ RmNearest refs x i := by
  have hq : 0 < q := lt_of_le_of_lt (Nat.zero_le _) i.2
  obtain ⟨h1, h2, h3⟩ := firstMin_spec (fun j => if h : j < q then indEuclid (fun _ => 1) x (refs ⟨j, h⟩) else 0) q hq
  have ev : ∀ j : Fin q, (if h : (j : ℕ) < q then indEuclid (fun _ => 1) x (refs ⟨j, h⟩) else 0) = euclid (fun _ => 1) x (refs j) := by
    intro j; rw [dif_pos j.2]; rfl
  change (firstMin _ q) = _ ↔ _
  constructor
  · intro h
    rw [h] at h2 h3
    refine ⟨fun j => ?_, fun j hj => ?_⟩
    · have := h2 j j.2
      simp only [ev] at this; exact this
    · have := h3 j hj
      simp only [ev] at this; exact this
  · rintro ⟨g1, g2⟩
    set l := firstMin (fun j => if h : j < q then indEuclid (fun _ => 1) x (refs ⟨j, h⟩) else 0) q with hl
    rcases lt_trichotomy l (i : ℕ) with hlt | heq | hgt
    · have a := g2 ⟨l, h1⟩ hlt
      have b := h2 i i.2
      have c := ev ⟨l, h1⟩
      simp only [ev] at b c
      rw [c] at b
      exact absurd b (not_le.2 a)
    · exact heq
    · have a := h3 i hgt
      have b := g1 ⟨l, h1⟩
      have c := ev ⟨l, h1⟩
      simp only [ev] at a c
      rw [c] at a
      exact absurd a (not_lt.2 b)

/-- The largest difference to the reference point (of the objectives). -/
def RmGap (r z : Fin (m + 1) → ℝ) (s : ℝ) : Prop := IsGreatest {v | ∃ k, v = z k - r k} s

theorem rmAgg_gap (r z : Fin (m + 1) → ℝ) : RmGap r z (2 * rmAgg r (fun k => r k + 2) z) := by
  have hr : ∀ k, rmRatio r (fun k => r k + 2) z k = (z k - r k) / 2 := fun k => by unfold rmRatio; congr 1; ring
  obtain ⟨k, -, hk⟩ := Finset.exists_mem_eq_sup' Finset.univ_nonempty (rmRatio r (fun k => r k + 2) z)
  refine ⟨⟨k, ?_⟩, ?_⟩
  · unfold rmAgg; rw [hk, hr]; ring
  · rintro _ ⟨j, rfl⟩
    have := Finset.le_sup' (rmRatio r (fun k => r k + 2) z) (Finset.mem_univ j)
    unfold rmAgg
    rw [hr] at this
    linarith

theorem gap_unique {r z : Fin (m + 1) → ℝ} {s t : ℝ} (h : RmGap r z s) (h' : RmGap r z t) : s = t := h.unique h'

theorem rmShift_eq (r z : Fin (m + 1) → ℝ) {s : ℝ} (hs : RmGap r z s) (k : Fin (m + 1)) : rmShift r (fun k => r k + 2) z k = r k + s - z k := by
  unfold rmShift
  simp only
  obtain ⟨hnone, hsome⟩ := npArgmin_spec (fun i => OrderDual.toDual (rmRatio r (fun k => r k + 2) z i)) (List.finRange (m + 1))
  obtain ⟨j, h1⟩ : ∃ j, npArgmin (fun i => OrderDual.toDual (rmRatio r (fun k => r k + 2) z i)) (List.finRange (m + 1)) = some j := by
    rcases h : npArgmin (fun i => OrderDual.toDual (rmRatio r (fun k => r k + 2) z i)) (List.finRange (m + 1)) with _ | j
    · have := congrArg List.length (hnone.1 h); simp at this
    · exact ⟨j, rfl⟩
  have h3 := (hsome j h1).2
  rw [h1]
  have hr : ∀ k, rmRatio r (fun k => r k + 2) z k = (z k - r k) / 2 := fun k => by unfold rmRatio; congr 1; ring
  have : s = z j - r j := gap_unique hs ⟨⟨j, rfl⟩, by
    rintro _ ⟨i, rfl⟩
    have := h3 i (List.mem_finRange i)
    rw [OrderDual.toDual_le_toDual, hr, hr] at this
    linarith⟩
  simp only [Option.getD_some, hr, this]
  ring

/-- The representative `z` of a list: its largest difference to the reference point is least. -/
structure RmRepresentative (r : Fin (m + 1) → ℝ) (data : List (Fin (m + 1) → ℝ)) (z : Fin (m + 1) → ℝ) : Prop where
  mem : z ∈ data
  least : ∀ y ∈ data, ∀ s t, RmGap r z s → RmGap r y t → s ≤ t

theorem rmRep_spec (r : Fin (m + 1) → ℝ) (data : List (Fin (m + 1) → ℝ)) (h : data ≠ []) :
    ∃ z, rmRep r (fun k => r k + 2) data = some z ∧ RmRepresentative r data z := by
  obtain ⟨z, h1, h2, h3⟩ := npArgmin_least (rmAgg r fun k => r k + 2) data h
  refine ⟨z, h1, h2, fun y hy s t hs ht => ?_⟩
  rw [gap_unique hs (rmAgg_gap r z), gap_unique ht (rmAgg_gap r y)]
  linarith [h3 y hy]

/-- The translated solutions. For every reference point `i` with solutions closest to it, the solutions within half of `delta` of a
representative `z` are moved by the same vector, which takes the representative to the diagonal through the reference point: to
`refs i + s` where `s` is its largest difference. -/
theorem C135_translated (refs : Fin q → Fin (m + 1) → ℝ) (wp) (hw : rmPoints refs none = some wp) (delta : ℝ) (pop : List (Fin (m + 1) → ℝ)) :
    ∃ rep : Fin q → Fin (m + 1) → ℝ, (∀ i, (∃ x ∈ pop, RmNearest refs x i) → RmNearest refs (rep i) i ∧
      ∀ cluster, (∀ x, x ∈ cluster ↔ x ∈ pop ∧ RmNearest refs x i) → RmRepresentative (refs i) cluster (rep i)) ∧
    ∀ y, y ∈ rmTranslated refs wp delta pop ↔ ∃ i, ∃ x ∈ pop, RmNearest refs x i ∧ (∀ k, |x k - rep i k| < delta / 2) ∧
      ∀ s, RmGap (refs i) (rep i) s → ∀ k, y k = x k + (refs i k + s - rep i k) := by
  have hwp : wp = fun i k => refs i k + 2 := (Option.some.inj hw).symm
  subst hwp
  have hcl : ∀ (i : Fin q) x, x ∈ pop.filter (fun x => decide (rmLabel refs x = i)) ↔ x ∈ pop ∧ RmNearest refs x i := fun i x => by
    rw [List.mem_filter, decide_eq_true_eq, rmLabel_iff]
  refine ⟨fun i => (rmRep (refs i) (fun k => refs i k + 2) (pop.filter fun x => decide (rmLabel refs x = i))).getD 0, fun i hx => ?_, fun y => ?_⟩
  · obtain ⟨x, hx1, hx2⟩ := hx
    have hne : pop.filter (fun x => decide (rmLabel refs x = i)) ≠ [] := List.ne_nil_of_mem ((hcl i x).2 ⟨hx1, hx2⟩)
    obtain ⟨z, h1, h2⟩ := rmRep_spec (refs i) _ hne
    simp only [h1, Option.getD_some]
    refine ⟨((hcl i z).1 h2.mem).2, fun cluster hc => ⟨(hc _).2 ((hcl i z).1 h2.mem), fun y hy => h2.least y ((hcl i y).2 ((hc y).1 hy))⟩⟩
  · unfold rmTranslated
    rw [List.mem_flatMap]
    simp only [List.mem_finRange, true_and]
    refine exists_congr fun i => ?_
    unfold rmCluster
    simp only
    by_cases hne : pop.filter (fun x => decide (rmLabel refs x = i)) = []
    · rw [hne]
      simp only [rmRep, npArgmin, List.not_mem_nil, false_iff]
      rintro ⟨x, hx, hx2, -⟩
      have := (hcl i x).2 ⟨hx, hx2⟩
      rw [hne] at this; simp at this
    · obtain ⟨z, h1, h2⟩ := rmRep_spec (refs i) _ hne
      rw [h1]
      simp only [Option.getD_some, List.mem_map, rmTrim, List.mem_filter, decide_eq_true_eq, rmLabel_iff]
      constructor
      · rintro ⟨x, ⟨⟨hx1, hx2⟩, hx3⟩, rfl⟩
        exact ⟨x, hx1, hx2, hx3, fun s hs k => by simp only [rmShift_eq _ _ hs]⟩
      · rintro ⟨x, hx1, hx2, hx3, hy⟩
        refine ⟨x, ⟨⟨hx1, hx2⟩, hx3⟩, ?_⟩
        funext k
        rw [hy _ (rmAgg_gap _ _) k, rmShift_eq _ _ (rmAgg_gap _ _)]

/-- Translating never improves an objective of a solution. -/
theorem C135_translated_worse (refs : Fin q → Fin (m + 1) → ℝ) (wp) (hw : rmPoints refs none = some wp) (delta : ℝ) (pop : List (Fin (m + 1) → ℝ)) :
    Covers pop (rmTranslated refs wp delta pop) := by
  obtain ⟨rep, -, h⟩ := C135_translated refs wp hw delta pop
  intro y hy
  obtain ⟨i, x, hx, -, -, hs⟩ := (h y).1 hy
  refine ⟨x, hx, fun k => ?_⟩
  have hg := rmAgg_gap (refs i) (rep i)
  rw [hs _ hg k]
  have := hg.2 ⟨k, rfl⟩
  linarith

theorem rmLabel_exists (hq : 0 < q) (refs : Fin q → Fin (m + 1) → ℝ) (x : Fin (m + 1) → ℝ) : ∃ i : Fin q, rmLabel refs x = i := by
  obtain ⟨h1, -, -⟩ := firstMin_spec (fun j => if h : j < q then indEuclid (fun _ => 1) x (refs ⟨j, h⟩) else 0) q hq
  exact ⟨⟨_, h1⟩, rfl⟩

/-- Something is translated exactly if there is a solution (for a positive `delta`). -/
theorem C135_translated_nonempty (hq : 0 < q) (refs : Fin q → Fin (m + 1) → ℝ) (wp) (hw : rmPoints refs none = some wp) (delta : ℝ) (hd : 0 < delta)
    (pop : List (Fin (m + 1) → ℝ)) : rmTranslated refs wp delta pop = [] ↔ pop = [] := by
  obtain ⟨rep, h1, h2⟩ := C135_translated refs wp hw delta pop
  constructor
  · intro h
    by_contra hp
    obtain ⟨x, hx⟩ := List.exists_mem_of_ne_nil _ hp
    obtain ⟨i, hi⟩ := rmLabel_exists hq refs x
    have hn := (rmLabel_iff refs x i).1 hi
    obtain ⟨g1, g2⟩ := h1 i ⟨x, hx, hn⟩
    have g3 := g2 (pop.filter fun x => decide (rmLabel refs x = i)) fun x => by rw [List.mem_filter, decide_eq_true_eq, rmLabel_iff]
    have g4 := List.mem_filter.1 g3.mem
    obtain ⟨s, hs⟩ : ∃ s, RmGap (refs i) (rep i) s := ⟨_, rmAgg_gap _ _⟩
    have : (fun k => rep i k + (refs i k + s - rep i k)) ∈ rmTranslated refs wp delta pop := (h2 _).2
      ⟨i, rep i, g4.1, g1, fun k => by rw [sub_self, abs_zero]; linarith, fun t ht k => by rw [gap_unique ht hs]⟩
    rw [h] at this; simp at this
  · rintro rfl
    rw [List.eq_nil_iff_forall_not_mem]
    intro y hy
    obtain ⟨i, x, hx, -⟩ := (h2 y).1 hy
    simp at hx

/-! ### The values -/

/-- The part of the Pareto front compared with: for each reference point the points of the front within 0.1 of a representative. -/
theorem C135_front (refs : Fin q → Fin (m + 1) → ℝ) (wp) (hw : rmPoints refs none = some wp) (pf : List (Fin (m + 1) → ℝ)) (hpf : pf ≠ []) (i : Fin q) :
    ∃ z, RmRepresentative (refs i) pf z ∧ z ∈ rmFront refs wp pf i ∧ ∀ y, y ∈ rmFront refs wp pf i ↔ y ∈ pf ∧ ∀ k, |y k - z k| < 0.1 := by
  have hwp : wp = fun i k => refs i k + 2 := (Option.some.inj hw).symm
  subst hwp
  obtain ⟨z, h1, h2⟩ := rmRep_spec (refs i) pf hpf
  have key : ∀ y, y ∈ rmFront refs (fun i k => refs i k + 2) pf i ↔ y ∈ pf ∧ ∀ k, |y k - z k| < 0.1 := fun y => by
    unfold rmFront
    rw [h1]
    simp only [rmTrim, List.mem_filter, decide_eq_true_eq]
    norm_num
  exact ⟨z, h2, (key z).2 ⟨h2.mem, fun k => by rw [sub_self, abs_zero]; norm_num⟩, key⟩

/-- What `do` returns, with the default weights and a positive `delta`: no values exactly if every solution is dominated by one of the
other algorithms; otherwise R-IGD is the inverted generational distance of the translated solutions to the parts of the front, and R-HV,
asked for with at most three objectives, is the hypervolume of the translated solutions for the largest of the points `refs i + 2`. -/
theorem C135_value (moo : Moocore (m + 1)) (hmoo : MooIgdContract moo) (hq : 0 < q) (refs : Fin q → Fin (m + 1) → ℝ) (delta : ℝ) (hd : 0 < delta)
    (pf : List (Fin (m + 1) → ℝ)) (hpf : pf ≠ []) (F : List (Fin (m + 1) → ℝ)) (others : Option (List (Fin (m + 1) → ℝ))) (calcHv : Bool)
    (wp) (hw : rmPoints refs none = some wp) :
    (rmFilter others F = [] → rmDo moo refs none delta (some pf) F others calcHv = some (none, none)) ∧
    (rmFilter others F ≠ [] → ∃ (H : HvInd (m + 1)), H.norm = none ∧ (∀ k, IsGreatest {v | ∃ i, v = refs i k + 2} (H.ref k)) ∧
      rmDo moo refs none delta (some pf) F others calcHv =
        some (some (invGenDist (euclid fun _ => 1) ((List.finRange q).flatMap (rmFront refs wp pf)) (rmTranslated refs wp delta (rmFilter others F))),
          if calcHv ∧ m + 1 ≤ 3 then some (hvDo moo H (rmTranslated refs wp delta (rmFilter others F))) else none)) := by
  have hmatch : rmDo moo refs none delta (some pf) F others calcHv =
      if rmTranslated refs wp delta (rmFilter others F) = [] then some (none, none)
      else (distInit { pf := (List.finRange q).flatMap (rmFront refs wp pf) }).bind fun I =>
        (distDo moo .igd I (rmTranslated refs wp delta (rmFilter others F))).map fun rigd =>
        (some rigd, if calcHv ∧ m + 1 ≤ 3 then
          (hvInit { refPoint := ptMax ((List.finRange q).map wp) }).map fun H => hvDo moo H (rmTranslated refs wp delta (rmFilter others F)) else none) := by
    unfold rmDo
    rw [hw]
    cases pf with
    | nil => exact absurd rfl hpf
    | cons a l => rfl
  rw [hmatch]
  constructor
  · intro h
    rw [if_pos ((C135_translated_nonempty hq refs wp hw delta hd _).2 h)]
  · intro h
    have hne : rmTranslated refs wp delta (rmFilter others F) ≠ [] := fun h' => h ((C135_translated_nonempty hq refs wp hw delta hd _).1 h')
    rw [if_neg hne]
    have hfr : (List.finRange q).flatMap (rmFront refs wp pf) ≠ [] := by
      obtain ⟨z, -, hz, -⟩ := C135_front refs wp hw pf hpf ⟨0, hq⟩
      exact List.ne_nil_of_mem (List.mem_flatMap.2 ⟨_, List.mem_finRange _, hz⟩)
    obtain ⟨I, hI⟩ := (C59_accepts { pf := (List.finRange q).flatMap (rmFront refs wp pf) }).2 ⟨hfr, by simp⟩
    have hval := C59_value moo hmoo .igd _ I hI (fun _ => 1) (by
      obtain ⟨lo, hlo⟩ := ptMin_isSome hfr
      obtain ⟨hi, hhi⟩ := ptMax_isSome hfr
      exact ⟨lo, hi, frontRange_of hlo hhi, fun k => by simp⟩) _ hne
    have hwne : (List.finRange q).map wp ≠ [] := by
      intro h0
      have := congrArg List.length h0
      simp at this
      omega
    obtain ⟨hi, hhi⟩ := ptMax_isSome hwne
    obtain ⟨lo, hlo⟩ := ptMin_isSome hwne
    have hfrng := frontRange_of hlo hhi
    have hwp : wp = fun i k => refs i k + 2 := (Option.some.inj hw).symm
    refine ⟨⟨none, hi⟩, rfl, fun k => ?_, ?_⟩
    · have := (hfrng k).2
      convert this using 1
      ext v
      simp [hwp]
    · rw [hI, Option.bind_some, hval, Option.map_some]
      have : hvInit { refPoint := ptMax ((List.finRange q).map wp) } = some ⟨none, hi⟩ := by
        rw [hhi]
        simp [hvInit]
      rw [this]
      rfl

/-- R-HV is at most the hypervolume of the solutions themselves, for the same reference point. -/
theorem C135_rhv_le (moo : Moocore (m + 1)) (hmoo : MooHvContract moo) (H : HvInd (m + 1)) (hn : H.norm = none) (refs : Fin q → Fin (m + 1) → ℝ)
    (wp) (hw : rmPoints refs none = some wp) (delta : ℝ) (pop : List (Fin (m + 1) → ℝ)) :
    hvDo moo H (rmTranslated refs wp delta pop) ≤ hvDo moo H pop :=
  C61_compliant moo hmoo H (by intro b hb; rw [hn] at hb; cases hb) pop _ (C135_translated_worse refs wp hw delta pop)

/-! ### Departures -/

/-- Weights for two or more objectives cannot be given: the constructor raises. -/
theorem C135_weights_refuted (moo : Moocore (m + 2)) (refs : Fin q → Fin (m + 2) → ℝ) (w : Fin (m + 2) → ℝ) (delta : ℝ) (pf) (F others calcHv) :
    rmDo moo refs (some w) delta pf F others calcHv = none := by
  unfold rmDo rmPoints
  simp

/-- The region of interest around the representative of the Pareto front does not depend on `delta`: with `delta = 1` and one reference
point the front `(0, 0.4), (0.2, 0.2)` is compared with the second point only, although the first is within `delta / 2` of it. -/
theorem C135_delta_refuted : ∃ (refs : Fin 1 → Fin 2 → ℝ) (wp : Fin 1 → Fin 2 → ℝ) (pf : List (Fin 2 → ℝ)) (y z : Fin 2 → ℝ),
    rmPoints refs none = some wp ∧ y ∈ pf ∧ z ∈ rmFront refs wp pf 0 ∧ (∀ k, |y k - z k| < 1 / 2) ∧ y ∉ rmFront refs wp pf 0 := by
  refine ⟨fun _ _ => 0, fun _ _ => 0 + 2, [![0, 0.4], ![0.2, 0.2]], ![0, 0.4], ![0.2, 0.2], rfl, by simp, ?_⟩
  obtain ⟨z, h1, h2, h3⟩ := C135_front (fun (_ : Fin 1) (_ : Fin 2) => (0 : ℝ)) (fun _ _ => 0 + 2) rfl [![0, 0.4], ![0.2, 0.2]] (by simp) 0
  have hz : z = ![0.2, 0.2] := by
    rcases List.mem_cons.1 h1.mem with h | h
    · exfalso
      have g1 : RmGap (fun _ : Fin 2 => (0 : ℝ)) z 0.4 := by
        rw [h]
        refine ⟨⟨1, by simp⟩, ?_⟩
        rintro _ ⟨k, rfl⟩
        fin_cases k <;> simp; norm_num
      have g2 : RmGap (fun _ : Fin 2 => (0 : ℝ)) ![0.2, 0.2] 0.2 := by
        refine ⟨⟨1, by simp⟩, ?_⟩
        rintro _ ⟨k, rfl⟩
        fin_cases k <;> simp
      have := h1.least _ (by simp) _ _ g1 g2
      norm_num at this
    · simpa using h
  subst hz
  refine ⟨h2, fun k => ?_, fun h => ?_⟩
  · fin_cases k <;> norm_num [abs_lt]
  · have := ((h3 _).1 h).2 0
    norm_num [abs_lt] at this

/-- The hypotheses are met: one reference point, two solutions of which one is dominated by another algorithm. -/
example : ∃ v, rmDo (textbookMoo : Moocore 2) (fun (_ : Fin 1) _ => 0) none 0.2 (some [![0.2, 0.2]]) [![0.3, 0.4], ![1, 1]] (some [![0.9, 0.9]]) false = some (some v, none) := by
  have hf : rmFilter (some [![0.9, 0.9]]) [![0.3, 0.4], ![1, 1]] ≠ ([] : List (Fin 2 → ℝ)) := by
    apply List.ne_nil_of_mem (a := ![0.3, 0.4])
    rw [(C135_filter _ _).2.2]
    refine ⟨by simp, fun y hy hdom => ?_⟩
    simp only [List.mem_singleton] at hy
    subst hy
    have := hdom.1 0
    norm_num at this
  obtain ⟨H, -, -, h⟩ := (C135_value (textbookMoo : Moocore 2) textbookMoo_contract (q := 1) (by norm_num) (fun _ _ => 0) 0.2 (by norm_num) [![0.2, 0.2]] (by simp)
    [![0.3, 0.4], ![1, 1]] (some [![0.9, 0.9]]) false _ rfl).2 hf
  rw [if_neg (by simp)] at h
  exact ⟨_, h⟩

end Props
