import Verif.Model.Hypervolume
import Verif.Lemmas.Indicators
import Mathlib.MeasureTheory.Measure.Lebesgue.Basic
import Mathlib.Data.Fin.VecNotation
import Mathlib.Tactic.NormNum
import Mathlib.Tactic.FinCases
import Mathlib.Tactic.Ring
import Mathlib.Tactic.FieldSimp

/-!
# C61: the hypervolume indicator

`moocore.hypervolume(F, ref)` is assumed to be the Lebesgue measure of the part of the objective space below the reference point
that is weakly dominated by a solution. For every way to construct the indicator: never negative, monotone, compatible with
domination, strictly better when something new is found, insensitive to solutions beyond the reference point, to the order and
(with `zero_to_one`) to the units of the objectives.
-/

set_option linter.unusedSimpArgs false
set_option linter.unusedVariables false
set_option linter.unusedSectionVars false

namespace Props
open Model Spec Lemmas MeasureTheory

variable {m : ℕ}

/-- The dominated region up to the reference point. -/
def region (F : List (Fin m → ℝ)) (r : Fin m → ℝ) : Set (Fin m → ℝ) := {z | (∃ a ∈ F, ∀ k, a k ≤ z k) ∧ ∀ k, z k ≤ r k}

/-- What is assumed of the compiled package. -/
def MooHvContract (moo : Moocore m) : Prop := ∀ F r, F ≠ [] → moo.hv F r = (volume (region F r)).toReal

theorem volume_region_lt_top (F : List (Fin m → ℝ)) (r : Fin m → ℝ) : volume (region F r) < ⊤ := by
  have hsub : region F r ⊆ ⋃ a ∈ F.toFinset, Set.Icc a r := by
    rintro z ⟨⟨a, ha, h⟩, hr⟩
    simp only [Set.mem_iUnion]
    exact ⟨a, by simpa using ha, h, hr⟩
  refine lt_of_le_of_lt (measure_mono hsub) ?_
  refine lt_of_le_of_lt (measure_biUnion_finset_le _ _) ?_
  apply ENNReal.sum_lt_top.2
  intro a _
  exact isCompact_Icc.measure_lt_top

section
variable (moo : Moocore m) (hmoo : MooHvContract moo) (I : HvInd m)

include hmoo in
theorem hvDo_eq (F : List (Fin m → ℝ)) : hvDo moo I F = (volume (region (F.map (indForward I.norm)) I.ref)).toReal := by
  unfold hvDo
  by_cases hF : F = []
  · subst hF; simp [region]
  · have : F.isEmpty = false := by simpa using hF
    rw [this]
    simp only [Bool.false_eq_true, if_false]
    exact hmoo _ _ (by simpa using hF)

include hmoo in
/-- Never negative. -/
theorem C61_nonneg (F : List (Fin m → ℝ)) : 0 ≤ hvDo moo I F := by
  rw [hvDo_eq moo hmoo]; exact ENNReal.toReal_nonneg

theorem region_mono {A B : List (Fin m → ℝ)} (r : Fin m → ℝ) (h : Covers A B) : region B r ⊆ region A r := by
  rintro z ⟨⟨b, hb, hz⟩, hr⟩
  obtain ⟨a, ha, hab⟩ := h b hb
  exact ⟨⟨a, ha, fun k => (hab k).trans (hz k)⟩, hr⟩

/-- The normalisation of an indicator: positive scale, shift. -/
def GoodNorm (I : HvInd m) : Prop := ∀ b, I.norm = some b → ∀ k, b.1 k ≤ b.2 k

theorem hvInit_cases {a : HvArgs m} {I : HvInd m} (h : hvInit a = some I) :
    ∃ r, (a.refPoint.orElse fun _ => a.pf.bind ptMax) = some r ∧
      ((a.zeroToOne = true ∧ ∃ l u : Fin m → ℝ, (∀ k, l k ≤ u k) ∧
          I = ⟨some (l, u), if a.normRefPoint then indForward (some (l, u)) r else r⟩) ∨
       (a.zeroToOne = false ∧ I = ⟨none, r⟩)) := by
  unfold hvInit at h
  simp only at h
  by_cases h1 : a.pf = some []
  · rw [if_pos h1] at h; simp at h
  rw [if_neg h1] at h
  by_cases h2 : a.zeroToOne = true
  · rw [if_pos h2] at h
    obtain ⟨l, hl, h⟩ := Option.bind_eq_some_iff.1 h
    obtain ⟨u, hu, h⟩ := Option.bind_eq_some_iff.1 h
    by_cases hle : ∀ k, l k ≤ u k
    · rw [if_pos hle] at h
      obtain ⟨r, hr, rfl⟩ := Option.map_eq_some_iff.1 h
      exact ⟨r, hr, Or.inl ⟨h2, l, u, hle, rfl⟩⟩
    · rw [if_neg hle] at h; simp at h
  · rw [if_neg h2] at h
    obtain ⟨r, hr, rfl⟩ := Option.map_eq_some_iff.1 h
    exact ⟨r, hr, Or.inr ⟨by simpa using h2, rfl⟩⟩

/-- Every accepted object normalises in the right direction. -/
theorem C61_norm_direction (a : HvArgs m) (I : HvInd m) (h : hvInit a = some I) : GoodNorm I := by
  obtain ⟨r, _, ⟨_, l, u, hle, rfl⟩ | ⟨_, rfl⟩⟩ := hvInit_cases h
  · intro b hb k
    simp only [Option.some.injEq] at hb
    subst hb; exact hle k
  · intro b hb; simp at hb

theorem indForward_le_iff {norm : Option ((Fin m → ℝ) × (Fin m → ℝ))} (h : ∀ b, norm = some b → ∀ k, b.1 k ≤ b.2 k)
    (x y : Fin m → ℝ) (k : Fin m) : indForward norm x k ≤ indForward norm y k ↔ x k ≤ y k := by
  cases norm with
  | none => rfl
  | some b =>
    have hb := h b rfl k
    simp only [indForward]
    split_ifs with he
    · exact sub_le_sub_iff_right _
    · have : 0 < b.2 k - b.1 k := sub_pos.2 (lt_of_le_of_ne hb he)
      rw [div_le_div_iff_of_pos_right this]
      exact sub_le_sub_iff_right _

theorem covers_forward {norm : Option ((Fin m → ℝ) × (Fin m → ℝ))} (h : ∀ b, norm = some b → ∀ k, b.1 k ≤ b.2 k)
    {A B : List (Fin m → ℝ)} (hc : Covers A B) : Covers (A.map (indForward norm)) (B.map (indForward norm)) := by
  intro b hb
  obtain ⟨b, hb', rfl⟩ := List.mem_map.1 hb
  obtain ⟨a, ha, hab⟩ := hc b hb'
  exact ⟨_, List.mem_map_of_mem ha, fun k => (indForward_le_iff h a b k).2 (hab k)⟩

include hmoo in
/-- **Compatible with domination**: if every solution of `B` is weakly dominated by one of `A`, the hypervolume of `A` is at least
that of `B`. In particular, adding solutions never reduces it. -/
theorem C61_compliant (hI : GoodNorm I) (A B : List (Fin m → ℝ)) (h : Covers A B) : hvDo moo I B ≤ hvDo moo I A := by
  rw [hvDo_eq moo hmoo, hvDo_eq moo hmoo]
  exact ENNReal.toReal_mono (volume_region_lt_top _ _).ne (measure_mono (region_mono _ (covers_forward hI h)))

include hmoo in
/-- Adding solutions never reduces the hypervolume. -/
theorem C61_add_solutions (hI : GoodNorm I) (A B : List (Fin m → ℝ)) (h : ∀ x ∈ A, x ∈ B) : hvDo moo I A ≤ hvDo moo I B :=
  C61_compliant moo hmoo I hI B A fun a ha => ⟨a, h a ha, fun _ => le_rfl⟩

include hmoo in
/-- **Dominated solutions do not count**: removing solutions that are covered by the rest changes nothing; nor does the order. -/
theorem C61_dominated_irrelevant (hI : GoodNorm I) (A B : List (Fin m → ℝ)) (h : Covers A B) (hsub : ∀ x ∈ A, x ∈ B) :
    hvDo moo I B = hvDo moo I A :=
  le_antisymm (C61_compliant moo hmoo I hI A B h) (C61_add_solutions moo hmoo I hI A B hsub)

include hmoo in
theorem C61_order (F F' : List (Fin m → ℝ)) (h : F.Perm F') : hvDo moo I F = hvDo moo I F' := by
  rw [hvDo_eq moo hmoo, hvDo_eq moo hmoo]
  have : region (F.map (indForward I.norm)) I.ref = region (F'.map (indForward I.norm)) I.ref := by
    unfold region; simp only [(h.map _).mem_iff]
  rw [this]

/-- the face of the region where objective `k` equals the reference value has no volume -/
theorem volume_face (k : Fin m) (c : ℝ) : volume {z : Fin m → ℝ | z k = c} = 0 := by
  have : ({z : Fin m → ℝ | z k = c}) = Function.eval k ⁻¹' ({c} : Set ℝ) := rfl
  rw [this]
  have hq := Measure.quasiMeasurePreserving_eval (fun _ : Fin m => (volume : Measure ℝ)) k
  exact hq.preimage_null (s := ({c} : Set ℝ)) (by simp)

include hmoo in
/-- **Solutions that are not better than the reference point in every objective do not count.** -/
theorem C61_beyond_ref (F : List (Fin m → ℝ)) (x : Fin m → ℝ) (k : Fin m)
    (hx : I.ref k ≤ indForward I.norm x k) : hvDo moo I (x :: F) = hvDo moo I F := by
  rw [hvDo_eq moo hmoo, hvDo_eq moo hmoo]
  congr 1
  apply le_antisymm
  · have hsub : region ((x :: F).map (indForward I.norm)) I.ref ⊆
        region (F.map (indForward I.norm)) I.ref ∪ {z | z k = I.ref k} := by
      rintro z ⟨⟨a, ha, hz⟩, hr⟩
      rw [List.map_cons, List.mem_cons] at ha
      rcases ha with rfl | ha
      · right; exact le_antisymm (hr k) (hx.trans (hz k))
      · left; exact ⟨⟨a, ha, hz⟩, hr⟩
    calc _ ≤ volume (region (F.map (indForward I.norm)) I.ref ∪ {z | z k = I.ref k}) := measure_mono hsub
      _ ≤ _ := (measure_union_le _ _)
      _ = _ := by rw [volume_face, add_zero]
  · apply measure_mono
    rintro z ⟨⟨a, ha, hz⟩, hr⟩
    exact ⟨⟨a, by simp only [List.map_cons, List.mem_cons]; right; exact ha, hz⟩, hr⟩

theorem measurableSet_region (F : List (Fin m → ℝ)) (r : Fin m → ℝ) : MeasurableSet (region F r) := by
  have : region F r = ⋃ a ∈ F.toFinset, Set.Icc a r := by
    ext z
    simp only [region, Set.mem_iUnion, Set.mem_Icc, List.mem_toFinset]
    constructor
    · rintro ⟨⟨a, ha, h⟩, hr⟩; exact ⟨a, ha, h, hr⟩
    · rintro ⟨a, ha, h, hr⟩; exact ⟨⟨a, ha, h⟩, hr⟩
  rw [this]
  exact Finset.measurableSet_biUnion _ fun a _ => measurableSet_Icc

include hmoo in
/-- **Strictly better when something new is found**: a solution that is better than the reference point in every objective and not
weakly dominated by any solution so far strictly increases the hypervolume. -/
theorem C61_strict (hI : GoodNorm I) (F : List (Fin m → ℝ)) (x : Fin m → ℝ)
    (hx : ∀ k, indForward I.norm x k < I.ref k) (hnew : ∀ a ∈ F, ∃ k, x k < a k) :
    hvDo moo I F < hvDo moo I (x :: F) := by
  rw [hvDo_eq moo hmoo, hvDo_eq moo hmoo]
  set y := indForward I.norm x with hy
  set G := F.map (indForward I.norm) with hG
  have hnew' : ∀ a ∈ G, ∃ k, y k < a k := by
    intro a ha
    obtain ⟨a, ha', rfl⟩ := List.mem_map.1 ha
    obtain ⟨k, hk⟩ := hnew a ha'
    exact ⟨k, not_le.1 fun h => absurd ((indForward_le_iff hI a x k).1 h) (not_le.2 hk)⟩
  -- a small box above `y` is new
  obtain ⟨δ, hδ, h1, h2⟩ : ∃ δ : ℝ, 0 < δ ∧ (∀ k, y k + δ ≤ I.ref k) ∧ ∀ a ∈ G, ∃ k, y k + δ < a k := by
    have e1 : ∃ δ : ℝ, 0 < δ ∧ ∀ k, y k + δ ≤ I.ref k := by
      by_cases hm : Nonempty (Fin m)
      · obtain ⟨k0, hk0⟩ := Finite.exists_min fun k => I.ref k - y k
        exact ⟨I.ref k0 - y k0, sub_pos.2 (hx k0), fun k => by have := hk0 k; linarith⟩
      · exact ⟨1, one_pos, fun k => absurd ⟨k⟩ hm⟩
    have e2 : ∀ G : List (Fin m → ℝ), (∀ a ∈ G, ∃ k, y k < a k) → ∃ δ : ℝ, 0 < δ ∧ ∀ a ∈ G, ∃ k, y k + δ < a k := by
      intro G
      induction G with
      | nil => intro _; exact ⟨1, one_pos, by simp⟩
      | cons a G ih =>
        intro h
        obtain ⟨δ, hδ, hG⟩ := ih fun b hb => h b (List.mem_cons_of_mem _ hb)
        obtain ⟨k, hk⟩ := h a List.mem_cons_self
        refine ⟨min δ ((a k - y k) / 2), lt_min hδ (by linarith), ?_⟩
        intro b hb
        rcases List.mem_cons.1 hb with rfl | hb
        · exact ⟨k, by have := min_le_right δ ((b k - y k) / 2); linarith⟩
        · obtain ⟨j, hj⟩ := hG b hb
          exact ⟨j, by have := min_le_left δ ((a k - y k) / 2); linarith⟩
    obtain ⟨d1, p1, q1⟩ := e1
    obtain ⟨d2, p2, q2⟩ := e2 G hnew'
    refine ⟨min d1 d2, lt_min p1 p2, fun k => ?_, fun a ha => ?_⟩
    · have := q1 k; have := min_le_left d1 d2; linarith
    · obtain ⟨k, hk⟩ := q2 a ha
      exact ⟨k, by have := min_le_right d1 d2; linarith⟩
  set box : Set (Fin m → ℝ) := Set.Icc y (fun k => y k + δ) with hbox
  have hvol : 0 < volume box := by
    rw [hbox, Real.volume_Icc_pi]
    simp only [add_sub_cancel_left, Finset.prod_const]
    exact pos_iff_ne_zero.2 (pow_ne_zero _ (ENNReal.ofReal_pos.2 hδ).ne')
  have hdisj : Disjoint box (region G I.ref) := by
    rw [Set.disjoint_left]
    rintro z ⟨_, hz⟩ ⟨⟨a, ha, hza⟩, _⟩
    obtain ⟨k, hk⟩ := h2 a ha
    have := hz k
    have := hza k
    simp only at *
    linarith
  have hsub : box ∪ region G I.ref ⊆ region ((x :: F).map (indForward I.norm)) I.ref := by
    rintro z (⟨hz1, hz2⟩ | ⟨⟨a, ha, hz⟩, hr⟩)
    · exact ⟨⟨y, by simp [hy], hz1⟩, fun k => (hz2 k).trans (h1 k)⟩
    · exact ⟨⟨a, by simp only [List.map_cons, List.mem_cons]; right; exact ha, hz⟩, hr⟩
  have hlt : volume (region G I.ref) < volume (region ((x :: F).map (indForward I.norm)) I.ref) := by
    calc volume (region G I.ref) < volume box + volume (region G I.ref) := by
          rw [add_comm]
          exact ENNReal.lt_add_right (volume_region_lt_top _ _).ne hvol.ne'
      _ = volume (box ∪ region G I.ref) := (measure_union hdisj (measurableSet_region _ _)).symm
      _ ≤ _ := measure_mono hsub
  exact (ENNReal.toReal_lt_toReal (volume_region_lt_top _ _).ne (volume_region_lt_top _ _).ne).2 hlt

include hmoo in
/-- The hypervolume of a single solution is the volume of its box. -/
theorem C61_single (x : Fin m → ℝ) (hn : I.norm = none) (hx : ∀ k, x k ≤ I.ref k) :
    hvDo moo I [x] = ∏ k, (I.ref k - x k) := by
  rw [hvDo_eq moo hmoo]
  have : region ([x].map (indForward I.norm)) I.ref = Set.Icc x I.ref := by
    ext z
    simp only [region, List.map_cons, List.map_nil, List.mem_singleton, exists_eq_left, hn, indForward, Set.mem_Icc]
    exact Iff.rfl
  rw [this, Real.volume_Icc_pi_toReal hx]

end

/-! ### the reference point -/

/-- **Which reference point**: the one given, else the largest values on the given front; with `zero_to_one` and
`norm_ref_point` it is normalised like the solutions. A missing reference point is rejected. -/
theorem C61_ref_point (a : HvArgs m) : (a.refPoint = none → a.pf = none → hvInit a = none) ∧
    ∀ I, hvInit a = some I → ∃ r : Fin m → ℝ,
      (a.refPoint = some r ∨ (a.refPoint = none ∧ ∃ pf, a.pf = some pf ∧ ∀ k, IsGreatest {v | ∃ p ∈ pf, v = p k} (r k))) ∧
      (I.ref = if a.normRefPoint then indForward I.norm r else r) ∧ (I.norm.isSome ↔ a.zeroToOne = true) := by
  constructor
  · intro h1 h2
    cases hh : hvInit a with
    | none => rfl
    | some I =>
      obtain ⟨r, hr, _⟩ := hvInit_cases hh
      rw [h1, h2] at hr
      simp at hr
  · intro I h
    have key : ∀ r, (a.refPoint.orElse fun _ => a.pf.bind ptMax) = some r →
        (a.refPoint = some r ∨ (a.refPoint = none ∧ ∃ pf, a.pf = some pf ∧ ∀ k, IsGreatest {v | ∃ p ∈ pf, v = p k} (r k))) := by
      intro r hr
      cases hp : a.refPoint with
      | some q => left; rw [hp] at hr; simpa using hr
      | none =>
        right
        refine ⟨rfl, ?_⟩
        rw [hp] at hr
        simp only [Option.orElse_none] at hr
        obtain ⟨pf, h1, h2⟩ := Option.bind_eq_some_iff.1 hr
        exact ⟨pf, h1, fun k => ptMax_spec h2 k⟩
    obtain ⟨r, hr, ⟨h2, l, u, hle, rfl⟩ | ⟨h2, rfl⟩⟩ := hvInit_cases h
    · exact ⟨r, key r hr, rfl, by simp [h2]⟩
    · refine ⟨r, key r hr, ?_, by simp [h2]⟩
      simp [indForward]

/-- **Which bounds are used for the normalisation**: the ideal and nadir points given, else the smallest and largest values on the given front. -/
theorem C61_bounds (a : HvArgs m) (I : HvInd m) (b : (Fin m → ℝ) × (Fin m → ℝ)) (h : hvInit a = some I) (hb : I.norm = some b) :
    (a.ideal = some b.1 ∨ (a.ideal = none ∧ ∃ pf, a.pf = some pf ∧ ∀ k, IsLeast {v | ∃ p ∈ pf, v = p k} (b.1 k))) ∧
    (a.nadir = some b.2 ∨ (a.nadir = none ∧ ∃ pf, a.pf = some pf ∧ ∀ k, IsGreatest {v | ∃ p ∈ pf, v = p k} (b.2 k))) := by
  unfold hvInit at h
  simp only at h
  by_cases h1 : a.pf = some []
  · rw [if_pos h1] at h; simp at h
  rw [if_neg h1] at h
  by_cases h2 : a.zeroToOne = true
  · rw [if_pos h2] at h
    obtain ⟨l, hl, h⟩ := Option.bind_eq_some_iff.1 h
    obtain ⟨u, hu, h⟩ := Option.bind_eq_some_iff.1 h
    by_cases hle : ∀ k, l k ≤ u k
    · rw [if_pos hle] at h
      obtain ⟨r, hr, rfl⟩ := Option.map_eq_some_iff.1 h
      simp only [Option.some.injEq] at hb
      subst hb
      constructor
      · cases hp : a.ideal with
        | some q => left; rw [hp] at hl; simpa using hl
        | none =>
          right
          refine ⟨rfl, ?_⟩
          rw [hp] at hl
          simp only [Option.orElse_none] at hl
          obtain ⟨pf, g1, g2⟩ := Option.bind_eq_some_iff.1 hl
          exact ⟨pf, g1, fun k => ptMin_spec g2 k⟩
      · cases hp : a.nadir with
        | some q => left; rw [hp] at hu; simpa using hu
        | none =>
          right
          refine ⟨rfl, ?_⟩
          rw [hp] at hu
          simp only [Option.orElse_none] at hu
          obtain ⟨pf, g1, g2⟩ := Option.bind_eq_some_iff.1 hu
          exact ⟨pf, g1, fun k => ptMax_spec g2 k⟩
    · rw [if_neg hle] at h; simp at h
  · rw [if_neg h2] at h
    obtain ⟨r, hr, rfl⟩ := Option.map_eq_some_iff.1 h
    simp at hb

/-- **Units do not matter** with `zero_to_one` (given ideal and nadir points with a range in every objective, or taken from the
front): rescaled data give the same value. -/
theorem C61_unit_free (moo : Moocore m) (l u r c t : Fin m → ℝ) (hc : ∀ k, 0 < c k) (hlu : ∀ k, l k < u k)
    (I I' : HvInd m)
    (hI : hvInit { refPoint := some r, ideal := some l, nadir := some u, zeroToOne := true } = some I)
    (hI' : hvInit { refPoint := some fun k => c k * r k + t k, ideal := some fun k => c k * l k + t k,
                    nadir := some fun k => c k * u k + t k, zeroToOne := true } = some I')
    (F : List (Fin m → ℝ)) : hvDo moo I' (F.map fun x k => c k * x k + t k) = hvDo moo I F := by
  have hle : ∀ k, l k ≤ u k := fun k => (hlu k).le
  have hle' : ∀ k, c k * l k + t k ≤ c k * u k + t k := fun k => by
    have := mul_le_mul_of_nonneg_left (hle k) (hc k).le; linarith
  have e : ∀ x : Fin m → ℝ, indForward (some (fun k => c k * l k + t k, fun k => c k * u k + t k)) (fun k => c k * x k + t k) =
      indForward (some (l, u)) x := by
    intro x
    funext k
    have h1 := (hc k).ne'
    have h2 := (hlu k).ne
    have h2' : u k - l k ≠ 0 := sub_ne_zero.2 h2.symm
    have h3 : ¬ c k * l k + t k = c k * u k + t k := by simpa [h1] using h2
    have h3' : c k * u k + t k - (c k * l k + t k) ≠ 0 := sub_ne_zero.2 (Ne.symm h3)
    simp only [indForward, if_neg h2, if_neg h3]
    rw [div_eq_div_iff h3' h2']
    ring
  have e1 : I = ⟨some (l, u), indForward (some (l, u)) r⟩ := by
    simp [hvInit, hle] at hI; exact hI.symm
  have e2 : I' = ⟨some (fun k => c k * l k + t k, fun k => c k * u k + t k), indForward (some (l, u)) r⟩ := by
    have : hvInit { refPoint := some fun k => c k * r k + t k, ideal := some fun k => c k * l k + t k,
                    nadir := some fun k => c k * u k + t k, zeroToOne := true } =
        some ⟨some (fun k => c k * l k + t k, fun k => c k * u k + t k), indForward (some (l, u)) r⟩ := by
      simp [hvInit, hle', e]
    rw [this] at hI'
    exact (Option.some.inj hI').symm
  subst e1 e2
  unfold hvDo
  have hm : (F.map fun x k => c k * x k + t k).map (indForward (some (fun k => c k * l k + t k, fun k => c k * u k + t k))) =
      F.map (indForward (some (l, u))) := by
    rw [List.map_map]
    exact List.map_congr_left fun x _ => e x
  simp only [hm]
  simp

/-! ### the incremental approximation -/

/-- **The incremental object never drifts**: after every accepted sequence of additions and deletions, the stored value and the
contributions are those of the stored solutions, one contribution per solution. -/
theorem C61_approx_consistent (approx : List (Fin m → ℝ) → ℝ) (contr : List (Fin m → ℝ) → List ℝ)
    (hcon : ∀ F, (contr F).length = F.length) (ops : List (ApproxOp m)) (s : ApproxHv m)
    (h : ops.foldlM (approxStep approx contr) approxInit = some s) :
    s.hv = (if s.F = [] then 0 else approx s.F) ∧ (s.F ≠ [] → s.hvc = contr s.F) ∧ s.hvc.length = s.F.length := by
  have hup : ∀ F, (approxUpdate approx contr F).hv = (if (approxUpdate approx contr F).F = [] then 0 else approx (approxUpdate approx contr F).F) ∧
      ((approxUpdate approx contr F).F ≠ [] → (approxUpdate approx contr F).hvc = contr (approxUpdate approx contr F).F) ∧
      (approxUpdate approx contr F).hvc.length = (approxUpdate approx contr F).F.length := by
    intro F
    unfold approxUpdate
    by_cases hF : F = []
    · subst hF; simp
    · have : F.isEmpty = false := by simpa using hF
      rw [this]; simp [hF, hcon]
  have hstep : ∀ (s : ApproxHv m) op s', approxStep approx contr s op = some s' → ∃ F, s' = approxUpdate approx contr F := by
    intro s op s' h
    cases op with
    | add F => simp only [approxStep, Option.some.injEq] at h; exact ⟨_, h.symm⟩
    | delete k =>
      simp only [approxStep] at h
      split_ifs at h <;> simp only [Option.some.injEq] at h <;> exact ⟨_, h.symm⟩
  induction ops using List.reverseRecOn generalizing s with
  | nil =>
    simp only [List.foldlM_nil] at h
    obtain rfl : approxInit = s := by simpa using h
    simp [approxInit]
  | append_singleton ops op ih =>
    rw [List.foldlM_append] at h
    obtain ⟨s1, _, h⟩ := Option.bind_eq_some_iff.1 h
    simp only [List.foldlM_cons, List.foldlM_nil] at h
    obtain ⟨s2, h2, h⟩ := Option.bind_eq_some_iff.1 h
    obtain rfl : s2 = s := by simpa using h
    obtain ⟨F, rfl⟩ := hstep _ _ _ h2
    exact hup F

/-- The stored solutions are exactly the ones added and not deleted: an addition appends, a deletion removes the one position. -/
theorem C61_approx_solutions (approx : List (Fin m → ℝ) → ℝ) (contr : List (Fin m → ℝ) → List ℝ) (s s' : ApproxHv m) :
    (∀ F, approxStep approx contr s (.add F) = some s' → s'.F = s.F ++ F) ∧
    (∀ k : ℤ, approxStep approx contr s (.delete k) = some s' →
      ∃ i : ℕ, (i : ℤ) = (if k < 0 then k + s.F.length else k) ∧ i < s.F.length ∧ s'.F = s.F.take i ++ s.F.drop (i + 1)) := by
  have hupF : ∀ F, (approxUpdate approx contr F).F = F := by
    intro F; unfold approxUpdate; split_ifs <;> rfl
  constructor
  · intro F h
    simp only [approxStep, Option.some.injEq] at h
    rw [← h, hupF]
  · intro k h
    simp only [approxStep] at h
    split_ifs at h with h1 h2
    · simp only [Option.some.injEq] at h
      rw [← h, hupF]
      refine ⟨k.toNat, ?_, by omega, List.eraseIdx_eq_take_drop_succ _ _⟩
      rw [if_neg (by omega)]; omega
    · simp only [Option.some.injEq] at h
      rw [← h, hupF]
      refine ⟨(k + s.F.length).toNat, ?_, by omega, List.eraseIdx_eq_take_drop_succ _ _⟩
      rw [if_pos h2.1]; omega

/-! ### non-vacuity -/

/-- A package fulfilling the contract. -/
noncomputable def measureMoo : Moocore m := ⟨fun _ _ => 0, fun _ _ => 0, fun _ _ => 0, fun F r => (volume (region F r)).toReal⟩

theorem measureMoo_contract : MooHvContract (measureMoo : Moocore m) := fun _ _ _ => rfl

example : ∃ I : HvInd 2, hvInit { refPoint := some ![3, 2] } = some I ∧ GoodNorm I ∧
    hvDo measureMoo I [![1, 1]] = 2 ∧ hvDo measureMoo I [![1, 1]] < hvDo measureMoo I [![0, 3 / 2], ![1, 1]] := by
  refine ⟨⟨none, ![3, 2]⟩, by simp [hvInit], by simp [GoodNorm], ?_, ?_⟩
  · rw [C61_single _ measureMoo_contract _ _ rfl (by intro k; fin_cases k <;> simp)]
    simp [Fin.prod_univ_two]; norm_num
  · apply C61_strict _ measureMoo_contract _ (by simp [GoodNorm])
    · intro k; fin_cases k <;> simp [indForward] <;> norm_num
    · intro a ha
      simp only [List.mem_singleton] at ha
      subst ha
      exact ⟨0, by simp⟩

end Props
