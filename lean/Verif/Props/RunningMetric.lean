import Verif.Model.RunningMetric
import Verif.Props.Tolerance
import Verif.Props.Hypervolume
import Verif.Props.Termination
import Mathlib.Data.Fin.VecNotation
import Mathlib.Tactic.FinCases

/-!
# C129: the running metric
-/

set_option linter.unusedVariables false
set_option linter.unusedSectionVars false
set_option linter.unusedSimpArgs false

namespace Props
open Model Spec Lemmas

variable {m : ℕ}

/-- The sets the metric has seen: those of the generations with an optimum. -/
def seenSets (Fs : List (Option (List (Fin (m + 1) → ℝ)))) : List (List (Fin (m + 1) → ℝ)) := Fs.filterMap id

/-- The sets it remembers: all, or the last `period`. -/
def rememberedSets (period : Option ℕ) (Fs : List (Option (List (Fin (m + 1) → ℝ)))) : List (List (Fin (m + 1) → ℝ)) :=
  match period with
  | none => seenSets Fs
  | some p => (seenSets Fs).drop ((seenSets Fs).length - p)

/-- What a remembered set is stored as: with its range, a nadir entry that equals the ideal one being raised by `1e-16`. -/
def Stored (e : MoSnap m) (F : List (Fin (m + 1) → ℝ)) : Prop :=
  e.F = F ∧ ∃ hi, FrontRange F e.ideal hi ∧ ∀ k, e.nadir k = if e.ideal k = hi k then hi k + 1 / 10 ^ 16 else hi k

theorem runSnap_spec (F : List (Fin (m + 1) → ℝ)) (hF : F ≠ []) : ∃ c, runSnap F = some c ∧ Stored c.1 F ∧
    ∃ hi, FrontRange F c.1.ideal hi ∧ ∀ k, c.2 k = hi k - c.1.ideal k := by
  obtain ⟨lo, hlo⟩ := ptMin_isSome hF
  obtain ⟨hi, hhi⟩ := ptMax_isSome hF
  have hr := frontRange_of hlo hhi
  unfold runSnap
  rw [hlo, hhi]
  simp only [Option.bind_some, Option.map_some]
  refine ⟨_, rfl, ⟨rfl, hi, hr, fun k => rfl⟩, hi, hr, fun k => ?_⟩
  simp only
  by_cases h : lo k = hi k
  · rw [if_pos h, if_neg]; rw [h]; intro hc; linarith [show (0 : ℝ) < 1 / 10 ^ 16 by norm_num]
  · rw [if_neg h, if_neg h]

theorem runDeltas_length (get : MoSnap m → Fin (m + 1) → ℝ) (norm : Fin (m + 1) → ℝ) (l : List (MoSnap m)) (h : l ≠ []) : (runDeltas get norm l).length = l.length := by
  induction l with
  | nil => exact absurd rfl h
  | cons a l ih =>
    cases l with
    | nil => rfl
    | cons b l => rw [runDeltas, List.length_cons, ih (by simp)]; rfl

theorem runDeltas_get (get : MoSnap m → Fin (m + 1) → ℝ) (norm : Fin (m + 1) → ℝ) (l : List (MoSnap m)) (h : l ≠ []) :
    (runDeltas get norm l).getLast? = some (some 0) ∧
    ∀ i a b, l[i]? = some a → l[i + 1]? = some b → (runDeltas get norm l)[i]? = some (runDelta (get b) (get a) norm) := by
  induction l with
  | nil => exact absurd rfl h
  | cons a l ih =>
    cases l with
    | nil => refine ⟨rfl, fun i x y h1 h2 => ?_⟩; simp at h2
    | cons b l =>
      obtain ⟨i1, i2⟩ := ih (by simp)
      refine ⟨?_, fun i x y h1 h2 => ?_⟩
      · rw [runDeltas, List.getLast?_cons, i1]; rfl
      · cases i with
        | zero => simp at h1 h2; subst h1; subst h2; rfl
        | succ i => rw [runDeltas, List.getElem?_cons_succ]; exact i2 i x y (by simpa using h1) (by simpa using h2)

theorem runF_some (moo : Moocore (m + 1)) (ind : RunInd) (hi : ind ≠ .other) (c : MoSnap m) (h : List (MoSnap m)) : ∃ f, runF moo ind c h = some f ∧ f.length = h.length := by
  cases ind with
  | igd => exact ⟨_, rfl, by simp⟩
  | hv => exact ⟨_, rfl, by simp⟩
  | other => exact absurd rfl hi

/-- The state that a run leads to, from any history. -/
theorem runAll_from (moo : Moocore (m + 1)) (ind : RunInd) (hi : ind ≠ .other) (period : Option ℕ) (Fs : List (Option (List (Fin (m + 1) → ℝ))))
    (hne : ∀ F ∈ seenSets Fs, F ≠ []) (s : RunMetric m) :
    ∃ r es, Fs.foldlM (runUpdate moo ind period) s = some r ∧ List.Forall₂ Stored es (seenSets Fs) ∧ r.history = es.foldl (swAppend period) s.history := by
  induction Fs generalizing s with
  | nil => exact ⟨s, [], rfl, List.Forall₂.nil, rfl⟩
  | cons F Fs ih =>
    cases F with
    | none =>
      obtain ⟨r, es, h1, h2, h3⟩ := ih (fun F hF => hne F (by simpa [seenSets] using hF)) s
      exact ⟨r, es, by rw [List.foldlM_cons]; simpa [runUpdate] using h1, by simpa [seenSets] using h2, h3⟩
    | some F =>
      have hs : seenSets (some F :: Fs) = F :: seenSets Fs := by simp [seenSets]
      rw [hs] at hne
      obtain ⟨c, hc, hst, -⟩ := runSnap_spec F (hne F (by simp))
      obtain ⟨f, hf, -⟩ := runF_some moo ind hi c.1 (swAppend period s.history c.1)
      obtain ⟨r, es, h1, h2, h3⟩ := ih (fun F hF => hne F (by simp [hF]))
        ⟨swAppend period s.history c.1, runDeltas (·.ideal) c.2 (swAppend period s.history c.1), runDeltas (·.nadir) c.2 (swAppend period s.history c.1), f⟩
      refine ⟨r, c.1 :: es, ?_, by rw [hs]; exact List.Forall₂.cons hst h2, by rw [h3]; rfl⟩
      rw [List.foldlM_cons]
      simp only [runUpdate, hc, Option.bind_some, hf, Option.map_some]
      exact h1

/-- C129: with one of the two indicators the metric can always be computed; the history holds the last `period` non-empty optima, with their ideal and nadir points. -/
theorem C129_history (moo : Moocore (m + 1)) (ind : RunInd) (hi : ind ≠ .other) (period : Option ℕ) (Fs : List (Option (List (Fin (m + 1) → ℝ))))
    (hne : ∀ F ∈ seenSets Fs, F ≠ []) : ∃ r, runAll moo ind period Fs = some r ∧ List.Forall₂ Stored r.history (rememberedSets period Fs) := by
  obtain ⟨r, es, h1, h2, h3⟩ := runAll_from moo ind hi period Fs hne ⟨[], [], [], []⟩
  refine ⟨r, h1, ?_⟩
  rw [h3]
  cases period with
  | none => rw [C33_unbounded]; exact h2
  | some p =>
    rw [(C33_window_holds_last p es).1, rememberedSets, h2.length_eq]
    exact List.forall₂_drop _ h2

/-- The last update of a run that ends with a set. -/
theorem runAll_last (moo : Moocore (m + 1)) (ind : RunInd) (period : Option ℕ) (Fs : List (Option (List (Fin (m + 1) → ℝ)))) (F : List (Fin (m + 1) → ℝ)) (r : RunMetric m)
    (h : runAll moo ind period (Fs ++ [some F]) = some r) :
    ∃ c, runSnap F = some c ∧ r.deltaIdeal = runDeltas (·.ideal) c.2 r.history ∧ r.deltaNadir = runDeltas (·.nadir) c.2 r.history ∧
      runF moo ind c.1 r.history = some r.deltaF := by
  unfold runAll at h
  rw [List.foldlM_append] at h
  obtain ⟨s, -, h2⟩ := Option.bind_eq_some_iff.1 h
  simp only [List.foldlM_cons, List.foldlM_nil] at h2
  obtain ⟨r', h3, h4⟩ := Option.bind_eq_some_iff.1 h2
  obtain rfl : r' = r := by simpa using h4
  simp only [runUpdate] at h3
  obtain ⟨c, hc, h5⟩ := Option.bind_eq_some_iff.1 h3
  obtain ⟨f, hf, h6⟩ := Option.map_eq_some_iff.1 h5
  subst h6
  exact ⟨c, hc, rfl, rfl, hf⟩

/-- The range of the last set is positive in every objective. -/
def Spread (F : List (Fin (m + 1) → ℝ)) (lo hi : Fin (m + 1) → ℝ) : Prop := FrontRange F lo hi ∧ ∀ k, lo k < hi k

/-- C129: the three lists have an entry for every remembered set; the first two end with zero. -/
theorem C129_lengths (moo : Moocore (m + 1)) (ind : RunInd) (hi : ind ≠ .other) (period : Option ℕ) (hp : period ≠ some 0)
    (Fs : List (Option (List (Fin (m + 1) → ℝ)))) (F : List (Fin (m + 1) → ℝ)) (hF : F ≠ []) (hne : ∀ G ∈ seenSets Fs, G ≠ []) (r : RunMetric m)
    (h : runAll moo ind period (Fs ++ [some F]) = some r) :
    let n := (rememberedSets period (Fs ++ [some F])).length
    0 < n ∧ r.deltaIdeal.length = n ∧ r.deltaNadir.length = n ∧ r.deltaF.length = n ∧
    r.deltaIdeal.getLast? = some (some 0) ∧ r.deltaNadir.getLast? = some (some 0) := by
  have hseen : seenSets (Fs ++ [some F]) = seenSets Fs ++ [F] := by simp [seenSets]
  obtain ⟨r', h1, h2⟩ := C129_history moo ind hi period (Fs ++ [some F]) (by
    rw [hseen]; intro G hG
    rcases List.mem_append.1 hG with hG | hG
    · exact hne G hG
    · rw [List.mem_singleton.1 hG]; exact hF)
  obtain rfl : r' = r := by rw [h1] at h; exact Option.some.inj h
  obtain ⟨c, hc, e1, e2, e3⟩ := runAll_last moo ind period Fs F r' h
  have hlen := h2.length_eq
  have hpos : 0 < (rememberedSets period (Fs ++ [some F])).length := by
    unfold rememberedSets
    cases period with
    | none => simp [hseen]
    | some p =>
      simp only [List.length_drop, hseen, List.length_append, List.length_singleton]
      have : p ≠ 0 := fun hc => hp (by rw [hc])
      omega
  have hne' : r'.history ≠ [] := by intro hc; rw [hc] at hlen; simp at hlen; omega
  simp only
  refine ⟨hpos, ?_, ?_, ?_, ?_, ?_⟩
  · rw [e1, runDeltas_length _ _ _ hne', hlen]
  · rw [e2, runDeltas_length _ _ _ hne', hlen]
  · obtain ⟨f, hf, hl⟩ := runF_some moo ind hi c.1 r'.history
    rw [e3] at hf
    rw [Option.some.inj hf, hl, hlen]
  · rw [e1]; exact (runDeltas_get _ _ _ hne').1
  · rw [e2]; exact (runDeltas_get _ _ _ hne').1

theorem forall₂_get {α β : Type*} {R : α → β → Prop} {l : List α} {l' : List β} (h : List.Forall₂ R l l') (i : ℕ) (b : β) (hb : l'[i]? = some b) : ∃ a, l[i]? = some a ∧ R a b := by
  induction h generalizing i with
  | nil => simp at hb
  | cons h1 _ ih =>
    cases i with
    | zero => simp at hb; subst hb; exact ⟨_, rfl, h1⟩
    | succ i => exact ih i (by simpa using hb)

/-- C129: the movement of the ideal point between two remembered sets, in units of the range of the current set (which is positive in every objective): not negative, and at most
`t` exactly if no objective moved by more than `t` ranges; the same for the nadir points of sets with a positive range in every objective. -/
theorem C129_movement (moo : Moocore (m + 1)) (ind : RunInd) (hi : ind ≠ .other) (period : Option ℕ) (Fs : List (Option (List (Fin (m + 1) → ℝ)))) (F : List (Fin (m + 1) → ℝ))
    (hne : ∀ G ∈ seenSets Fs, G ≠ []) (lo up : Fin (m + 1) → ℝ) (hsp : Spread F lo up) (hF : F ≠ []) (r : RunMetric m) (h : runAll moo ind period (Fs ++ [some F]) = some r)
    (i : ℕ) (A B : List (Fin (m + 1) → ℝ)) (hA : (rememberedSets period (Fs ++ [some F]))[i]? = some A) (hB : (rememberedSets period (Fs ++ [some F]))[i + 1]? = some B)
    (loA upA loB upB : Fin (m + 1) → ℝ) (hrA : FrontRange A loA upA) (hrB : FrontRange B loB upB) :
    (∃ v, r.deltaIdeal[i]? = some (some v) ∧ 0 ≤ v ∧ ∀ t, v ≤ t ↔ ∀ k, |loB k - loA k| ≤ t * (up k - lo k)) ∧
    ((∀ k, loA k < upA k) → (∀ k, loB k < upB k) →
      ∃ v, r.deltaNadir[i]? = some (some v) ∧ 0 ≤ v ∧ ∀ t, v ≤ t ↔ ∀ k, |upB k - upA k| ≤ t * (up k - lo k)) := by
  have hseen : seenSets (Fs ++ [some F]) = seenSets Fs ++ [F] := by simp [seenSets]
  obtain ⟨r', h1, h2⟩ := C129_history moo ind hi period (Fs ++ [some F]) (by
    rw [hseen]; intro G hG
    rcases List.mem_append.1 hG with hG | hG
    · exact hne G hG
    · rw [List.mem_singleton.1 hG]; exact hF)
  obtain rfl : r' = r := by rw [h1] at h; exact Option.some.inj h
  obtain ⟨c, hc, e1, e2, -⟩ := runAll_last moo ind period Fs F r' h
  obtain ⟨c', hc', -, up', hr', hn⟩ := runSnap_spec F hF
  obtain rfl : c' = c := by rw [hc'] at hc; exact Option.some.inj hc
  obtain ⟨rfl, rfl⟩ := frontRange_unique hsp.1 hr'
  have hnorm : c'.2 = fun k => up k - c'.1.ideal k := funext hn
  have hpos : ∀ k, 0 < up k - c'.1.ideal k := fun k => sub_pos.2 (hsp.2 k)
  obtain ⟨a, ha, -, hiA, hfA, hnA⟩ := forall₂_get h2 i A hA
  obtain ⟨b, hb, -, hiB, hfB, hnB⟩ := forall₂_get h2 (i + 1) B hB
  obtain ⟨rfl, rfl⟩ := frontRange_unique hrA hfA
  obtain ⟨rfl, rfl⟩ := frontRange_unique hrB hfB
  have hne' : r'.history ≠ [] := by intro hc; rw [hc] at ha; simp at ha
  have hval : ∀ x y : Fin (m + 1) → ℝ, runDelta x y c'.2 = some (calcDeltaNorm x y fun k => up k - c'.1.ideal k) := by
    intro x y
    unfold runDelta
    rw [hnorm, if_pos fun k => (hpos k).ne']
  have hnn : ∀ x y : Fin (m + 1) → ℝ, 0 ≤ calcDeltaNorm x y fun k => up k - c'.1.ideal k := by
    intro x y
    unfold calcDeltaNorm
    exact (abs_nonneg _).trans (Finset.le_sup' (fun k => |(x k - y k) / (up k - c'.1.ideal k)|) (Finset.mem_univ 0))
  refine ⟨⟨_, ?_, hnn _ _, fun t => calcDelta_le b.ideal a.ideal _ hpos t⟩, fun hsA hsB => ?_⟩
  · rw [e1, (runDeltas_get _ _ _ hne').2 i a b ha hb, hval]
  · refine ⟨_, ?_, hnn b.nadir a.nadir, fun t => ?_⟩
    · rw [e2, (runDeltas_get _ _ _ hne').2 i a b ha hb, hval]
    · rw [calcDelta_le b.nadir a.nadir _ hpos t]
      refine forall_congr' fun k => ?_
      rw [hnA k, hnB k, if_neg (hsA k).ne, if_neg (hsB k).ne]

/-- C129: the movement of the points: with the default indicator, the entry of a remembered set is its inverted generational distance to the current set in units of the current
range; it is zero exactly if every current solution was already in that set, in particular in the last entry. -/
theorem C129_points (moo : Moocore (m + 1)) (hmoo : MooIgdContract moo) (period : Option ℕ) (Fs : List (Option (List (Fin (m + 1) → ℝ)))) (F : List (Fin (m + 1) → ℝ))
    (hne : ∀ G ∈ seenSets Fs, G ≠ []) (lo up : Fin (m + 1) → ℝ) (hsp : Spread F lo up) (hF : F ≠ []) (r : RunMetric m) (h : runAll moo .igd period (Fs ++ [some F]) = some r)
    (i : ℕ) (A : List (Fin (m + 1) → ℝ)) (hA : (rememberedSets period (Fs ++ [some F]))[i]? = some A) :
    ∃ v : ℝ, r.deltaF[i]? = some (v : WithTop ℝ) ∧ v = invGenDist (euclid fun k => up k - lo k) F A ∧ 0 ≤ v ∧ (v = 0 ↔ ∀ x ∈ F, x ∈ A) := by
  have hseen : seenSets (Fs ++ [some F]) = seenSets Fs ++ [F] := by simp [seenSets]
  have hall : ∀ G ∈ seenSets (Fs ++ [some F]), G ≠ [] := by
    rw [hseen]; intro G hG
    rcases List.mem_append.1 hG with hG | hG
    · exact hne G hG
    · rw [List.mem_singleton.1 hG]; exact hF
  obtain ⟨r', h1, h2⟩ := C129_history moo .igd (by decide) period (Fs ++ [some F]) hall
  obtain rfl : r' = r := by rw [h1] at h; exact Option.some.inj h
  obtain ⟨c, hc, -, -, e3⟩ := runAll_last moo .igd period Fs F r' h
  obtain ⟨c', hc', ⟨hcF, up', hr', hn⟩, -⟩ := runSnap_spec F hF
  obtain rfl : c' = c := by rw [hc'] at hc; exact Option.some.inj hc
  obtain ⟨rfl, rfl⟩ := frontRange_unique hsp.1 hr'
  have hnad : c'.1.nadir = up := funext fun k => by rw [hn k, if_neg (hsp.2 k).ne]
  obtain ⟨a, ha, haF, -⟩ := forall₂_get h2 i A hA
  have hAne : A ≠ [] := by
    refine hall A ?_
    have := List.mem_of_getElem? hA
    unfold rememberedSets at this
    cases period with
    | none => exact this
    | some p => exact List.mem_of_mem_drop this
  have hd : ∀ x y, 0 ≤ euclid (fun k => up k - c'.1.ideal k) x y := fun x y => euclid_nonneg _ _ _
  refine ⟨_, ?_, rfl, ?_, ?_⟩
  · simp only [runF] at e3
    rw [← Option.some.inj e3, List.getElem?_map, List.getElem?_map, ha]
    simp only [Option.map_some]
    congr 1
    rw [haF, hcF, igdOf_value moo hmoo _ _ (by simpa using hF) (by simpa using hAne), hnad]
    congr 1
    refine invGenDist_map _ ?_ _ _
    intro x y
    unfold euclid
    congr 1
    refine Finset.sum_congr rfl fun k _ => ?_
    simp only [indForward, if_neg (hsp.2 k).ne, div_one]
    congr 1
    rw [← sub_div]
    congr 1
    ring
  · unfold invGenDist
    exact avg_nonneg (by intro x hx; obtain ⟨y, _, rfl⟩ := List.mem_map.1 hx; exact least_nonneg _ fun z => hd _ _)
  · rw [invGenDist_zero_iff hd hF hAne]
    have hp : ∀ k, 0 < up k - c'.1.ideal k := fun k => sub_pos.2 (hsp.2 k)
    constructor
    · intro h x hx
      obtain ⟨y, hy, e⟩ := h x hx
      rw [euclid_eq_zero_iff hp] at e
      exact e ▸ hy
    · intro h x hx
      exact ⟨x, h x hx, by rw [euclid_eq_zero_iff hp]⟩

/-- C129, refuted without a positive range: if all current solutions agree in one objective (always so for a single solution), every movement of the ideal and the nadir point is
a division by zero, although the code means to divide by one then. -/
theorem C129_range_refuted (moo : Moocore (m + 1)) (ind : RunInd) (hi : ind ≠ .other) (period : Option ℕ) (Fs : List (Option (List (Fin (m + 1) → ℝ)))) (F : List (Fin (m + 1) → ℝ))
    (hF : F ≠ []) (k : Fin (m + 1)) (hk : ∀ x ∈ F, ∀ y ∈ F, x k = y k) (r : RunMetric m) (h : runAll moo ind period (Fs ++ [some F]) = some r) (i : ℕ) (hlast : i + 1 < r.history.length) :
    r.deltaIdeal[i]? = some none ∧ r.deltaNadir[i]? = some none := by
  obtain ⟨c, hc, e1, e2, -⟩ := runAll_last moo ind period Fs F r h
  obtain ⟨c', hc', -, up, hr, hn⟩ := runSnap_spec F hF
  obtain rfl : c' = c := by rw [hc'] at hc; exact Option.some.inj hc
  have hz : c'.2 k = 0 := by
    rw [hn k]
    obtain ⟨⟨⟨x, hx, e⟩, -⟩, ⟨⟨y, hy, e'⟩, -⟩⟩ := hr k
    rw [e, e', hk x hx y hy, sub_self]
  have hval : ∀ x y : Fin (m + 1) → ℝ, runDelta x y c'.2 = none := fun x y => by
    unfold runDelta
    rw [if_neg]
    intro hc
    exact hc k hz
  have hne : r.history ≠ [] := by intro hc; rw [hc] at hlast; simp at hlast
  have ha : r.history[i]? = some r.history[i] := List.getElem?_eq_getElem (by omega)
  have hb : r.history[i + 1]? = some r.history[i + 1] := List.getElem?_eq_getElem hlast
  rw [e1, e2, (runDeltas_get _ _ _ hne).2 i _ _ ha hb, (runDeltas_get _ _ _ hne).2 i _ _ ha hb, hval, hval]
  exact ⟨rfl, rfl⟩

/-- C129, refuted for the hypervolume: the entry of the current set itself is not zero but its hypervolume, which is positive as soon as one solution is better than the nadir
point in every objective. -/
theorem C129_hv_refuted (moo : Moocore (m + 1)) (hmoo : MooHvContract moo) (Fs : List (Option (List (Fin (m + 1) → ℝ)))) (F : List (Fin (m + 1) → ℝ))
    (hne : ∀ G ∈ seenSets Fs, G ≠ []) (lo up : Fin (m + 1) → ℝ) (hsp : Spread F lo up) (hF : F ≠ []) (x : Fin (m + 1) → ℝ) (hx : x ∈ F) (hxu : ∀ k, x k < up k) (r : RunMetric m)
    (h : runAll moo .hv none (Fs ++ [some F]) = some r) : ∃ v : ℝ, r.deltaF.getLast? = some (v : WithTop ℝ) ∧ 0 < v := by
  have hseen : seenSets (Fs ++ [some F]) = seenSets Fs ++ [F] := by simp [seenSets]
  obtain ⟨r', h1, h2⟩ := C129_history moo .hv (by decide) none (Fs ++ [some F]) (by
    rw [hseen]; intro G hG
    rcases List.mem_append.1 hG with hG | hG
    · exact hne G hG
    · rw [List.mem_singleton.1 hG]; exact hF)
  obtain rfl : r' = r := by rw [h1] at h; exact Option.some.inj h
  obtain ⟨c, hc, -, -, e3⟩ := runAll_last moo .hv none Fs F r' h
  obtain ⟨c', hc', ⟨hcF, up', hr', hn⟩, -⟩ := runSnap_spec F hF
  obtain rfl : c' = c := by rw [hc'] at hc; exact Option.some.inj hc
  obtain ⟨rfl, rfl⟩ := frontRange_unique hsp.1 hr'
  have hnad : c'.1.nadir = up := funext fun k => by rw [hn k, if_neg (hsp.2 k).ne]
  have hidx : (rememberedSets none (Fs ++ [some F]))[(seenSets Fs).length]? = some F := by
    simp only [rememberedSets, hseen]; simp
  obtain ⟨e, he, heF, -⟩ := forall₂_get h2 _ F hidx
  obtain ⟨hn0, -, -, hlen, -⟩ := C129_lengths moo .hv (by decide) none (by simp) Fs F hF hne r' h
  have hl : r'.deltaF.length - 1 = (seenSets Fs).length := by rw [hlen]; simp [rememberedSets, hseen]
  set I : HvInd (m + 1) := ⟨none, fun _ => 1⟩ with hI
  have hI' : hvInit ({ refPoint := some fun _ => (1 : ℝ) } : HvArgs (m + 1)) = some I := rfl
  simp only [runF, hI', Option.map_some] at e3
  refine ⟨hvDo moo I (e.F.map (indForward (some (c'.1.ideal, c'.1.nadir)))), ?_, ?_⟩
  · rw [List.getLast?_eq_getElem?, hl, ← Option.some.inj e3, List.getElem?_map, List.getElem?_map, he]
    rfl
  · rw [heF, hnad]
    set y := indForward (some (c'.1.ideal, up)) x with hy
    have hy1 : ∀ k, y k < 1 := by
      intro k
      simp only [hy, indForward, if_neg (hsp.2 k).ne]
      rw [div_lt_one (sub_pos.2 (hsp.2 k))]
      linarith [hxu k]
    have h1 := C61_single moo hmoo I y rfl (fun k => (hy1 k).le)
    have h2 := C61_add_solutions moo hmoo I (by intro b hb; cases hb) [y] (F.map (indForward (some (c'.1.ideal, up)))) (by
      intro z hz; rw [List.mem_singleton.1 hz]; exact List.mem_map_of_mem hx)
    have h3 : 0 < ∏ k, (I.ref k - y k) := Finset.prod_pos fun k _ => sub_pos.2 (hy1 k)
    linarith

/-- The hypotheses are met: three solutions of two objectives, after a set with one of them. -/
example : Spread (m := 1) [![0, 1], ![1, 0], ![1 / 2, 1 / 2]] ![0, 0] ![1, 1] ∧
    (∀ G ∈ seenSets (m := 1) [none, some [![2, 2]]], G ≠ []) ∧ (∀ k, (![1 / 2, 1 / 2] : Fin 2 → ℝ) k < (![1, 1] : Fin 2 → ℝ) k) := by
  refine ⟨⟨fun k => ?_, fun k => ?_⟩, ?_, fun k => ?_⟩
  · fin_cases k
    · refine ⟨⟨⟨![0, 1], by simp, rfl⟩, ?_⟩, ⟨![1, 0], by simp, rfl⟩, ?_⟩ <;> (rintro r ⟨p, hp, rfl⟩; simp at hp; rcases hp with rfl | rfl | rfl <;> norm_num)
    · refine ⟨⟨⟨![1, 0], by simp, rfl⟩, ?_⟩, ⟨![0, 1], by simp, rfl⟩, ?_⟩ <;> (rintro r ⟨p, hp, rfl⟩; simp at hp; rcases hp with rfl | rfl | rfl <;> norm_num)
  · fin_cases k <;> norm_num
  · simp [seenSets]
  · fin_cases k <;> norm_num

example : ∃ r, runAll (m := 1) textbookMoo .igd (some 5) ([none, some [![2, 2]]] ++ [some [![0, 1], ![1, 0], ![1 / 2, 1 / 2]]]) = some r ∧ r.history.length = 2 := by
  obtain ⟨r, h1, h2⟩ := C129_history (m := 1) textbookMoo .igd (by decide) (some 5) ([none, some [![2, 2]]] ++ [some [![0, 1], ![1, 0], ![1 / 2, 1 / 2]]]) (by simp [seenSets])
  exact ⟨r, h1, by rw [h2.length_eq]; simp [rememberedSets, seenSets]⟩

end Props
