import Verif.Props.Indicators
import Verif.Props.Hypervolume

/-!
# C62: the additive epsilon indicator

`moocore.epsilon_additive(F, ref)` is assumed to return the smallest shift by which `F` has to be improved to cover the reference
set (`Spec.IsAddEps`). The indicator built on it: zero or less exactly when the front is covered, monotone, compatible with
domination; an empty set of solutions is reported as `0` (refuted: "an empty set is not better than a bad one").
-/

set_option linter.unusedSimpArgs false
set_option linter.unusedVariables false
set_option linter.unusedSectionVars false

namespace Props
open Model Spec Lemmas

variable {m : ℕ}

/-- What is assumed of the compiled package. -/
def MooEpsContract (moo : Moocore m) : Prop := ∀ F pf, F ≠ [] → pf ≠ [] → IsAddEps pf F (moo.epsAdd F pf)

section
variable (moo : Moocore m) (hmoo : MooEpsContract moo) (pf : List (Fin m → ℝ)) (hpf : pf ≠ []) (zto : Bool)

include hpf in
/-- The indicator accepts every non-empty front and every set of solutions. -/
theorem C62_accepts (F : List (Fin m → ℝ)) : ∃ v, epsDo moo pf zto F = some v := by
  have : ∃ I, distInit { pf := pf, zeroToOne := zto } = some I := by
    rw [C59_accepts]
    refine ⟨hpf, fun _ lo hi h k => ?_⟩
    exact (h k).1.2 (h k).2.1
  obtain ⟨I, hI⟩ := this
  unfold epsDo
  rw [hI]
  exact ⟨_, rfl⟩

theorem epsDo_cases {F : List (Fin m → ℝ)} (hF : F ≠ []) {v : ℝ} (h : epsDo moo pf zto F = some v) :
    ∃ norm, (∀ b, norm = some b → ∀ k, b.1 k ≤ b.2 k) ∧ pf ≠ [] ∧
      v = moo.epsAdd (F.map (indForward norm)) (pf.map (indForward norm)) ∧
      (∀ G : List (Fin m → ℝ), G ≠ [] → epsDo moo pf zto G = some (moo.epsAdd (G.map (indForward norm)) (pf.map (indForward norm)))) ∧
      (zto = false → norm = none) := by
  unfold epsDo at h
  obtain ⟨I, hI, hv⟩ := Option.map_eq_some_iff.1 h
  obtain ⟨hpf, hle⟩ := (C59_accepts _).1 ⟨I, hI⟩
  have hpf : pf ≠ [] := hpf
  obtain ⟨lo, hlo⟩ := ptMin_isSome hpf
  obtain ⟨hi, hhi⟩ := ptMax_isSome hpf
  have hr := frontRange_of hlo hhi
  have hFe : ∀ G : List (Fin m → ℝ), G ≠ [] → G.isEmpty = false := fun G hG => by simpa using hG
  have hI' := hI
  simp only [distInit, hlo, hhi, Option.bind_some, Option.getD_none] at hI
  cases zto with
  | true =>
    have hle : ∀ k, lo k ≤ hi k := fun k => (hr k).1.2 (hr k).2.1
    rw [if_pos rfl, if_pos hle] at hI
    simp only [Option.some.injEq] at hI
    subst hI
    refine ⟨some (lo, hi), ?_, hpf, ?_, ?_, by simp⟩
    · intro b hb k; simp only [Option.some.injEq] at hb; subst hb; exact hle k
    · rw [hFe F hF] at hv; simpa using hv.symm
    · intro G hG
      unfold epsDo
      rw [hI', Option.map_some, hFe G hG]
      simp
  | false =>
    simp only [Bool.false_eq_true, if_false, Option.some.injEq] at hI
    subst hI
    have hid : pf.map (indForward (none : Option ((Fin m → ℝ) × (Fin m → ℝ)))) = pf := by
      conv_rhs => rw [← List.map_id pf]
      exact List.map_congr_left fun x _ => rfl
    refine ⟨none, by simp, hpf, ?_, ?_, fun _ => rfl⟩
    · rw [hFe F hF] at hv; rw [hid]; simpa using hv.symm
    · intro G hG
      unfold epsDo
      rw [hI', Option.map_some, hFe G hG, hid]
      simp

include hmoo in
/-- **Covered means at most zero**: the value is `≤ 0` exactly if every reference point is weakly dominated by a solution (with or
without normalisation). -/
theorem C62_nonpos_iff (F : List (Fin m → ℝ)) (hF : F ≠ []) (v : ℝ) (h : epsDo moo pf zto F = some v) :
    v ≤ 0 ↔ Covers F pf := by
  obtain ⟨norm, hn, hpf, rfl, _⟩ := epsDo_cases moo pf zto hF h
  have hc := hmoo (F.map (indForward norm)) (pf.map (indForward norm)) (by simpa using hF) (by simpa using hpf)
  constructor
  · intro h0 z hz
    obtain ⟨a, ha, hk⟩ := hc.1 _ (List.mem_map_of_mem hz)
    obtain ⟨x, hx, rfl⟩ := List.mem_map.1 ha
    refine ⟨x, hx, fun k => ?_⟩
    rw [← indForward_le_iff hn]
    have := hk k
    linarith
  · intro hcov
    apply hc.2
    intro z hz
    obtain ⟨z, hz', rfl⟩ := List.mem_map.1 hz
    obtain ⟨x, hx, hd⟩ := hcov z hz'
    refine ⟨_, List.mem_map_of_mem hx, fun k => ?_⟩
    have := (indForward_le_iff hn x z k).2 (hd k)
    linarith

include hmoo in
/-- **Compatible with domination**: if every solution of `B` is weakly dominated by one of `A`, then `A` is not worse; in
particular adding solutions never hurts. -/
theorem C62_compliant (A B : List (Fin m → ℝ)) (hA : A ≠ []) (hB : B ≠ []) (hcov : Covers A B) (va vb : ℝ)
    (ha : epsDo moo pf zto A = some va) (hb : epsDo moo pf zto B = some vb) : va ≤ vb := by
  obtain ⟨norm, hn, hpf, rfl, hG, _⟩ := epsDo_cases moo pf zto hA ha
  rw [hG B hB, Option.some.injEq] at hb
  subst hb
  have hca := hmoo (A.map (indForward norm)) (pf.map (indForward norm)) (by simpa using hA) (by simpa using hpf)
  have hcb := hmoo (B.map (indForward norm)) (pf.map (indForward norm)) (by simpa using hB) (by simpa using hpf)
  apply hca.2
  intro z hz
  obtain ⟨b, hb, hk⟩ := hcb.1 z hz
  obtain ⟨b, hb', rfl⟩ := List.mem_map.1 hb
  obtain ⟨a, ha, hab⟩ := hcov b hb'
  refine ⟨_, List.mem_map_of_mem ha, fun k => ?_⟩
  have := (indForward_le_iff hn a b k).2 (hab k)
  have := hk k
  linarith

include hmoo in
/-- Without normalisation, worsening all solutions by `t` in every objective adds exactly `t`. -/
theorem C62_shift (t : ℝ) (F : List (Fin m → ℝ)) (hF : F ≠ []) (v w : ℝ)
    (h1 : epsDo moo pf false F = some v) (h2 : epsDo moo pf false (F.map fun x k => x k + t) = some w) : w = v + t := by
  obtain ⟨norm, hn, hpf, rfl, hG, hno⟩ := epsDo_cases moo pf false hF h1
  obtain rfl := hno rfl
  rw [hG _ (by simpa using hF), Option.some.injEq] at h2
  subst h2
  have hid : ∀ G : List (Fin m → ℝ), G.map (indForward (none : Option ((Fin m → ℝ) × (Fin m → ℝ)))) = G := by
    intro G
    conv_rhs => rw [← List.map_id G]
    exact List.map_congr_left fun x _ => rfl
  simp only [hid]
  have ha := hmoo F pf hF hpf
  have hb := hmoo (F.map fun x k => x k + t) pf (by simpa using hF) hpf
  apply le_antisymm
  · apply hb.2
    intro z hz
    obtain ⟨x, hx, hk⟩ := ha.1 z hz
    exact ⟨_, List.mem_map_of_mem hx, fun k => by have := hk k; linarith⟩
  · have : moo.epsAdd F pf ≤ moo.epsAdd (F.map fun x k => x k + t) pf - t := by
      apply ha.2
      intro z hz
      obtain ⟨y, hy, hk⟩ := hb.1 z hz
      obtain ⟨x, hx, rfl⟩ := List.mem_map.1 hy
      exact ⟨x, hx, fun k => by have := hk k; linarith⟩
    linarith

end

/-- A package that fulfils the contract exists whenever there is an objective. -/
theorem addEps_exists (pf F : List (Fin (m + 1) → ℝ)) (hpf : pf ≠ []) (hF : F ≠ []) : ∃ e, IsAddEps pf F e := by
  -- for one reference point and one solution: the largest difference
  let d1 : (Fin (m + 1) → ℝ) → (Fin (m + 1) → ℝ) → ℝ := fun z a => Finset.univ.sup' Finset.univ_nonempty fun k => a k - z k
  have hd1 : ∀ z a x, (∀ k, a k - x ≤ z k) ↔ d1 z a ≤ x := by
    intro z a x
    simp only [d1, Finset.sup'_le_iff, Finset.mem_univ, true_implies]
    exact forall_congr' fun k => ⟨fun h => by linarith, fun h => by linarith⟩
  have hd2 : ∀ z x, (∃ a ∈ F, ∀ k, a k - x ≤ z k) ↔ least (d1 z) F ≤ x := by
    intro z x
    constructor
    · rintro ⟨a, ha, h⟩; exact (least_le _ ha).trans ((hd1 z a x).1 h)
    · intro h
      obtain ⟨a, ha, he⟩ := least_mem (d1 z) hF
      exact ⟨a, ha, (hd1 z a x).2 (he ▸ h)⟩
  obtain ⟨z0, hz0, hmax⟩ : ∃ z0 ∈ pf, ∀ z ∈ pf, least (d1 z) F ≤ least (d1 z0) F := by
    have := Finset.exists_max_image pf.toFinset (fun z => least (d1 z) F) (by simpa using hpf)
    simpa using this
  refine ⟨least (d1 z0) F, ?_, ?_⟩
  · intro z hz; exact (hd2 z _).2 (hmax z hz)
  · intro x hx; exact (hd2 z0 x).1 (hx z0 hz0)

open Classical in
noncomputable def epsMoo : Moocore (m + 1) :=
  ⟨fun _ _ => 0, fun _ _ => 0,
   fun F pf => if h : F ≠ [] ∧ pf ≠ [] then (addEps_exists pf F h.2 h.1).choose else 0, fun _ _ => 0⟩

theorem epsMoo_contract : MooEpsContract (epsMoo : Moocore (m + 1)) := by
  intro F pf h1 h2
  simp only [epsMoo]
  rw [dif_pos ⟨h1, h2⟩]
  exact (addEps_exists pf F h2 h1).choose_spec

/-- **An empty set of solutions is rated better than one that misses the front** (`core/indicator.py:26-27` returns `0.0`). -/
theorem C62_empty_refuted : ∃ (moo : Moocore 1) (pf F : List (Fin 1 → ℝ)) (v : ℝ), MooEpsContract moo ∧ pf ≠ [] ∧ F ≠ [] ∧
    epsDo moo pf false [] = some 0 ∧ epsDo moo pf false F = some v ∧ 0 < v := by
  obtain ⟨v, hv⟩ := C62_accepts (epsMoo : Moocore 1) [![0]] (by simp) false [![1]]
  obtain ⟨w, hw⟩ := C62_accepts (epsMoo : Moocore 1) [![0]] (by simp) false []
  refine ⟨epsMoo, [![0]], [![1]], v, epsMoo_contract, by simp, by simp, ?_, hv, ?_⟩
  · rw [hw]
    unfold epsDo at hw
    obtain ⟨I, _, h⟩ := Option.map_eq_some_iff.1 hw
    simp at h
    rw [← h]
  · by_contra hle
    have := (C62_nonpos_iff _ epsMoo_contract _ _ _ (by simp) v hv).1 (not_lt.1 hle)
    obtain ⟨a, ha, hd⟩ := this ![0] (by simp)
    simp only [List.mem_singleton] at ha
    subst ha
    have := hd 0
    simp at this
    linarith

end Props
