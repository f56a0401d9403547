import Verif.Model.Individual
import Mathlib.Tactic.Linarith
import Mathlib.Tactic.NormNum
import Mathlib.Algebra.Order.Ring.Rat
import Mathlib.Algebra.Order.BigOperators.Group.List
import Mathlib.Algebra.Order.Field.Rat

/-! # C19 (constraint violation), C20 (cached violation) -/

set_option linter.unusedSimpArgs false
set_option linter.unusedSectionVars false

namespace Props
open Model

variable {K : Type*} [Field K] [LinearOrder K] [IsStrictOrderedRing K]

/-- A configuration as documented: sum of violations, a positive scale, a positive power. -/
structure SumConfig (cfg : CvConfig K) : Prop where
  func : cfg.func = List.sum
  scale : ∀ s, cfg.scale = some s → 0 < s
  pow : ∀ p, cfg.pow = some p → p ≠ 0

theorem constrEntry_spec (cfg : CvConfig K) (hc : SumConfig cfg) (c : K) :
    0 ≤ constrEntry cfg c ∧ (constrEntry cfg c = 0 ↔ c ≤ cfg.eps) ∧
    (∀ c', c ≤ c' → constrEntry cfg c ≤ constrEntry cfg c') := by
  have key : ∀ c : K, ∃ v, constrEntry cfg c = (match cfg.pow with | some p => v ^ p | none => v) ∧
      0 ≤ v ∧ (v = 0 ↔ c ≤ cfg.eps) ∧ v = (match cfg.scale with
        | some s => max 0 (c - cfg.eps) / s | none => max 0 (c - cfg.eps)) := by
    intro c
    have h0 : max 0 (c - cfg.eps) = 0 ↔ c ≤ cfg.eps := by
      rw [max_eq_left_iff, sub_nonpos]
    refine ⟨match cfg.scale with | some s => max 0 (c - cfg.eps) / s | none => max 0 (c - cfg.eps), rfl, ?_, ?_, rfl⟩
    · cases hs : cfg.scale with
      | none => exact le_max_left ..
      | some s => exact div_nonneg (le_max_left ..) (hc.scale s hs).le
    · cases hs : cfg.scale with
      | none => exact h0
      | some s => simp only [div_eq_zero_iff, (hc.scale s hs).ne', or_false]; exact h0
  obtain ⟨v, hv, v0, vz, ve⟩ := key c
  refine ⟨?_, ?_, ?_⟩
  · rw [hv]; cases cfg.pow with
    | none => exact v0
    | some p => exact pow_nonneg v0 p
  · rw [hv]; cases hp : cfg.pow with
    | none => exact vz
    | some p => simp only [pow_eq_zero_iff (hc.pow p hp)]; exact vz
  · intro c' hcc
    obtain ⟨v', hv', v0', vz', ve'⟩ := key c'
    have hle : v ≤ v' := by
      have hm : max 0 (c - cfg.eps) ≤ max 0 (c' - cfg.eps) := max_le_max (le_refl _) (by linarith)
      rw [ve, ve']
      cases hs : cfg.scale with
      | none => exact hm
      | some s => exact div_le_div_of_nonneg_right hm (hc.scale s hs).le
    rw [hv, hv']; cases cfg.pow with
    | none => exact hle
    | some p => exact pow_le_pow_left₀ v0 hle p

theorem constrToCv_spec (cfg : CvConfig K) (hc : SumConfig cfg) (c : List K) :
    0 ≤ constrToCv cfg c ∧ (constrToCv cfg c = 0 ↔ ∀ x ∈ c, x ≤ cfg.eps) := by
  unfold constrToCv
  rw [hc.func]
  induction c with
  | nil => simp
  | cons x xs ih =>
    obtain ⟨e1, e2, _⟩ := constrEntry_spec cfg hc x
    have ih' : 0 ≤ (xs.map (constrEntry cfg)).sum ∧
        ((xs.map (constrEntry cfg)).sum = 0 ↔ ∀ y ∈ xs, y ≤ cfg.eps) := by
      by_cases hx : xs.length = 0
      · have := List.length_eq_zero_iff.1 hx
        subst this; simp
      · rw [if_neg hx] at ih; exact ih
    rw [if_neg (by simp), List.map_cons, List.sum_cons]
    refine ⟨add_nonneg e1 ih'.1, ?_⟩
    rw [add_eq_zero_iff_of_nonneg e1 ih'.1, e2, ih'.2]
    simp

theorem constrToCv_mono (cfg : CvConfig K) (hc : SumConfig cfg) (c c' : List K)
    (h : List.Forall₂ (· ≤ ·) c c') : constrToCv cfg c ≤ constrToCv cfg c' := by
  unfold constrToCv
  rw [hc.func]
  by_cases h0 : c.length = 0
  · have : c'.length = 0 := by rw [← h.length_eq]; exact h0
    rw [if_pos h0, if_pos this]
  · have : ¬ c'.length = 0 := by rw [← h.length_eq]; exact h0
    rw [if_neg h0, if_neg this]
    clear h0 this
    induction h with
    | nil => simp
    | cons hxy _ ih =>
      simp only [List.map_cons, List.sum_cons]
      exact add_le_add ((constrEntry_spec cfg hc _).2.2 _ hxy) ih

/-- C19. The aggregated constraint violation (any tolerances, positive scales and powers, summed): non-negative, and
zero exactly if every inequality value is at most its tolerance and every equality value is at most its tolerance in
absolute value. -/
theorem C19_cv_zero_iff_satisfied (cfg : IndConfig K) (hi : SumConfig cfg.ieq) (he : SumConfig cfg.eq) (G H : List K) :
    0 ≤ calcCv cfg G H ∧
    (calcCv cfg G H = 0 ↔ (∀ g ∈ G, g ≤ cfg.ieq.eps) ∧ ∀ h ∈ H, |h| ≤ cfg.eq.eps) := by
  obtain ⟨a1, a2⟩ := constrToCv_spec cfg.ieq hi G
  obtain ⟨b1, b2⟩ := constrToCv_spec cfg.eq he (H.map fun h => |h|)
  unfold calcCv
  refine ⟨add_nonneg a1 b1, ?_⟩
  rw [add_eq_zero_iff_of_nonneg a1 b1, a2, b2]
  simp

/-- C19. The violation is monotone in every inequality value and in the absolute value of every equality value. -/
theorem C19_cv_monotone (cfg : IndConfig K) (hi : SumConfig cfg.ieq) (he : SumConfig cfg.eq) (G G' H H' : List K)
    (hG : List.Forall₂ (· ≤ ·) G G') (hH : List.Forall₂ (fun h h' => |h| ≤ |h'|) H H') :
    calcCv cfg G H ≤ calcCv cfg G' H' := by
  unfold calcCv
  refine add_le_add (constrToCv_mono _ hi _ _ hG) (constrToCv_mono _ he _ _ ?_)
  rw [List.forall₂_map_left_iff, List.forall₂_map_right_iff]
  exact hH

/-- C19. The default configuration: zero tolerance for inequalities, `1e-4` for equalities; an individual is feasible
iff all constraints are satisfied to this tolerance; without constraints the violation is 0. -/
theorem C19_default_feasible (G H : List K) :
    (feasOf (defaultConfig (K := K)) (calcCv defaultConfig G H) = true ↔
      (∀ g ∈ G, g ≤ 0) ∧ ∀ h ∈ H, |h| ≤ 1 / 10000) ∧ calcCv (defaultConfig (K := K)) [] [] = 0 := by
  have hi : SumConfig (defaultConfig (K := K)).ieq := ⟨rfl, by simp [defaultConfig], by simp [defaultConfig]⟩
  have he : SumConfig (defaultConfig (K := K)).eq := ⟨rfl, by simp [defaultConfig], by simp [defaultConfig]⟩
  obtain ⟨h1, h2⟩ := C19_cv_zero_iff_satisfied defaultConfig hi he G H
  refine ⟨?_, by simp [calcCv, constrToCv]⟩
  unfold feasOf
  rw [decide_eq_true_iff]
  have h0 : (defaultConfig (K := K)).cvEps = 0 := rfl
  rw [h0, ← show calcCv defaultConfig G H = 0 ↔ calcCv defaultConfig G H ≤ 0 from
    ⟨fun h => h.le, fun h => le_antisymm h h1⟩, h2]
  rfl

example : calcCv (defaultConfig (K := ℚ)) [1, -2, 3] [1 / 20000, -1] = 4 + 9999 / 10000 := by
  norm_num [calcCv, constrToCv, constrEntry, defaultConfig]
example : SumConfig ({ eps := 1, scale := some 2, pow := some 2, func := List.sum } : CvConfig ℚ) :=
  ⟨rfl, by simp, by simp⟩

/-! ## C20 -/

/-- C20 as stated fails with the default configuration: after reading `CV` once, overwriting `G` leaves the old value
in place: an individual with the violated constraint `G = [5]` still reports `CV = 0` and counts as feasible. -/
theorem C20_stale_refuted : ∃ (s : CvState ℚ) (ops : List (CvOp ℚ)),
    let s' := cvRun defaultConfig s ops
    (cvStep defaultConfig s' .readCV).2 = some 0 ∧ calcCv defaultConfig s'.G s'.H = 5 := by
  refine ⟨⟨[-1], [], none⟩, [.readCV, .setG [5]], ?_, ?_⟩ <;>
    norm_num [cvRun, cvStep, defaultConfig, calcCv, constrToCv, constrEntry]

/-- The constraint values last assigned by a sequence of accesses (`(G, H)`; `reset` clears both). -/
def lastValues : List K × List K → List (CvOp K) → List K × List K
  | v, [] => v
  | v, .setG G :: ops => lastValues (G, v.2) ops
  | v, .setH H :: ops => lastValues (v.1, H) ops
  | _, .reset :: ops => lastValues ([], []) ops
  | v, .setCV _ :: ops => lastValues v ops
  | v, .readCV :: ops => lastValues v ops

theorem cvRun_append (cfg : IndConfig K) (s : CvState K) (a b : List (CvOp K)) :
    cvRun cfg s (a ++ b) = cvRun cfg (cvRun cfg s a) b := by
  induction a generalizing s with
  | nil => rfl
  | cons op a ih => exact ih _

theorem cvRun_values (cfg : IndConfig K) (s : CvState K) (ops : List (CvOp K)) :
    ((cvRun cfg s ops).G, (cvRun cfg s ops).H) = lastValues (s.G, s.H) ops := by
  induction ops generalizing s with
  | nil => rfl
  | cons op ops ih =>
    rw [cvRun, ih]
    cases op with
    | readCV =>
      simp only [cvStep, lastValues]
      split <;> rfl
    | _ => rfl

/-- C20 with caching switched off: after every sequence of accesses, reading `CV` gives the violation of the last
assigned constraint values. -/
theorem C20_no_cache_current (cfg : IndConfig K) (hc : cfg.cache = false) (s : CvState K) (ops : List (CvOp K)) :
    (cvStep cfg (cvRun cfg s ops) .readCV).2 =
      some (calcCv cfg (lastValues (s.G, s.H) ops).1 (lastValues (s.G, s.H) ops).2) := by
  rw [← cvRun_values cfg s ops]
  simp [cvStep, hc]

/-- C20, the part that holds in every configuration: after an invalidation (`reset` or assigning `None` to `CV`) and
any number of later assignments to `G` and `H`, every following read gives the violation of the last assigned values
(missing: an assignment to `G`, `H` after a read, without invalidation; refuted above). -/
theorem C20_invalidated_partial (cfg : IndConfig K) (s : CvState K) (ops ws rs : List (CvOp K)) (inv : CvOp K)
    (hinv : inv = .reset ∨ inv = .setCV none)
    (hw : ∀ w ∈ ws, (∃ G, w = .setG G) ∨ ∃ H, w = .setH H) (hr : ∀ r ∈ rs, r = .readCV) :
    let ops' := ops ++ inv :: (ws ++ rs)
    (cvStep cfg (cvRun cfg s ops') .readCV).2 =
      some (calcCv cfg (lastValues (s.G, s.H) ops').1 (lastValues (s.G, s.H) ops').2) := by
  intro ops'
  rw [← cvRun_values cfg s ops']
  have hcv : ∀ (t : CvState K), t.CV = none → (cvRun cfg t ws).CV = none := by
    clear hr ops'
    induction ws with
    | nil => exact fun t h => h
    | cons w ws ih =>
      intro t ht
      refine ih (fun w' h => hw w' (List.mem_cons_of_mem _ h)) _ ?_
      rcases hw w (List.mem_cons_self ..) with ⟨G, rfl⟩ | ⟨H, rfl⟩ <;> exact ht
  have hcur : ∀ (t : CvState K), (t.CV = none ∨ t.CV = some (calcCv cfg t.G t.H)) →
      (cvStep cfg (cvRun cfg t rs) .readCV).2 =
        some (calcCv cfg (cvRun cfg t rs).G (cvRun cfg t rs).H) := by
    clear hw hcv ops'
    induction rs with
    | nil =>
      rintro t (h | h) <;> simp only [cvRun, cvStep] <;> cases cfg.cache <;> simp [h]
    | cons r rs ih =>
      intro t ht
      rw [cvRun]
      refine ih (fun r' h => hr r' (List.mem_cons_of_mem _ h)) _ ?_
      rw [hr r (List.mem_cons_self ..)]
      right
      rcases ht with h | h <;> simp only [cvStep] <;> cases cfg.cache <;> simp [h]
  have e : cvRun cfg s ops' = cvRun cfg (cvRun cfg (cvStep cfg (cvRun cfg s ops) inv).1 ws) rs := by
    rw [← cvRun_append]
    exact cvRun_append cfg s ops _
  rw [e]
  refine hcur _ (Or.inl (hcv _ ?_))
  rcases hinv with rfl | rfl <;> rfl

example : (cvStep (defaultConfig (K := ℚ)) (cvRun defaultConfig ⟨[], [], none⟩
    [.setG [1], .readCV, .setCV none, .setG [3], .setH [-2], .readCV]) .readCV).2 = some (3 + (2 - 1 / 10000)) := by
  norm_num [cvRun, cvStep, defaultConfig, calcCv, constrToCv, constrEntry]

end Props
