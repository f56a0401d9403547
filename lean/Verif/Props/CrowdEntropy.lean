import Verif.Spec.CrowdEntropy
import Verif.Model.CrowdEntropy
import Verif.Props.Pruning
import Mathlib.Data.Rat.Defs
import Mathlib.Algebra.Order.Ring.Rat
import Mathlib.Algebra.Field.Rat
import Mathlib.Tactic.FieldSimp
import Mathlib.Tactic.Ring
import Mathlib.Algebra.BigOperators.Fin
import Mathlib.Tactic.LinearCombination
import Mathlib.Tactic.FinCases

/-! # C155: the crowding entropy and the fast nearest-neighbour metrics -/

set_option linter.unusedSimpArgs false
set_option linter.unusedVariables false
set_option linter.unusedSectionVars false

namespace Props
open Model Spec Lemmas
open scoped BigOperators

variable {M : ℕ}

section ranges
variable {K : Type*} [Field K] [LinearOrder K] [IsStrictOrderedRing K]

theorem ceLo_spec (N : ℕ) (hN : 0 < N) (x : ℕ → Fin M → K) (j : Fin M) : (∃ i < N, x i j = prLo N x j) ∧ ∀ i < N, prLo N x j ≤ x i j := by
  have hne : List.range N ≠ [] := by simp; omega
  unfold prLo
  obtain ⟨a1, a2⟩ := npArgmin_spec (fun i => x i j) (List.range N)
  cases hm : npArgmin (fun i => x i j) (List.range N) with
  | none => exact absurd (a1.1 hm) hne
  | some i =>
    obtain ⟨b1, b2⟩ := a2 i hm
    exact ⟨⟨i, List.mem_range.1 b1, rfl⟩, fun k hk => by simpa using b2 k (List.mem_range.2 hk)⟩

theorem ceHi_spec (N : ℕ) (hN : 0 < N) (x : ℕ → Fin M → K) (j : Fin M) : (∃ i < N, x i j = prHi N x j) ∧ ∀ i < N, x i j ≤ prHi N x j := by
  have hne : List.range N ≠ [] := by simp; omega
  unfold prHi
  obtain ⟨i, hm, b1, b2⟩ := ctaArgmax_spec (fun i => x i j) (List.range N) hne
  rw [hm]
  exact ⟨⟨i, List.mem_range.1 b1, rfl⟩, fun k hk => by simpa using b2 k (List.mem_range.2 hk)⟩

end ranges

theorem ceSpread_iff (N : ℕ) (hN : 0 < N) (x : ℕ → Fin M → ℝ) (j : Fin M) : HasSpread (fun a => x a j) N ↔ prHi N x j - prLo N x j ≠ 0 := by
  obtain ⟨⟨a, ha, ea⟩, h1⟩ := ceLo_spec N hN x j
  obtain ⟨⟨b, hb, eb⟩, h2⟩ := ceHi_spec N hN x j
  constructor
  · rintro ⟨c, hc, d, hd, h⟩ h0
    exact h (le_antisymm (by linarith [h1 c hc, h2 c hc, h1 d hd, h2 d hd]) (by linarith [h1 c hc, h2 c hc, h1 d hd, h2 d hd]))
  · intro h
    exact ⟨a, ha, b, hb, fun h' => h (by simp only at h'; rw [← ea, ← eb, h']; ring)⟩

theorem ceRange_nonneg (N : ℕ) (hN : 0 < N) (x : ℕ → Fin M → ℝ) (j : Fin M) : 0 ≤ prHi N x j - prLo N x j := by
  obtain ⟨⟨a, ha, ea⟩, h1⟩ := ceLo_spec N hN x j
  have := (ceHi_spec N hN x j).2 a ha
  linarith

/-- The contribution of one objective of an inner point: the gap, relative to the range, times the entropy of the position within the gap; without NaN. -/
theorem ceTerm_eq (norm dl du : ℝ) (hn : norm ≠ 0) (hl : 0 ≤ dl) (hu : 0 ≤ du) :
    ceTerm norm (dl : WithTop ℝ) (du : WithTop ℝ) = (((dl + du) / norm * bits (dl / (dl + du)) : ℝ) : WithTop ℝ) := by
  have h2 : Real.log 2 ≠ 0 := (Real.log_pos (by norm_num)).ne'
  unfold ceTerm
  rw [if_neg hn]
  change ((((ceEntropy dl du).map fun e => (dl + du) * e / norm).getD 0 : ℝ) : WithTop ℝ) = _
  congr 1
  unfold ceEntropy ceShare ceLog bits
  by_cases h0 : dl + du = 0
  · simp [h0]
  · by_cases hl0 : dl = 0
    · subst hl0
      have h0' : du ≠ 0 := by simpa using h0
      simp [h0']
    · by_cases hu0 : du = 0
      · subst hu0
        simp only [add_zero] at h0
        simp [h0]
      · have e : du / (dl + du) = 1 - dl / (dl + du) := by field_simp; ring
        have p1 : dl / (dl + du) ≠ 0 := div_ne_zero hl0 h0
        have p2 : du / (dl + du) ≠ 0 := div_ne_zero hu0 h0
        simp only [if_neg h0, Option.bind_eq_bind, Option.bind_some, if_neg p1, if_neg p2, Option.map_some, Option.getD_some, Option.pure_def]
        rw [Real.binEntropy_eq_negMulLog_add_negMulLog_one_sub, ← e]
        unfold Real.negMulLog
        field_simp
        ring

theorem ceTerm_top (norm : ℝ) (dl du : WithTop ℝ) (hn : norm ≠ 0) (h : dl = ⊤ ∨ du = ⊤) : ceTerm norm dl du = ⊤ := by
  unfold ceTerm
  rw [if_neg hn]
  rcases h with rfl | rfl
  · cases du <;> rfl
  · cases dl <;> rfl

/-- The gap before a point, from its direct predecessor. -/
theorem ce_gap_before (v : ℕ → ℝ) (N a i : ℕ) (h : DirectlyBefore v N a i) : prLast v (List.range N) i = ((v i - v a : ℝ) : WithTop ℝ) ∧ v a ≤ v i := by
  obtain ⟨ha, hi, hb, hno⟩ := h
  have hle : v a ≤ v i := by rcases hb with h | h; exacts [h.le, h.1.le]
  refine ⟨?_, hle⟩
  rcases C91_gap_before v (List.range N) List.nodup_range i (List.mem_range.2 hi) with ⟨h, -⟩ | ⟨c, hc, hci, hmax, e⟩
  · exact absurd hb (h a (List.mem_range.2 ha))
  · rw [e]
    have h1 := hmax a (List.mem_range.2 ha) hb
    have h2 : v c ≤ v a := by
      by_contra hlt
      exact hno c (List.mem_range.1 hc) ⟨Or.inl (not_le.1 hlt), hci⟩
    rw [le_antisymm h1 h2]

theorem ce_gap_after (v : ℕ → ℝ) (N i b : ℕ) (h : DirectlyBefore v N i b) : prNext v (List.range N) i = ((v b - v i : ℝ) : WithTop ℝ) ∧ v i ≤ v b := by
  obtain ⟨hi, hb, hib, hno⟩ := h
  have hle : v i ≤ v b := by rcases hib with h | h; exacts [h.le, h.1.le]
  refine ⟨?_, hle⟩
  rcases C91_gap_after v (List.range N) List.nodup_range i (List.mem_range.2 hi) with ⟨h, -⟩ | ⟨c, hc, hci, hmin, e⟩
  · exact absurd hib (h b (List.mem_range.2 hb))
  · rw [e]
    have h1 := hmin b (List.mem_range.2 hb) hib
    have h2 : v b ≤ v c := by
      by_contra hlt
      exact hno c (List.mem_range.1 hc) ⟨hci, Or.inl (not_le.1 hlt)⟩
    rw [le_antisymm h1 h2]

theorem ceFirst_iff (v : ℕ → ℝ) (N i : ℕ) (hi : i < N) : StandsFirst v N i ↔ prLast v (List.range N) i = ⊤ := by
  rcases C91_gap_before v (List.range N) List.nodup_range i (List.mem_range.2 hi) with ⟨h, e⟩ | ⟨c, hc, hci, -, e⟩
  · exact ⟨fun _ => e, fun _ a ha => h a (List.mem_range.2 ha)⟩
  · exact ⟨fun h => absurd hci (h c (List.mem_range.1 hc)), fun h => by rw [e] at h; exact absurd h (WithTop.coe_ne_top)⟩

theorem ceLast_iff (v : ℕ → ℝ) (N i : ℕ) (hi : i < N) : StandsLast v N i ↔ prNext v (List.range N) i = ⊤ := by
  rcases C91_gap_after v (List.range N) List.nodup_range i (List.mem_range.2 hi) with ⟨h, e⟩ | ⟨c, hc, hci, -, e⟩
  · exact ⟨fun _ => e, fun _ a ha => h a (List.mem_range.2 ha)⟩
  · exact ⟨fun h => absurd hci (h c (List.mem_range.1 hc)), fun h => by rw [e] at h; exact absurd h (WithTop.coe_ne_top)⟩

theorem ceSum_coe (L : List (Fin M)) (f : Fin M → ℝ) (g : Fin M → WithTop ℝ) (h : ∀ j ∈ L, g j = (f j : WithTop ℝ)) : (L.map g).sum = (((L.map f).sum : ℝ) : WithTop ℝ) := by
  induction L with
  | nil => simp
  | cons a L ih =>
    rw [List.map_cons, List.map_cons, List.sum_cons, List.sum_cons, ih fun j hj => h j (by simp [hj]), h a (by simp), WithTop.coe_add]

theorem ceSum_top (L : List (Fin M)) (g : Fin M → WithTop ℝ) : (L.map g).sum = ⊤ ↔ ∃ j ∈ L, g j = ⊤ := by
  induction L with
  | nil => simp
  | cons a L ih => rw [List.map_cons, List.sum_cons, WithTop.add_eq_top, ih]; simp

/-- C155. The crowding entropy of a point that is neither first nor last in any objective with spread: the sum over these objectives of the gap between its neighbours, relative to the range, times the entropy
(in bits) of its position within that gap. `prv j`, `nxt j` are its neighbours in objective `j`, `lo`, `hi` extreme points. -/
theorem C155_formula (N : ℕ) (x : ℕ → Fin M → ℝ) (i : ℕ) (prv nxt lo hi : Fin M → ℕ) (hN : 0 < N)
    (hp : ∀ j, HasSpread (fun a => x a j) N → DirectlyBefore (fun a => x a j) N (prv j) i)
    (hn : ∀ j, HasSpread (fun a => x a j) N → DirectlyBefore (fun a => x a j) N i (nxt j))
    (hlo : ∀ j, lo j < N ∧ ∀ a < N, x (lo j) j ≤ x a j) (hhi : ∀ j, hi j < N ∧ ∀ a < N, x a j ≤ x (hi j) j) :
    calcCe N x i = ((∑ j, (if x (lo j) j = x (hi j) j then 0 else
      (x (nxt j) j - x (prv j) j) / (x (hi j) j - x (lo j) j) * bits ((x i j - x (prv j) j) / (x (nxt j) j - x (prv j) j))) : ℝ) : WithTop ℝ) := by
  have elo : ∀ j, prLo N x j = x (lo j) j := fun j => by
    obtain ⟨⟨a, ha, ea⟩, h1⟩ := ceLo_spec N hN x j
    exact le_antisymm (h1 _ (hlo j).1) (ea ▸ (hlo j).2 a ha)
  have ehi : ∀ j, prHi N x j = x (hi j) j := fun j => by
    obtain ⟨⟨a, ha, ea⟩, h1⟩ := ceHi_spec N hN x j
    exact le_antisymm (ea ▸ (hhi j).2 a ha) (h1 _ (hhi j).1)
  unfold calcCe
  rw [ceSum_coe _ (fun j => if x (lo j) j = x (hi j) j then 0 else
      (x (nxt j) j - x (prv j) j) / (x (hi j) j - x (lo j) j) * bits ((x i j - x (prv j) j) / (x (nxt j) j - x (prv j) j)))]
  · rw [← List.ofFn_eq_map, List.sum_ofFn]
  · intro j _
    by_cases hz : x (lo j) j = x (hi j) j
    · rw [if_pos hz, elo, ehi, hz, sub_self]; unfold ceTerm; simp
    · have hz' : prHi N x j - prLo N x j ≠ 0 := by rw [elo, ehi]; intro h; exact hz (by linarith)
      have hs := (ceSpread_iff N hN x j).2 hz'
      obtain ⟨e1, l1⟩ := ce_gap_before _ N _ i (hp j hs)
      obtain ⟨e2, l2⟩ := ce_gap_after _ N i _ (hn j hs)
      rw [if_neg hz, e1, e2, ceTerm_eq _ _ _ hz' (by linarith) (by linarith), elo, ehi]
      congr 1
      have : x i j - x (prv j) j + (x (nxt j) j - x i j) = x (nxt j) j - x (prv j) j := by ring
      rw [this]

/-- C155. The crowding entropy is infinite exactly for the points that stand first or last in some objective with spread. -/
theorem C155_infinite (N : ℕ) (x : ℕ → Fin M → ℝ) (i : ℕ) (hi : i < N) :
    calcCe N x i = ⊤ ↔ ∃ j, HasSpread (fun a => x a j) N ∧ (StandsFirst (fun a => x a j) N i ∨ StandsLast (fun a => x a j) N i) := by
  unfold calcCe
  rw [ceSum_top]
  refine exists_congr fun j => ?_
  simp only [List.mem_finRange, true_and]
  rw [ceSpread_iff N (by omega) x j, ceFirst_iff _ N i hi, ceLast_iff _ N i hi]
  constructor
  · intro h
    by_cases hz : prHi N x j - prLo N x j = 0
    · rw [hz] at h; simp [ceTerm] at h
    · refine ⟨hz, ?_⟩
      by_contra hno
      push Not at hno
      obtain ⟨d, hd⟩ := WithTop.ne_top_iff_exists.1 hno.1
      obtain ⟨e, he⟩ := WithTop.ne_top_iff_exists.1 hno.2
      rw [← hd, ← he] at h
      unfold ceTerm at h
      rw [if_neg hz] at h
      exact absurd h WithTop.coe_ne_top
  · rintro ⟨hz, h⟩
    exact ceTerm_top _ _ _ hz h

/-- A contribution lies between zero and the relative gap; it is the relative gap only for a point in the middle. -/
theorem ceTerm_bound (norm dl du : ℝ) (hn : 0 < norm) (hl : 0 ≤ dl) (hu : 0 ≤ du) :
    0 ≤ (dl + du) / norm * bits (dl / (dl + du)) ∧ (dl + du) / norm * bits (dl / (dl + du)) ≤ (dl + du) / norm ∧
      ((dl + du) / norm * bits (dl / (dl + du)) = (dl + du) / norm ↔ dl = du) := by
  have h2 : 0 < Real.log 2 := Real.log_pos (by norm_num)
  rcases (add_nonneg hl hu).eq_or_lt with h0 | h0
  · have : dl = 0 := by linarith
    have : du = 0 := by linarith
    subst dl du
    simp
  · have hc : 0 < (dl + du) / norm := div_pos h0 hn
    have b0 : 0 ≤ bits (dl / (dl + du)) := div_nonneg (Real.binEntropy_nonneg (div_nonneg hl h0.le) ((div_le_one h0).2 (by linarith))) h2.le
    have b1 : bits (dl / (dl + du)) ≤ 1 := (div_le_one h2).2 Real.binEntropy_le_log_two
    have b2 : bits (dl / (dl + du)) = 1 ↔ dl = du := by
      unfold bits
      rw [div_eq_one_iff_eq h2.ne', Real.binEntropy_eq_log_two, div_eq_iff h0.ne']
      constructor <;> intro h <;> linarith
    refine ⟨mul_nonneg hc.le b0, ?_, ?_⟩
    · calc _ ≤ (dl + du) / norm * 1 := mul_le_mul_of_nonneg_left b1 hc.le
        _ = _ := mul_one _
    · rw [mul_eq_left₀ hc.ne', b2]

/-- C155. The crowding entropy is never negative and never exceeds the sum of the relative gaps (the crowding distance of the point, without the division by the number of objectives); the two agree only if the
point is exactly in the middle between its neighbours in every objective with spread. -/
theorem C155_bound (N : ℕ) (x : ℕ → Fin M → ℝ) (i : ℕ) (prv nxt : Fin M → ℕ) (hN : 0 < N)
    (hp : ∀ j, HasSpread (fun a => x a j) N → DirectlyBefore (fun a => x a j) N (prv j) i)
    (hn : ∀ j, HasSpread (fun a => x a j) N → DirectlyBefore (fun a => x a j) N i (nxt j)) :
    ∃ e d : ℝ, calcCe N x i = (e : WithTop ℝ) ∧ pcdOn N x (List.range N) i = (d : WithTop ℝ) ∧ 0 ≤ e ∧ e ≤ d ∧
      (e = d ↔ ∀ j, HasSpread (fun a => x a j) N → x i j - x (prv j) j = x (nxt j) j - x i j) := by
  classical
  let f : Fin M → ℝ := fun j => if prHi N x j - prLo N x j = 0 then 0 else
    ((x i j - x (prv j) j) + (x (nxt j) j - x i j)) / (prHi N x j - prLo N x j) * bits ((x i j - x (prv j) j) / ((x i j - x (prv j) j) + (x (nxt j) j - x i j)))
  let g : Fin M → ℝ := fun j => if prHi N x j - prLo N x j = 0 then 0 else ((x i j - x (prv j) j) + (x (nxt j) j - x i j)) / (prHi N x j - prLo N x j)
  have hf : calcCe N x i = (((((List.finRange M).map f).sum : ℝ)) : WithTop ℝ) := by
    unfold calcCe
    refine ceSum_coe _ f _ fun j _ => ?_
    by_cases hz : prHi N x j - prLo N x j = 0
    · simp only [f, if_pos hz, ceTerm]; rfl
    · have hs := (ceSpread_iff N hN x j).2 hz
      obtain ⟨e1, l1⟩ := ce_gap_before _ N _ i (hp j hs)
      obtain ⟨e2, l2⟩ := ce_gap_after _ N i _ (hn j hs)
      rw [e1, e2, ceTerm_eq _ _ _ hz (by linarith) (by linarith)]
      simp only [f, if_neg hz]
  have hg : pcdOn N x (List.range N) i = (((((List.finRange M).map g).sum : ℝ)) : WithTop ℝ) := by
    unfold pcdOn
    refine ceSum_coe _ g _ fun j _ => ?_
    by_cases hz : prHi N x j - prLo N x j = 0
    · simp only [g, if_pos hz]
      rw [if_pos (by linarith)]; rfl
    · have hs := (ceSpread_iff N hN x j).2 hz
      have hpos : 0 < prHi N x j - prLo N x j := lt_of_le_of_ne (ceRange_nonneg N hN x j) (Ne.symm hz)
      have hB : ∀ a b, StandsBefore (fun a => prNorm N x a j) a b ↔ StandsBefore (fun a => x a j) a b := by
        intro a b
        unfold StandsBefore prNorm
        simp only
        rw [div_lt_div_iff_of_pos_right hpos, div_left_inj' hpos.ne', sub_lt_sub_iff_right, sub_left_inj]
      have hD : ∀ a b, DirectlyBefore (fun a => x a j) N a b → DirectlyBefore (fun a => prNorm N x a j) N a b := by
        rintro a b ⟨h1, h2, h3, h4⟩
        exact ⟨h1, h2, (hB a b).2 h3, fun c hc => by rw [hB, hB]; exact h4 c hc⟩
      obtain ⟨e1, -⟩ := ce_gap_before _ N _ i (hD _ _ (hp j hs))
      obtain ⟨e2, -⟩ := ce_gap_after _ N i _ (hD _ _ (hn j hs))
      rw [if_neg (fun h => hz (by rw [h]; ring)), e1, e2, ← WithTop.coe_add]
      simp only [g, if_neg hz, prNorm]
      congr 1
      ring
  have hfg : ∀ j, 0 ≤ f j ∧ f j ≤ g j ∧ (f j = g j ↔ (HasSpread (fun a => x a j) N → x i j - x (prv j) j = x (nxt j) j - x i j)) := by
    intro j
    by_cases hz : prHi N x j - prLo N x j = 0
    · have : ¬ HasSpread (fun a => x a j) N := fun h => (ceSpread_iff N hN x j).1 h hz
      simp [f, g, hz, this]
    · have hs := (ceSpread_iff N hN x j).2 hz
      have hpos : 0 < prHi N x j - prLo N x j := lt_of_le_of_ne (ceRange_nonneg N hN x j) (Ne.symm hz)
      obtain ⟨-, l1⟩ := ce_gap_before _ N _ i (hp j hs)
      obtain ⟨-, l2⟩ := ce_gap_after _ N i _ (hn j hs)
      have := ceTerm_bound _ (x i j - x (prv j) j) (x (nxt j) j - x i j) hpos (by linarith) (by linarith)
      simp only [f, g, if_neg hz]
      exact ⟨this.1, this.2.1, this.2.2.trans ⟨fun h _ => h, fun h => h hs⟩⟩
  have sf : ((List.finRange M).map f).sum = ∑ j, f j := by rw [← List.ofFn_eq_map, List.sum_ofFn]
  have sg : ((List.finRange M).map g).sum = ∑ j, g j := by rw [← List.ofFn_eq_map, List.sum_ofFn]
  refine ⟨_, _, hf, hg, ?_, ?_, ?_⟩
  · rw [sf]; exact Finset.sum_nonneg fun j _ => (hfg j).1
  · rw [sf, sg]; exact Finset.sum_le_sum fun j _ => (hfg j).2.1
  · rw [sf, sg, Finset.sum_eq_sum_iff_of_le fun j _ => (hfg j).2.1]
    exact ⟨fun h j => (hfg j).2.2.1 (h j (Finset.mem_univ j)), fun h j _ => (hfg j).2.2.2 (h j)⟩

/-- C155. Shifting an objective, or measuring it in another unit, leaves the crowding entropies unchanged. -/
theorem C155_affine (N : ℕ) (x : ℕ → Fin M → ℝ) (s t : Fin M → ℝ) (hs : ∀ j, 0 < s j) (i : ℕ) (hi : i < N) :
    calcCe N (fun a j => s j * x a j + t j) i = calcCe N x i := by
  have hN : 0 < N := by omega
  unfold calcCe
  congr 1
  refine List.map_congr_left fun j _ => ?_
  have elo : prLo N (fun a j => s j * x a j + t j) j = s j * prLo N x j + t j := by
    obtain ⟨⟨a, ha, ea⟩, h1⟩ := ceLo_spec N hN x j
    obtain ⟨⟨b, hb, eb⟩, h2⟩ := ceLo_spec N hN (fun a j => s j * x a j + t j) j
    refine le_antisymm ((h2 a ha).trans (by rw [ea])) ?_
    rw [← eb]
    have := mul_le_mul_of_nonneg_left (h1 b hb) (hs j).le
    linarith
  have ehi : prHi N (fun a j => s j * x a j + t j) j = s j * prHi N x j + t j := by
    obtain ⟨⟨a, ha, ea⟩, h1⟩ := ceHi_spec N hN x j
    obtain ⟨⟨b, hb, eb⟩, h2⟩ := ceHi_spec N hN (fun a j => s j * x a j + t j) j
    refine le_antisymm ?_ (le_trans (by rw [ea]) (h2 a ha))
    rw [← eb]
    have := mul_le_mul_of_nonneg_left (h1 b hb) (hs j).le
    linarith
  have hsort : prSorted (fun a => s j * x a j + t j) (List.range N) = prSorted (fun a => x a j) (List.range N) := by
    unfold prSorted
    congr 1
    funext a b
    rw [add_lt_add_iff_right, mul_lt_mul_iff_right₀ (hs j), add_left_inj, mul_right_inj' (hs j).ne']
  have e1 : prLast (fun a => s j * x a j + t j) (List.range N) i = (prLast (fun a => x a j) (List.range N) i).map (s j * ·) := by
    unfold prLast
    rw [hsort]
    simp only
    split_ifs
    · rfl
    · rw [WithTop.map_coe]; congr 1; ring
  have e2 : prNext (fun a => s j * x a j + t j) (List.range N) i = (prNext (fun a => x a j) (List.range N) i).map (s j * ·) := by
    unfold prNext
    rw [hsort]
    simp only
    split_ifs
    · rw [WithTop.map_coe]; congr 1; ring
    · rfl
  by_cases hz : prHi N x j - prLo N x j = 0
  · have : s j * prHi N x j + t j - (s j * prLo N x j + t j) = 0 := by linear_combination s j * hz
    unfold ceTerm
    rw [elo, ehi, if_pos this, if_pos hz]
  · have hz' : s j * prHi N x j + t j - (s j * prLo N x j + t j) = s j * (prHi N x j - prLo N x j) := by ring
    have hz'' : s j * (prHi N x j - prLo N x j) ≠ 0 := mul_ne_zero (hs j).ne' hz
    rw [elo, ehi, e1, e2, hz']
    have g1 : prLast (fun a => x a j) (List.range N) i = ⊤ ∨ ∃ d : ℝ, 0 ≤ d ∧ prLast (fun a => x a j) (List.range N) i = (d : WithTop ℝ) := by
      rcases C91_gap_before (fun a => x a j) (List.range N) List.nodup_range i (List.mem_range.2 hi) with ⟨-, e⟩ | ⟨c, hc, hci, -, e⟩
      · exact Or.inl e
      · exact Or.inr ⟨_, by rcases hci with h | h; exacts [by linarith [h], by linarith [h.1]], e⟩
    have g2 : prNext (fun a => x a j) (List.range N) i = ⊤ ∨ ∃ d : ℝ, 0 ≤ d ∧ prNext (fun a => x a j) (List.range N) i = (d : WithTop ℝ) := by
      rcases C91_gap_after (fun a => x a j) (List.range N) List.nodup_range i (List.mem_range.2 hi) with ⟨-, e⟩ | ⟨c, hc, hci, -, e⟩
      · exact Or.inl e
      · exact Or.inr ⟨_, by rcases hci with h | h; exacts [by linarith [h], by linarith [h.1]], e⟩
    rcases g1 with g1 | ⟨d, hd, g1⟩
    · rw [g1, WithTop.map_top, ceTerm_top _ _ _ hz (Or.inl rfl), ceTerm_top _ _ _ hz'' (Or.inl rfl)]
    · rcases g2 with g2 | ⟨e, he, g2⟩
      · rw [g2, WithTop.map_top, ceTerm_top _ _ _ hz (Or.inr rfl), ceTerm_top _ _ _ hz'' (Or.inr rfl)]
      · rw [g1, g2, WithTop.map_coe, WithTop.map_coe, ceTerm_eq _ _ _ hz hd he, ceTerm_eq _ _ _ hz'' (mul_nonneg (hs j).le hd) (mul_nonneg (hs j).le he)]
        have hsj := (hs j).ne'
        have : s j * d + s j * e = s j * (d + e) := by ring
        rw [this, mul_div_mul_left _ _ hsj, mul_div_mul_left _ _ hsj]

/-- Three points on a line, the inner one in the middle: it satisfies the hypotheses of the formula, and its crowding entropy is 2 (the full gap in both objectives). -/
def ceExample : ℕ → Fin 2 → ℝ := fun i j => if j = 0 then i else 2 - i

example : calcCe 3 ceExample 1 = ((2 : ℝ) : WithTop ℝ) ∧ calcCe 3 ceExample 0 = ⊤ ∧ calcCe 3 ceExample 2 = ⊤ := by
  have c3 : ∀ c < 3, c = 0 ∨ c = 1 ∨ c = 2 := by omega
  refine ⟨?_, ?_, ?_⟩
  · rw [C155_formula 3 ceExample 1 (fun j => if j = 0 then 0 else 2) (fun j => if j = 0 then 2 else 0) (fun j => if j = 0 then 0 else 2) (fun j => if j = 0 then 2 else 0) (by norm_num)]
    · simp only [Fin.sum_univ_two, ceExample]
      norm_num [bits]
      rw [show (1 : ℝ) / 2 = 2⁻¹ by norm_num, Real.binEntropy_two_inv, div_self (Real.log_pos (by norm_num)).ne']
      norm_num
    · intro j _
      fin_cases j
      · refine ⟨by norm_num, by norm_num, Or.inl (by norm_num [ceExample]), ?_⟩
        intro c hc
        rcases c3 c hc with rfl | rfl | rfl <;> norm_num [ceExample, StandsBefore]
      · refine ⟨by norm_num, by norm_num, Or.inl (by norm_num [ceExample]), ?_⟩
        intro c hc
        rcases c3 c hc with rfl | rfl | rfl <;> norm_num [ceExample, StandsBefore]
    · intro j _
      fin_cases j
      · refine ⟨by norm_num, by norm_num, Or.inl (by norm_num [ceExample]), ?_⟩
        intro c hc
        rcases c3 c hc with rfl | rfl | rfl <;> norm_num [ceExample, StandsBefore]
      · refine ⟨by norm_num, by norm_num, Or.inl (by norm_num [ceExample]), ?_⟩
        intro c hc
        rcases c3 c hc with rfl | rfl | rfl <;> norm_num [ceExample, StandsBefore]
    · intro j
      fin_cases j
      all_goals refine ⟨by norm_num, fun c hc => ?_⟩; rcases c3 c hc with rfl | rfl | rfl <;> norm_num [ceExample]
    · intro j
      fin_cases j
      all_goals refine ⟨by norm_num, fun c hc => ?_⟩; rcases c3 c hc with rfl | rfl | rfl <;> norm_num [ceExample]
  · rw [C155_infinite _ _ _ (by norm_num)]
    refine ⟨0, ⟨0, by norm_num, 1, by norm_num, by norm_num [ceExample]⟩, Or.inl fun c hc => ?_⟩
    rcases c3 c hc with rfl | rfl | rfl <;> norm_num [ceExample, StandsBefore]
  · rw [C155_infinite _ _ _ (by norm_num)]
    refine ⟨0, ⟨0, by norm_num, 1, by norm_num, by norm_num [ceExample]⟩, Or.inr fun c hc => ?_⟩
    rcases c3 c hc with rfl | rfl | rfl <;> norm_num [ceExample, StandsBefore]

/-! ### The fast nearest-neighbour metrics -/

section fast
variable {K : Type*} [Field K] [LinearOrder K] [IsStrictOrderedRing K]

/-- C155. `calc_mnn_fast`: with more points than objectives, a point with the least and a point with the greatest value of every objective are infinitely far from the others, and every other point gets the product of
its squared distances (in normalised objectives) to the `n_obj` nearest other points. With no more points than objectives it raises. -/
theorem C155_fast (N : ℕ) (x : ℕ → Fin M → K) :
    (N ≤ M → mnnFast N x = none) ∧ (M < N → ∃ d, mnnFast N x = some d ∧
      (∀ i < N, d i = ⊤ ∨ ∃ near : List K, near.Perm (((List.range N).erase i).map (fastDist N x i)) ∧ near.Pairwise (· ≤ ·) ∧ d i = ((near.take M).prod : WithTop K)) ∧
      (∀ i < N, (∀ j, (∃ a < N, x a j < x i j) ∧ ∃ a < N, x i j < x a j) → d i ≠ ⊤) ∧
      ∀ j, (∃ i < N, (∀ a < N, x i j ≤ x a j) ∧ d i = ⊤) ∧ ∃ i < N, (∀ a < N, x a j ≤ x i j) ∧ d i = ⊤) := by
  refine ⟨fun h => by unfold mnnFast mnnFastBase; rw [if_pos h], fun h => ?_⟩
  have hN : 0 < N := by omega
  have hne : List.range N ≠ [] := by simp; omega
  refine ⟨_, by unfold mnnFast mnnFastBase; rw [if_neg (by omega)], fun i hi => ?_, fun i hi hin => ?_, fun j => ?_⟩
  · by_cases he : i ∈ prExtremes N (fastNorm N x)
    · left; simp only [if_pos he]
    · right
      have hz : fastDist N x i i = 0 := by simp [fastDist]
      have hnn : ∀ a, 0 ≤ fastDist N x i a := fun a => Finset.sum_nonneg fun j _ => sq_nonneg _
      refine ⟨(((List.range N).erase i).map (fastDist N x i)).insertionSort (· ≤ ·), List.perm_insertionSort _ _, insertionSort_sorted _, ?_⟩
      have hrow : ((List.range N).map (fastDist N x i)).insertionSort (· ≤ ·) = 0 :: (((List.range N).erase i).map (fastDist N x i)).insertionSort (· ≤ ·) := by
        refine List.Perm.eq_of_pairwise (le := (· ≤ ·)) (fun a b _ _ h1 h2 => le_antisymm h1 h2) (insertionSort_sorted _) ?_ ?_
        · rw [List.pairwise_cons]
          refine ⟨fun a ha => ?_, insertionSort_sorted _⟩
          obtain ⟨b, -, rfl⟩ := List.mem_map.1 ((List.perm_insertionSort _ _).mem_iff.1 ha)
          exact hnn b
        · refine (List.perm_insertionSort _ _).trans ?_
          have h1 : ((List.range N).map (fastDist N x i)).Perm ((i :: (List.range N).erase i).map (fastDist N x i)) := (List.perm_cons_erase (List.mem_range.2 hi)).map _
          refine h1.trans ?_
          rw [List.map_cons, hz]
          exact List.Perm.cons _ (List.perm_insertionSort _ _).symm
      simp only [if_neg he]
      rw [hrow]
      simp only [List.drop_succ_cons, List.drop_zero]
  · have he : i ∉ prExtremes N (fastNorm N x) := by
      intro he
      unfold prExtremes at he
      have hmono : ∀ j a b, a < N → b < N → x a j < x b j → fastNorm N x a j < fastNorm N x b j := by
        intro j a b ha hb hab
        have hpos : 0 < prHi N x j - prLo N x j := by linarith [(ceLo_spec N hN x j).2 a ha, (ceHi_spec N hN x j).2 b hb]
        unfold fastNorm
        simp only [if_neg hpos.ne']
        rw [div_lt_div_iff_of_pos_right hpos]
        linarith
      rcases List.mem_append.1 he with h' | h'
      · obtain ⟨j, -, hm⟩ := List.mem_filterMap.1 h'
        obtain ⟨a, ha, hax⟩ := (hin j).1
        have := ((npArgmin_spec _ _).2 i hm).2 a (List.mem_range.2 ha)
        exact absurd this (not_le.2 (hmono j a i ha hi hax))
      · obtain ⟨j, -, hm⟩ := List.mem_filterMap.1 h'
        obtain ⟨a, ha, hax⟩ := (hin j).2
        obtain ⟨i', hm', -, b2⟩ := ctaArgmax_spec (fun i => fastNorm N x i j) (List.range N) hne
        have : i' = i := by rw [hm'] at hm; exact Option.some.inj hm
        subst this
        exact absurd (b2 a (List.mem_range.2 ha)) (not_le.2 (hmono j i' a hi ha hax))
    simp only [if_neg he]
    exact WithTop.coe_ne_top
  · have hmono : ∀ a b, a < N → b < N → fastNorm N x a j ≤ fastNorm N x b j → x a j ≤ x b j := by
      intro a b ha hb hab
      by_contra hlt
      push Not at hlt
      have hpos : 0 < prHi N x j - prLo N x j := by linarith [(ceLo_spec N hN x j).2 b hb, (ceHi_spec N hN x j).2 a ha]
      unfold fastNorm at hab
      simp only [if_neg hpos.ne'] at hab
      rw [div_le_div_iff_of_pos_right hpos] at hab
      linarith
    constructor
    · obtain ⟨a1, a2⟩ := npArgmin_spec (fun i => fastNorm N x i j) (List.range N)
      cases hm : npArgmin (fun i => fastNorm N x i j) (List.range N) with
      | none => exact absurd (a1.1 hm) hne
      | some i =>
        obtain ⟨b1, b2⟩ := a2 i hm
        refine ⟨i, List.mem_range.1 b1, fun k hk => hmono i k (List.mem_range.1 b1) hk (b2 k (List.mem_range.2 hk)), if_pos ?_⟩
        unfold prExtremes
        exact List.mem_append_left _ (List.mem_filterMap.2 ⟨j, List.mem_finRange j, hm⟩)
    · obtain ⟨i, hm, b1, b2⟩ := ctaArgmax_spec (fun i => fastNorm N x i j) (List.range N) hne
      refine ⟨i, List.mem_range.1 b1, fun k hk => hmono k i hk (List.mem_range.1 b1) (b2 k (List.mem_range.2 hk)), if_pos ?_⟩
      unfold prExtremes
      exact List.mem_append_right _ (List.mem_filterMap.2 ⟨j, List.mem_finRange j, hm⟩)

/-- C155. Two points that differ only in objectives without spread are at distance zero, and an objective with spread is measured relative to its range: the distances of `calc_mnn_fast`. -/
theorem C155_fast_distance (N : ℕ) (hN : 0 < N) (x : ℕ → Fin M → K) (lo hi : Fin M → K) (hlo : ∀ j, (∃ a < N, x a j = lo j) ∧ ∀ a < N, lo j ≤ x a j) (hhi : ∀ j, (∃ a < N, x a j = hi j) ∧ ∀ a < N, x a j ≤ hi j)
    (i a : ℕ) (hi' : i < N) (ha : a < N) : fastDist N x i a = ∑ j, if lo j = hi j then 0 else ((x i j - x a j) / (hi j - lo j)) ^ 2 := by
  unfold fastDist
  refine Finset.sum_congr rfl fun j _ => ?_
  have elo : prLo N x j = lo j := by
    obtain ⟨⟨b, hb, eb⟩, h1⟩ := ceLo_spec N hN x j
    obtain ⟨⟨c, hc, ec⟩, h2⟩ := hlo j
    exact le_antisymm (ec ▸ h1 c hc) (eb ▸ h2 b hb)
  have ehi : prHi N x j = hi j := by
    obtain ⟨⟨b, hb, eb⟩, h1⟩ := ceHi_spec N hN x j
    obtain ⟨⟨c, hc, ec⟩, h2⟩ := hhi j
    exact le_antisymm (eb ▸ h2 b hb) (ec ▸ h1 c hc)
  unfold fastNorm
  simp only [elo, ehi]
  by_cases h : lo j = hi j
  · have e1 : x i j = lo j := le_antisymm (h ▸ (hhi j).2 i hi') ((hlo j).2 i hi')
    have e2 : x a j = lo j := le_antisymm (h ▸ (hhi j).2 a ha) ((hlo j).2 a ha)
    rw [if_pos h, e1, e2]; ring
  · rw [if_neg h, if_neg (fun h' => h (sub_eq_zero.1 h').symm)]
    ring

theorem ceFold_congr (c c' : ℕ → ℕ → Prop) [DecidableRel c] [DecidableRel c'] (N : ℕ) (L : List ℕ) (h : ∀ a < N, ∀ b < N, c a b ↔ c' a b) (b : ℕ) (hb : b < N) (hL : ∀ a ∈ L, a < N) :
    L.foldl (fun best y => if c y best then y else best) b = L.foldl (fun best y => if c' y best then y else best) b := by
  induction L generalizing b with
  | nil => rfl
  | cons y L ih =>
    have hy := hL y (by simp)
    have hL' : ∀ a ∈ L, a < N := fun a ha => hL a (by simp [ha])
    rw [List.foldl_cons, List.foldl_cons]
    by_cases hc : c y b
    · rw [if_pos hc, if_pos ((h y hy b hb).1 hc)]; exact ih y hy hL'
    · rw [if_neg hc, if_neg fun h' => hc ((h y hy b hb).2 h')]; exact ih b hb hL'

/-- Normalising does not change which points are extreme. -/
theorem extremes_norm (N : ℕ) (hN : 0 < N) (x : ℕ → Fin M → K) : prExtremes N (fastNorm N x) = prExtremes N x := by
  have hlt : ∀ j a b, a < N → b < N → (fastNorm N x a j < fastNorm N x b j ↔ x a j < x b j) := by
    intro j a b ha hb
    have hn : 0 ≤ prHi N x j - prLo N x j := by linarith [(ceLo_spec N hN x j).2 a ha, (ceHi_spec N hN x j).2 a ha]
    unfold fastNorm
    simp only
    rcases hn.eq_or_lt with h | h
    · rw [if_pos h.symm]; simp
    · rw [if_neg h.ne', div_lt_div_iff_of_pos_right h, sub_lt_sub_iff_right]
  have hR : ∀ (N' : ℕ), N' = N → ∃ L, List.range N' = 0 :: L ∧ ∀ a ∈ L, a < N := by
    rintro N' rfl
    obtain ⟨k, rfl⟩ : ∃ k, N' = k + 1 := ⟨N' - 1, by omega⟩
    refine ⟨(List.range k).map Nat.succ, List.range_succ_eq_map, fun a ha => ?_⟩
    obtain ⟨b, hb, rfl⟩ := List.mem_map.1 ha
    have := List.mem_range.1 hb
    omega
  obtain ⟨L, hL, hL'⟩ := hR N rfl
  unfold prExtremes
  have e1 : ∀ j, npArgmin (fun i => fastNorm N x i j) (List.range N) = npArgmin (fun i => x i j) (List.range N) := by
    intro j
    rw [hL]
    unfold npArgmin
    exact congrArg some (ceFold_congr (fun y b => fastNorm N x y j < fastNorm N x b j) (fun y b => x y j < x b j) N L (fun a ha b hb => hlt j a b ha hb) 0 hN hL')
  have e2 : ∀ j, ctaArgmax (fun i => fastNorm N x i j) (List.range N) = ctaArgmax (fun i => x i j) (List.range N) := by
    intro j
    rw [hL]
    unfold ctaArgmax
    exact congrArg some (ceFold_congr (fun y b => fastNorm N x b j < fastNorm N x y j) (fun y b => x b j < x y j) N L (fun a ha b hb => hlt j b a hb ha) 0 hN hL')
  simp only [e1, e2]

/-- C155. With more points than objectives and without constant objectives, `calc_mnn_fast` gives what `calc_mnn` gives when nothing is to be removed. -/
theorem C155_fast_agrees (N : ℕ) (x : ℕ → Fin M → K) (hN : M < N) (hx : ∀ j, ∃ a < N, ∃ b < N, x a j ≠ x b j) :
    ∃ d d', mnnFast N x = some d ∧ calcMnn N x 0 false = some d' ∧ ∀ i < N, d i = d' i := by
  have hN0 : 0 < N := by omega
  have hne : ∀ j, prLo N x j ≠ prHi N x j := by
    intro j h
    obtain ⟨a, ha, b, hb, hab⟩ := hx j
    have h1 := (ceLo_spec N hN0 x j).2
    have h2 := (ceHi_spec N hN0 x j).2
    rw [← h] at h2
    exact hab (le_antisymm ((h2 a ha).trans (h1 b hb)) ((h2 b hb).trans (h1 a ha)))
  have hnorm : fastNorm N x = prNorm N x := by
    funext i j
    unfold fastNorm prNorm
    simp only [if_neg (show ¬ prHi N x j - prLo N x j = 0 from fun h => hne j (sub_eq_zero.1 h).symm)]
  have hdist : fastDist N x = mnnDist N x := by
    funext i a
    unfold fastDist mnnDist
    rw [hnorm]
  refine ⟨_, _, by unfold mnnFast mnnFastBase; rw [if_neg (by omega)], by unfold calcMnn; rw [if_neg (by omega), if_neg (by push Not; exact hne)], fun i hi => ?_⟩
  have hc : prCount N M 0 = 0 := by unfold prCount; split_ifs <;> omega
  rw [extremes_norm N hN0, hdist, hc]
  rw [show (prRun (mnnOn (mnnDist N x) (if false = true then 2 else M)) (prExtremes N x) N 0).2 i = prAssign (mnnOn (mnnDist N x) M) (prExtremes N x) (List.range N) (fun _ => ⊤) i from rfl]
  unfold prAssign mnnOn
  simp only [List.mem_range, hi, if_true, Bool.false_eq_true, if_false, List.length_insertionSort, List.length_map, List.length_range, hN]

/-- Four points, two objectives: the hypotheses of the agreement hold and an inner point has a finite value. -/
example : (∀ j : Fin 2, ∃ a < 4, ∃ b < 4, (fun i j => if j = (0 : Fin 2) then (i : ℚ) else 3 - i) a j ≠ (fun i j => if j = (0 : Fin 2) then (i : ℚ) else 3 - i) b j) ∧
    (mnnFast 4 (fun i j => if j = (0 : Fin 2) then (i : ℚ) else 3 - i)).map (fun d => d 1) = some ((4 / 81 : ℚ) : WithTop ℚ) := by
  refine ⟨fun j => ⟨0, by norm_num, 1, by norm_num, ?_⟩, ?_⟩
  · fin_cases j <;> norm_num
  · decide +kernel

/-- C155, refuted: `calc_2nn_fast` does not use two neighbours, it is `calc_mnn_fast`: with three objectives, it is a product of three distances. -/
theorem C155_2nn_refuted : (∀ (N : ℕ) (x : ℕ → Fin M → K), twonnFast N x = mnnFast N x) ∧
    ∃ x : ℕ → Fin 3 → ℚ, (twonnFast 5 x).map (fun d => d 4) = some ((4 / 27 : ℚ) : WithTop ℚ) ∧ (calcMnn 5 x 0 true).map (fun d => d 4) = some ((2 / 9 : ℚ) : WithTop ℚ) := by
  refine ⟨fun N x => rfl, fun i j => if i = 4 then 1 / 3 else if i = j.val then 1 else 0, ?_⟩
  decide +kernel

end fast

end Props
