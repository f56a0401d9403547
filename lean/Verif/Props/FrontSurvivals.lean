import Verif.Lemmas.FrontSurvivals
import Verif.Props.NonDominatedSorting
import Verif.Props.Dominator
import Verif.Props.Hypervolume
import Verif.Props.Survival
import Mathlib.Data.Fin.VecNotation
import Mathlib.Data.List.Induction
import Mathlib.Tactic.Linarith
import Mathlib.Tactic.Positivity

/-! # C75, C76, C78: the environmental selections of SMS-EMOA, SPEA2 and AGE-MOEA -/

set_option linter.unusedSimpArgs false
set_option linter.unusedVariables false
set_option linter.unusedSectionVars false

namespace Props
open Model Spec Lemmas

variable {N m : ℕ}

/-! ### Specification -/

/-- `g` arises from `l` by removing one element at a time such that what is left always has the largest value that removing a single element can leave. -/
inductive GreedyRemoval {ι K : Type*} [LE K] (value : List ι → K) : List ι → List ι → Prop
  | done (l) : GreedyRemoval value l l
  | step (l g : List ι) (k : ℕ) (hk : k < l.length) (hbest : ∀ j < l.length, value (l.eraseIdx j) ≤ value (l.eraseIdx k)) (h : GreedyRemoval value (l.eraseIdx k) g) :
      GreedyRemoval value l g

/-- The contract of `hv_contributions`: position `i` has the loss of hypervolume `vol ref` when the point at `i` is deleted. -/
def ContributionContract {K : Type*} [Sub K] (hvc : (Fin m → K) → List (Fin m → K) → List K) (vol : (Fin m → K) → List (Fin m → K) → K) : Prop :=
  ∀ r L, (hvc r L).length = L.length ∧ ∀ i < L.length, (hvc r L)[i]? = some (vol r L - vol r (L.eraseIdx i))

section Sms
variable {K : Type*} [Field K] [LinearOrder K] [IsStrictOrderedRing K]

theorem smsTrim_ok (hvc : (Fin m → K) → List (Fin m → K) → List K) (vol : (Fin m → K) → List (Fin m → K) → K) (hc : ContributionContract hvc vol) (r : Fin m → K)
    (pt : Fin N → Fin m → K) (c : ℕ) (f : List (Fin N)) (h : c ≤ f.length) :
    ∃ g, smsTrim (hvc r) pt c f = some g ∧ g.Sublist f ∧ g.length = f.length - c ∧ GreedyRemoval (fun l => vol r (l.map pt)) f g := by
  induction c generalizing f with
  | zero => exact ⟨f, rfl, List.Sublist.refl _, by simp, GreedyRemoval.done f⟩
  | succ c ih =>
    unfold smsTrim
    obtain ⟨a1, a2⟩ := npArgmin_spec (fun i : ℕ => (hvc r (f.map pt)).getD i 0) (List.range f.length)
    cases hk : npArgmin (fun i : ℕ => (hvc r (f.map pt)).getD i 0) (List.range f.length) with
    | none => have := a1.1 hk; simp at this; subst this; simp at h
    | some k =>
      obtain ⟨k1, k2⟩ := a2 k hk
      rw [List.mem_range] at k1
      obtain ⟨g, g1, g2, g3, g4⟩ := ih (f.eraseIdx k) (by rw [List.length_eraseIdx, if_pos k1]; omega)
      refine ⟨g, g1, g2.trans (List.eraseIdx_sublist _ _), ?_, GreedyRemoval.step f g k k1 ?_ g4⟩
      · rw [g3, List.length_eraseIdx, if_pos k1]; omega
      · intro j hj
        have := k2 j (List.mem_range.2 hj)
        obtain ⟨-, hv⟩ := hc r (f.map pt)
        simp only [List.getD_eq_getElem?_getD] at this
        rw [hv j (by simpa using hj), hv k (by simpa using k1)] at this
        simp only [Option.getD_some, ← List.eraseIdx_map] at this ⊢
        linarith

/-- C75. The survivors of SMS-EMOA: exactly as many as asked for, all different, rank = number of the front; whole fronts in order, and the splitting front is reduced by removing one
individual at a time, each time the one whose removal leaves the largest hypervolume (with respect to the normalised objectives and the reference point `1 + eps`). -/
theorem C75_survival (paretoRank : (Fin N → Fin m → K) → Fin N → ℕ) (hpr : ∀ F, IsParetoRank (fun i j => Dominates (F i) (F j)) (paretoRank F))
    (hvc : (Fin m → K) → List (Fin m → K) → List K) (vol : (Fin m → K) → List (Fin m → K) → K) (hc : ContributionContract hvc vol) (eps : K) (F : Fin N → Fin m → K)
    (ideal nadir : Fin m → K) (n : ℕ) (hn : n ≤ N) (hN : 0 < N) :
    ∃ out all p last rest kept, smsSurvival paretoRank hvc eps F (some (ideal, nadir)) n = some out ∧ CanonicalFronts (fun i j => Dominates (F i) (F j)) all ∧
      all = p ++ last :: rest ∧ out.map Prod.fst = p.flatten ++ kept ∧ kept.Sublist last ∧
      GreedyRemoval (fun l => vol (fun _ => 1 + eps) (l.map fun i => smsNormalize ideal nadir (F i))) last kept ∧
      out.length = n ∧ (out.map Prod.fst).Nodup ∧
      (∀ i k, (i, k) ∈ out → ∃ f, all[k]? = some f ∧ i ∈ f) ∧
      (∀ i j, i ∈ out.map Prod.fst → Dominates (F j) (F i) → j ∈ out.map Prod.fst) := by
  obtain ⟨all, fronts, h1, h2, h3, -, h5⟩ := C10_native paretoRank hpr none 0 F none (some n)
  have h5 := h5 n rfl
  rw [show leading none all = all from rfl] at h5
  obtain ⟨p, last, rest, e1, e2, e3, e4, -⟩ := prefix_split h2 hn hN h5
  unfold smsSurvival
  rw [h3]
  simp only [Option.orElse_some, Option.bind_some]
  rw [e1, frontFill_split _ (fun f => rfl) n p last e3 e4]
  obtain ⟨kept, k1, k2, k3, k4⟩ := smsTrim_ok hvc vol hc (fun _ => 1 + eps) (fun i => smsNormalize ideal nadir (F i)) (p.flatten.length + last.length - n) last (by omega)
  have hlastnd : last.Nodup := by
    have := h2.nodup
    rw [e2, List.flatten_append, List.flatten_cons] at this
    exact (List.nodup_append.1 (List.nodup_append.1 this).2.1).1
  obtain ⟨f1, f2, f3⟩ := split_facts h2 e2 (k2.nodup hlastnd) (fun i hi => k2.subset hi)
  have hfst : (rankedFrom 0 p ++ kept.map fun i => (i, p.length)).map Prod.fst = p.flatten ++ kept := by
    rw [List.map_append, rankedFrom_fst, List.map_map]
    congr 1
    exact List.map_id _
  refine ⟨_, all, p, last, rest, kept, by rw [k1]; rfl, h2, e2, hfst, k2, k4, ?_, ?_, ?_, ?_⟩
  · rw [← List.length_map (f := Prod.fst), hfst, List.length_append, k3]; omega
  · rw [hfst]; exact f1
  · intro i k hk
    rcases List.mem_append.1 hk with h | h
    · obtain ⟨f, -, g2, g3⟩ := rankedFrom_mem p 0 i k h
      refine ⟨f, ?_, g3⟩
      have hkl : k < p.length := by
        by_contra hcc
        rw [Nat.sub_zero, List.getElem?_eq_none (by omega)] at g2
        exact absurd g2 (by simp)
      rw [e2, List.getElem?_append_left hkl]
      exact g2
    · obtain ⟨i', i1, i2⟩ := List.mem_map.1 h
      cases i2
      exact ⟨last, by rw [e2, List.getElem?_append_right (le_refl _)]; simp, k2.subset i1⟩
  · intro i j hi hd
    rw [hfst] at hi ⊢
    exact f3 i hi j hd

/-- C75. The bounds used when none are given: the column minima and maxima of the population. -/
theorem C75_bounds (L : List (Fin m → K)) (hL : L ≠ []) :
    ∃ b, colMinMax L = some b ∧ (∀ j, (∀ f ∈ L, b.1 j ≤ f j) ∧ ∃ f ∈ L, b.1 j = f j) ∧ (∀ j, (∀ f ∈ L, f j ≤ b.2 j) ∧ ∃ f ∈ L, b.2 j = f j) := by
  cases L with
  | nil => exact absurd rfl hL
  | cons f fs =>
    refine ⟨_, rfl, ?_, ?_⟩
    · intro j
      have : ∀ (l : List (Fin m → K)) (a : Fin m → K), (∀ g ∈ a :: l, (l.foldl (fun a b => fun j => min (a j) (b j)) a) j ≤ g j) ∧
          ∃ g ∈ a :: l, (l.foldl (fun a b => fun j => min (a j) (b j)) a) j = g j := by
        intro l
        induction l with
        | nil => intro a; simp
        | cons b l ih =>
          intro a
          obtain ⟨h1, g, h2, h3⟩ := ih (fun j => min (a j) (b j))
          rw [List.foldl_cons]
          have h0 := h1 _ List.mem_cons_self
          refine ⟨?_, ?_⟩
          · intro g hg
            rcases List.mem_cons.1 hg with rfl | hg
            · exact h0.trans (min_le_left _ _)
            · rcases List.mem_cons.1 hg with rfl | hg
              · exact h0.trans (min_le_right _ _)
              · exact h1 g (List.mem_cons_of_mem _ hg)
          · rcases List.mem_cons.1 h2 with rfl | h2
            · rcases min_choice (a j) (b j) with h | h
              · exact ⟨a, List.mem_cons_self, h3.trans h⟩
              · exact ⟨b, by simp, h3.trans h⟩
            · exact ⟨g, List.mem_cons_of_mem _ (List.mem_cons_of_mem _ h2), h3⟩
      exact this fs f
    · intro j
      have : ∀ (l : List (Fin m → K)) (a : Fin m → K), (∀ g ∈ a :: l, g j ≤ (l.foldl (fun a b => fun j => max (a j) (b j)) a) j) ∧
          ∃ g ∈ a :: l, (l.foldl (fun a b => fun j => max (a j) (b j)) a) j = g j := by
        intro l
        induction l with
        | nil => intro a; simp
        | cons b l ih =>
          intro a
          obtain ⟨h1, g, h2, h3⟩ := ih (fun j => max (a j) (b j))
          rw [List.foldl_cons]
          have h0 := h1 _ List.mem_cons_self
          refine ⟨?_, ?_⟩
          · intro g hg
            rcases List.mem_cons.1 hg with rfl | hg
            · exact (le_max_left _ _).trans h0
            · rcases List.mem_cons.1 hg with rfl | hg
              · exact (le_max_right _ _).trans h0
              · exact h1 g (List.mem_cons_of_mem _ hg)
          · rcases List.mem_cons.1 h2 with rfl | h2
            · rcases max_choice (a j) (b j) with h | h
              · exact ⟨a, List.mem_cons_self, h3.trans h⟩
              · exact ⟨b, by simp, h3.trans h⟩
            · exact ⟨g, List.mem_cons_of_mem _ (List.mem_cons_of_mem _ h2), h3⟩
      exact this fs f

/-- C75. Without bounds, the survival uses those of the population. -/
theorem C75_default_bounds (paretoRank : (Fin N → Fin m → K) → Fin N → ℕ) (hvc : (Fin m → K) → List (Fin m → K) → List K) (eps : K) (F : Fin N → Fin m → K) (n : ℕ) :
    (N = 0 → smsSurvival paretoRank hvc eps F none n = none) ∧
    ∀ b, colMinMax ((List.finRange N).map F) = some b → smsSurvival paretoRank hvc eps F none n = smsSurvival paretoRank hvc eps F (some b) n := by
  refine ⟨?_, ?_⟩
  · rintro rfl
    simp [smsSurvival, colMinMax]
  · intro b hb
    unfold smsSurvival
    rw [Option.orElse_none, hb, Option.orElse_some]

/-- Normalising keeps the order of objective values. -/
theorem smsNormalize_mono {ideal nadir : Fin m → K} (hb : ∀ j, ideal j ≤ nadir j) {f g : Fin m → K} (h : ∀ j, f j ≤ g j) (j : Fin m) :
    smsNormalize ideal nadir f j ≤ smsNormalize ideal nadir g j := by
  unfold smsNormalize
  by_cases he : ideal j = nadir j
  · rw [if_pos he, if_pos he]
    exact sub_le_sub_right (h j) _
  · rw [if_neg he, if_neg he]
    have : 0 < nadir j - ideal j := sub_pos.2 (lt_of_le_of_ne (hb j) he)
    exact div_le_div_of_nonneg_right (sub_le_sub_right (h j) _) this.le

end Sms

/-! ### SMS-EMOA with the true hypervolume -/

open MeasureTheory

/-- The hypervolume: the Lebesgue measure of what the points dominate within the reference point. -/
noncomputable def hvol (r : Fin m → ℝ) (L : List (Fin m → ℝ)) : ℝ := (volume (region L r)).toReal

theorem hvol_mono {A B : List (Fin m → ℝ)} (r : Fin m → ℝ) (h : Covers A B) : hvol r B ≤ hvol r A :=
  ENNReal.toReal_mono (volume_region_lt_top A r).ne (measure_mono (region_mono r h))

theorem greedy_length {ι K : Type*} [LE K] {value : List ι → K} {l g : List ι} (h : GreedyRemoval value l g) : g.length ≤ l.length := by
  induction h with
  | done => exact le_refl _
  | step l g k hk _ _ ih => exact ih.trans (by rw [List.length_eraseIdx, if_pos hk]; omega)

/-- Removing one element greedily leaves the best that can be left. -/
theorem greedy_one {ι K : Type*} [LE K] {value : List ι → K} {l g : List ι} (h : GreedyRemoval value l g) (hl : g.length + 1 = l.length) (j : ℕ) (hj : j < l.length) :
    value (l.eraseIdx j) ≤ value g := by
  cases h with
  | done => omega
  | step _ _ k hk hb h =>
    cases h with
    | done => exact hb j hj
    | step _ _ k' hk' _ h' =>
      have h1 := greedy_length h'
      rw [List.length_eraseIdx, if_pos hk'] at h1
      have h2 : (l.eraseIdx k).length = l.length - 1 := by rw [List.length_eraseIdx, if_pos hk]
      omega

/-- C75, steady state: when one individual has to go, the hypervolume of the survivors is at least that of the population without any single individual: in particular, one new
offspring never decreases the hypervolume of the current population (measured with the bounds of this generation). -/
theorem C75_steady_state (paretoRank : (Fin (N + 1) → Fin m → ℝ) → Fin (N + 1) → ℕ) (hpr : ∀ F, IsParetoRank (fun i j => Dominates (F i) (F j)) (paretoRank F))
    (hvc : (Fin m → ℝ) → List (Fin m → ℝ) → List ℝ) (hc : ContributionContract hvc hvol) (eps : ℝ) (F : Fin (N + 1) → Fin m → ℝ)
    (ideal nadir : Fin m → ℝ) (hb : ∀ j, ideal j ≤ nadir j) (o : Fin (N + 1)) :
    ∃ out, smsSurvival paretoRank hvc eps F (some (ideal, nadir)) N = some out ∧ out.length = N ∧
      hvol (fun _ => 1 + eps) (((List.finRange (N + 1)).filter fun i => decide (i ≠ o)).map fun i => smsNormalize ideal nadir (F i)) ≤
        hvol (fun _ => 1 + eps) (out.map fun q => smsNormalize ideal nadir (F q.1)) := by
  obtain ⟨out, all, p, last, rest, kept, h1, h2, h3, h4, h5, h6, h7, h8, -, h9⟩ :=
    C75_survival paretoRank hpr hvc hvol hc eps F ideal nadir N (by omega) (by omega)
  refine ⟨out, h1, h7, ?_⟩
  set pt : Fin (N + 1) → Fin m → ℝ := fun i => smsNormalize ideal nadir (F i) with hpt
  have hmap : (out.map fun q => smsNormalize ideal nadir (F q.1)) = (out.map Prod.fst).map pt := by rw [List.map_map]; rfl
  rw [hmap]
  set S := out.map Prod.fst with hS
  have hSl : S.length = N := by rw [hS, List.length_map, h7]
  obtain ⟨x, hx⟩ : ∃ x, x ∉ S := by
    by_contra hcc
    push Not at hcc
    have := (List.subperm_of_subset (List.nodup_finRange (N + 1)) (fun i _ => hcc i)).length_le
    simp at this; omega
  have hother : ∀ i, i ≠ x → i ∈ S := by
    intro i hi
    by_contra hcc
    have hnd : (i :: x :: S).Nodup := by
      rw [List.nodup_cons, List.nodup_cons]
      exact ⟨by simp [hi, hcc], hx, h8⟩
    have := (List.subperm_of_subset hnd (fun i _ => List.mem_finRange i)).length_le
    simp at this; omega
  by_cases hdom : ∃ y, Dominates (F y) (F x)
  · obtain ⟨y, hy⟩ := hdom
    apply hvol_mono
    intro b hbm
    obtain ⟨i, -, rfl⟩ := List.mem_map.1 hbm
    by_cases hix : i = x
    · subst hix
      refine ⟨pt y, List.mem_map_of_mem (hother y ?_), fun j => smsNormalize_mono hb hy.1 j⟩
      rintro rfl
      obtain ⟨-, j, hj⟩ := hy
      exact lt_irrefl _ hj
    · exact ⟨pt i, List.mem_map_of_mem (hother i hix), fun j => le_refl _⟩
  · push Not at hdom
    have h0 : 0 < all.length := by rw [h3]; simp
    have hx0 : x ∈ all[0] := (h2.level 0 h0 x).2 ⟨by simp, fun j hj => absurd hj (hdom j)⟩
    have hp : p = [] := by
      cases p with
      | nil => rfl
      | cons f p =>
        exfalso
        apply hx
        rw [h4, List.flatten_cons]
        have : all[0] = f := by subst h3; rfl
        rw [this] at hx0
        simp [hx0]
    subst hp
    simp only [List.flatten_nil, List.nil_append] at h3 h4
    have hl0 : all[0] = last := by subst h3; rfl
    rw [hl0] at hx0
    have hlnd : last.Nodup := by
      have := h2.nodup
      rw [h3, List.flatten_cons] at this
      exact (List.nodup_append.1 this).1
    have hall : ∀ i, i ∈ last := by
      intro i
      by_cases hix : i = x
      · exact hix ▸ hx0
      · have := hother i hix
        rw [h4] at this
        exact h5.subset this
    have hlen : last.length = N + 1 := by
      have : last.Perm (List.finRange (N + 1)) := by
        rw [List.perm_ext_iff_of_nodup hlnd (List.nodup_finRange _)]
        intro i; simp [hall i]
      simpa using this.length_eq
    obtain ⟨j, hj, hjo⟩ := List.getElem_of_mem (hall o)
    have hg := greedy_one h6 (by rw [← h4, hSl, hlen]) j hj
    rw [h4]
    refine le_trans (hvol_mono _ ?_) hg
    intro b hbm
    obtain ⟨i, hi, rfl⟩ := List.mem_map.1 hbm
    rw [List.mem_filter, decide_eq_true_iff] at hi
    refine ⟨pt i, List.mem_map_of_mem ?_, fun j => le_refl _⟩
    rw [List.mem_eraseIdx_iff_getElem]
    obtain ⟨k, hk, hki⟩ := List.getElem_of_mem (hall i)
    refine ⟨k, hk, ?_, hki⟩
    rintro rfl
    exact hi.2 (hki.symm.trans hjo)

/-- The contract can be met: contributions computed from the hypervolume itself. -/
theorem contract_exists {K : Type*} [Sub K] (vol : (Fin m → K) → List (Fin m → K) → K) :
    ContributionContract (fun r L => (List.range L.length).map fun i => vol r L - vol r (L.eraseIdx i)) vol := by
  intro r L
  refine ⟨by simp, fun i hi => ?_⟩
  rw [List.getElem?_map, List.getElem?_range hi]
  rfl

/-! ### SPEA2 -/

section Spea
variable {K : Type*} [Field K] [LinearOrder K] [IsStrictOrderedRing K]

/-- The domination matrix of `F`. -/
def domM (F : Fin N → Fin m → K) : Fin N → Fin N → ℤ := dominationMatrix F F 0

theorem domM_one (F : Fin N → Fin m → K) (i j : Fin N) : domM F i j = 1 ↔ Dominates (F i) (F j) := by
  unfold domM
  rw [C02_matrix_eq_relation, (C01_get_relation _ _ _ _).1]
  rfl

theorem domM_neg (F : Fin N → Fin m → K) (i j : Fin N) : domM F i j = -1 ↔ Dominates (F j) (F i) := by
  unfold domM
  rw [C02_matrix_eq_relation, (C01_get_relation _ _ _ _).2.1]
  rfl

theorem domM_nonneg (F : Fin N → Fin m → K) (i j : Fin N) : 0 ≤ domM F i j ↔ ¬ Dominates (F j) (F i) := by
  rw [← domM_neg]
  have := (C02_matrix_entry F F 0 i j).2.2
  change domM F i j ∈ _ at this
  rcases this with h | h | h <;> rw [h] <;> decide

theorem sum_map_finRange {M : Type*} [AddCommMonoid M] (f : Fin N → M) : ((List.finRange N).map f).sum = ∑ j, f j := by
  rw [← List.ofFn_eq_map, List.sum_ofFn]

/-- C76. The raw fitness is the sum, over the individuals that dominate `i`, of how many individuals they dominate. -/
theorem C76_raw (F : Fin N → Fin m → K) (i : Fin N) :
    speaRaw (domM F) i = ∑ j ∈ Finset.univ.filter (fun j => Dominates (F j) (F i)), (Finset.univ.filter fun k => Dominates (F j) (F k)).card := by
  unfold speaRaw
  rw [sum_map_finRange, Finset.sum_filter]
  refine Finset.sum_congr rfl fun j _ => ?_
  by_cases h : Dominates (F j) (F i)
  · rw [if_pos ((domM_neg F i j).2 h), if_pos h]
    unfold speaStrength
    have : ((List.finRange N).filter fun k => decide (domM F j k = 1)).length = ((Finset.univ.filter fun k => Dominates (F j) (F k)).toList).length := by
      apply List.Perm.length_eq
      rw [List.perm_ext_iff_of_nodup ((List.nodup_finRange N).filter _) (Finset.nodup_toList _)]
      intro k
      simp [domM_one]
    rw [this, Finset.length_toList]
  · rw [if_neg (fun h' => h ((domM_neg F i j).1 h')), if_neg h]

theorem speaDensity_bounds (dist : Fin N → Fin N → K) (hd : ∀ i j, 0 ≤ dist i j) (i : Fin N) : 0 ≤ speaDensity dist i ∧ speaDensity dist i ≤ 1 / 2 := by
  unfold speaDensity
  cases hs : (speaSorted dist (List.finRange N) i)[speaK N]? with
  | none => simp only []; constructor <;> norm_num
  | some d =>
    cases d with
    | top => exact ⟨le_refl _, by norm_num⟩
    | coe d =>
      change 0 ≤ 1 / (d + 2) ∧ 1 / (d + 2) ≤ 1 / 2
      have hmem := List.mem_of_getElem? hs
      unfold speaSorted at hmem
      rw [(List.perm_insertionSort _ _).mem_iff, List.mem_map] at hmem
      obtain ⟨j, -, hj⟩ := hmem
      unfold speaDist at hj
      by_cases he : i = j
      · rw [if_pos he] at hj; cases hj
      · rw [if_neg he] at hj
        have : d = dist i j := (WithTop.coe_injective hj).symm
        have hd0 : 0 ≤ d := this ▸ hd i j
        constructor
        · positivity
        · apply one_div_le_one_div_of_le <;> linarith

/-- C76. A non-dominated individual has a fitness below one, a dominated one of at least one. -/
theorem C76_nondominated (F : Fin N → Fin m → K) (dist : Fin N → Fin N → K) (hd : ∀ i j, 0 ≤ dist i j) (i : Fin N) :
    speaFitness (domM F) dist i < 1 ↔ ∀ j, ¬ Dominates (F j) (F i) := by
  obtain ⟨d1, d2⟩ := speaDensity_bounds dist hd i
  unfold speaFitness
  constructor
  · intro h j hj
    have : 1 ≤ speaRaw (domM F) i := by
      rw [C76_raw]
      have h1 : 1 ≤ (Finset.univ.filter fun k => Dominates (F j) (F k)).card := Finset.card_pos.2 ⟨i, by simpa using hj⟩
      exact h1.trans (Finset.single_le_sum (f := fun j => (Finset.univ.filter fun k => Dominates (F j) (F k)).card) (fun _ _ => Nat.zero_le _) (by simpa using hj))
    have h2 : (1 : K) ≤ (speaRaw (domM F) i : K) := by exact_mod_cast this
    linarith
  · intro h
    have : speaRaw (domM F) i = 0 := by
      rw [C76_raw]
      apply Finset.sum_eq_zero
      intro j hj
      exact absurd (by simpa using hj) (h j)
    rw [this]
    norm_num
    linarith

/-- C76. The fitness respects dominance: an individual that dominates another has the smaller (better) fitness. -/
theorem C76_compatible (F : Fin N → Fin m → K) (dist : Fin N → Fin N → K) (hd : ∀ i j, 0 ≤ dist i j) (i j : Fin N) (h : Dominates (F i) (F j)) :
    speaFitness (domM F) dist i < speaFitness (domM F) dist j := by
  obtain ⟨d1, d2⟩ := speaDensity_bounds dist hd i
  obtain ⟨d3, d4⟩ := speaDensity_bounds dist hd j
  have key : speaRaw (domM F) i + 1 ≤ speaRaw (domM F) j := by
    rw [C76_raw, C76_raw]
    have hi : i ∉ Finset.univ.filter (fun k => Dominates (F k) (F i)) := by
      rw [Finset.mem_filter]; rintro ⟨-, -, c, hc⟩; exact lt_irrefl _ hc
    have hsub : insert i (Finset.univ.filter (fun k => Dominates (F k) (F i))) ⊆ Finset.univ.filter (fun k => Dominates (F k) (F j)) := by
      intro k hk
      rw [Finset.mem_insert] at hk
      rw [Finset.mem_filter]
      rcases hk with rfl | hk
      · exact ⟨Finset.mem_univ _, h⟩
      · exact ⟨Finset.mem_univ _, dominates_strictPO.trans _ _ _ (Finset.mem_filter.1 hk).2 h⟩
    have h1 := Finset.sum_le_sum_of_subset (f := fun j => (Finset.univ.filter fun k => Dominates (F j) (F k)).card) hsub
    rw [Finset.sum_insert hi] at h1
    have h2 : 1 ≤ (Finset.univ.filter fun k => Dominates (F i) (F k)).card := Finset.card_pos.2 ⟨j, by simpa using h⟩
    omega
  unfold speaFitness
  have : (speaRaw (domM F) i : K) + 1 ≤ (speaRaw (domM F) j : K) := by exact_mod_cast key
  linarith

/-- The distances of `i` to the other members of `S`, in ascending order. -/
def nearest (dist : Fin N → Fin N → K) (S : List (Fin N)) (i : Fin N) : List (WithTop K) := ((S.filter fun j => decide (j ≠ i)).map fun j => (dist i j : WithTop K)).insertionSort (· ≤ ·)

/-- `g` arises from `S` by removing one at a time an individual which is closest to the others: its nearest neighbour is at most as far as the one of anybody else; ties are decided by the
second nearest neighbour and so on (lexicographic order of the ascending distances to the others still there). -/
inductive CrowdedRemoval (dist : Fin N → Fin N → K) : List (Fin N) → List (Fin N) → Prop
  | done (S) : CrowdedRemoval dist S S
  | step (S g : List (Fin N)) (x : Fin N) (hx : x ∈ S) (hmin : ∀ y ∈ S, nearest dist S x ≤ nearest dist S y) (h : CrowdedRemoval dist (S.erase x) g) : CrowdedRemoval dist S g

theorem sorted_insertionSort {A : Type*} [LinearOrder A] (l : List A) : (l.insertionSort (· ≤ ·)).Pairwise (· ≤ ·) := by
  have : Std.Total (α := A) (· ≤ ·) := ⟨le_total⟩
  have : IsTrans A (· ≤ ·) := ⟨fun a b c => le_trans⟩
  exact List.pairwise_insertionSort _ l

theorem speaSorted_eq (dist : Fin N → Fin N → K) (S : List (Fin N)) (hS : S.Nodup) (i : Fin N) (hi : i ∈ S) : speaSorted dist S i = nearest dist S i ++ [⊤] := by
  have hp : (speaSorted dist S i).Perm (nearest dist S i ++ [⊤]) := by
    unfold speaSorted nearest
    refine (List.perm_insertionSort _ _).trans (List.Perm.trans ?_ ((List.perm_insertionSort _ _).symm.append_right _))
    have h1 : S.Perm (S.filter (fun j => decide (j ≠ i)) ++ [i]) := by
      rw [List.perm_ext_iff_of_nodup hS]
      · intro a
        simp only [List.mem_append, List.mem_filter, decide_eq_true_iff, List.mem_singleton]
        by_cases h : a = i
        · subst h; simp [hi]
        · simp [h]
      · refine List.nodup_append.2 ⟨hS.filter _, by simp, ?_⟩
        intro a ha b hb
        rw [List.mem_filter, decide_eq_true_iff] at ha
        rw [List.mem_singleton] at hb
        exact hb ▸ ha.2
    refine (h1.map _).trans ?_
    rw [List.map_append, List.map_singleton]
    have h2 : speaDist dist i i = ⊤ := if_pos rfl
    rw [h2]
    have h3 : (S.filter fun j => decide (j ≠ i)).map (speaDist dist i) = (S.filter fun j => decide (j ≠ i)).map fun j => (dist i j : WithTop K) := by
      apply List.map_congr_left
      intro j hj
      rw [List.mem_filter, decide_eq_true_iff] at hj
      exact if_neg (fun h => hj.2 h.symm)
    rw [h3]
  refine hp.eq_of_pairwise (le := (· ≤ ·)) (fun a b _ _ => le_antisymm) (sorted_insertionSort _) ?_
  exact List.pairwise_append.2 ⟨sorted_insertionSort _, by simp, fun a _ b hb => by rw [List.mem_singleton] at hb; exact hb ▸ le_top⟩

theorem append_lt_append {A : Type*} [LinearOrder A] (a b : List A) (t : A) (hl : a.length = b.length) (h : a < b) : a ++ [t] < b ++ [t] := by
  induction a generalizing b with
  | nil => cases b with
    | nil => exact absurd h (lt_irrefl _)
    | cons y b => simp at hl
  | cons x a ih =>
    cases b with
    | nil => simp at hl
    | cons y b =>
      rw [List.cons_append, List.cons_append]
      rw [List.cons_lt_cons_iff] at h ⊢
      rcases h with h | ⟨h, h'⟩
      · exact Or.inl h
      · exact Or.inr ⟨h, ih b (by simpa using hl) h'⟩

theorem nearest_length (dist : Fin N → Fin N → K) (S : List (Fin N)) (hS : S.Nodup) (i : Fin N) (hi : i ∈ S) : (nearest dist S i).length + 1 = S.length := by
  have h := congrArg List.length (speaSorted_eq dist S hS i hi)
  rw [List.length_append, speaSorted, (List.perm_insertionSort _ _).length_eq, List.length_map] at h
  simpa using h.symm

theorem npArgmin_inst {A ι : Type*} [LinearOrder A] (f : ι → List A) (l : List ι) :
    @npArgmin ι (List A) List.instLT (fun a b => a.decidableLT b) f l = @npArgmin ι (List A) Preorder.toLT LinearOrder.toDecidableLT f l := by
  congr!

theorem speaCandidate_ok (dist : Fin N → Fin N → K) (S : List (Fin N)) (hS : S.Nodup) (hne : S ≠ []) :
    ∃ p x, speaCandidate dist S = some p ∧ S[p]? = some x ∧ ∀ y ∈ S, nearest dist S x ≤ nearest dist S y := by
  unfold speaCandidate
  rw [npArgmin_inst]
  obtain ⟨a1, a2⟩ := npArgmin_spec (fun p : ℕ => ((S[p]?).map (speaSorted dist S)).getD []) (List.range S.length)
  cases hp : @npArgmin ℕ (List (WithTop K)) Preorder.toLT LinearOrder.toDecidableLT (fun p : ℕ => ((S[p]?).map (speaSorted dist S)).getD []) (List.range S.length) with
  | none => exact absurd (a1.1 hp) (by simpa using hne)
  | some p =>
    obtain ⟨p1, p2⟩ := a2 p hp
    rw [List.mem_range] at p1
    refine ⟨p, S[p], rfl, List.getElem?_eq_getElem p1, fun y hy => ?_⟩
    obtain ⟨q, hq, rfl⟩ := List.getElem_of_mem hy
    have := p2 q (List.mem_range.2 hq)
    rw [List.getElem?_eq_getElem p1, List.getElem?_eq_getElem hq, Option.map_some, Option.map_some, Option.getD_some, Option.getD_some,
      speaSorted_eq dist S hS _ (List.getElem_mem _), speaSorted_eq dist S hS _ (List.getElem_mem _)] at this
    by_contra hcc
    have h1 := nearest_length dist S hS S[p] (List.getElem_mem _)
    have h2 := nearest_length dist S hS S[q] (List.getElem_mem _)
    exact absurd this (not_le.2 (append_lt_append _ _ ⊤ (by omega) (not_le.1 hcc)))

theorem speaTruncate_ok (dist : Fin N → Fin N → K) (n f : ℕ) (S : List (Fin N)) (hS : S.Nodup) (h : n ≤ S.length) (hf : S.length ≤ n + f) :
    ∃ g, speaTruncate dist n f S = some g ∧ g.length = n ∧ g.Sublist S ∧ CrowdedRemoval dist S g := by
  induction f generalizing S with
  | zero => exact ⟨S, rfl, by omega, List.Sublist.refl _, CrowdedRemoval.done S⟩
  | succ f ih =>
    unfold speaTruncate
    by_cases hlt : n < S.length
    · rw [if_pos hlt]
      obtain ⟨p, x, p1, p2, p3⟩ := speaCandidate_ok dist S hS (by rintro rfl; simp at hlt)
      rw [p1, Option.bind_some]
      obtain ⟨hpl, hpx⟩ := List.getElem?_eq_some_iff.1 p2
      have hle : (S.eraseIdx p).length = S.length - 1 := by rw [List.length_eraseIdx, if_pos hpl]
      obtain ⟨g, g1, g2, g3, g4⟩ := ih (S.eraseIdx p) (hS.sublist (List.eraseIdx_sublist _ _)) (by omega) (by omega)
      refine ⟨g, g1, g2, g3.trans (List.eraseIdx_sublist _ _), CrowdedRemoval.step S g x (hpx ▸ List.getElem_mem _) p3 ?_⟩
      have : S.erase x = S.eraseIdx p := by rw [← hpx]; exact hS.erase_getElem p hpl
      rw [this]
      exact g4
    · rw [if_neg hlt]
      exact ⟨S, rfl, by omega, List.Sublist.refl _, CrowdedRemoval.done S⟩

/-- The individuals that nobody dominates. -/
def undominated (F : Fin N → Fin m → K) : List (Fin N) := (List.finRange N).filter fun i => decide (∀ j, ¬ Dominates (F j) (F i))

/-- C76. SPEA2's archive has exactly the wanted size and no duplicates. If the non-dominated individuals fit, all of them survive and the archive is filled with the dominated individuals
of smallest fitness; otherwise only non-dominated individuals survive, reduced by removing the most crowded one at a time. No survivor is dominated by an individual that does not survive. -/
theorem C76_survival (F : Fin N → Fin m → K) (dist : Fin N → Fin N → K) (hd : ∀ i j, 0 ≤ dist i j) (argsort : (Fin N → K) → List (Fin N) → List (Fin N))
    (hsort : ∀ v l, (argsort v l).Perm l ∧ (argsort v l).Pairwise fun a b => v a ≤ v b) (n : ℕ) (hn : n ≤ N) :
    ∃ S, speaSurvival (domM F) dist argsort n = some S ∧ S.length = n ∧ S.Nodup ∧
      ((undominated F).length ≤ n → (∀ i ∈ undominated F, i ∈ S) ∧
        ∀ i ∈ S, i ∉ undominated F → ∀ j, j ∉ S → speaFitness (domM F) dist i ≤ speaFitness (domM F) dist j) ∧
      (n ≤ (undominated F).length → (∀ i ∈ S, i ∈ undominated F) ∧ CrowdedRemoval dist (undominated F) S) ∧
      (∀ i ∈ S, ∀ j, Dominates (F j) (F i) → j ∈ S) := by
  have hU : ((List.finRange N).filter fun i => decide (∀ j, 0 ≤ domM F i j)) = undominated F := by
    unfold undominated
    congr 1
    funext i
    simp only [domM_nonneg]
  unfold speaSurvival
  simp only [hU]
  have hUnd : (undominated F).Nodup := (List.nodup_finRange N).filter _
  have hmemU : ∀ i, i ∈ undominated F ↔ ∀ j, ¬ Dominates (F j) (F i) := by
    intro i
    unfold undominated
    rw [List.mem_filter, decide_eq_true_iff]
    simp
  by_cases h1 : (undominated F).length < n
  · rw [if_pos h1]
    set rem := (List.finRange N).filter fun i => decide (i ∉ undominated F) with hrem
    set srt := argsort (speaFitness (domM F) dist) rem with hsrt
    obtain ⟨s1, s2⟩ := hsort (speaFitness (domM F) dist) rem
    rw [← hsrt] at s1 s2
    have hremnd : rem.Nodup := (List.nodup_finRange N).filter _
    have hsnd : srt.Nodup := s1.nodup_iff.2 hremnd
    have hlen : (undominated F).length + rem.length = N := by
      have : (undominated F ++ rem).Perm (List.finRange N) := by
        rw [List.perm_ext_iff_of_nodup _ (List.nodup_finRange N)]
        · intro i
          simp only [List.mem_append, hrem, List.mem_filter, List.mem_finRange, true_and, decide_eq_true_iff, iff_true]
          exact em _
        · refine List.nodup_append.2 ⟨hUnd, hremnd, ?_⟩
          intro a ha b hb he
          rw [hrem, List.mem_filter, decide_eq_true_iff] at hb
          exact hb.2 (he ▸ ha)
      simpa using this.length_eq
    have hmemrem : ∀ i, i ∈ rem ↔ i ∉ undominated F := by
      intro i; rw [hrem, List.mem_filter, decide_eq_true_iff]; simp
    have hfit : ∀ i ∈ srt.take (n - (undominated F).length), ∀ j, j ∉ undominated F ++ srt.take (n - (undominated F).length) →
        speaFitness (domM F) dist i ≤ speaFitness (domM F) dist j := by
      intro i hi j hj
      rw [List.mem_append, not_or] at hj
      have hjs : j ∈ srt := s1.mem_iff.2 ((hmemrem j).2 hj.1)
      have hjd : j ∈ srt.drop (n - (undominated F).length) := by
        rw [← List.take_append_drop (n - (undominated F).length) srt, List.mem_append] at hjs
        exact hjs.resolve_left hj.2
      rw [← List.take_append_drop (n - (undominated F).length) srt] at s2
      exact (List.pairwise_append.1 s2).2.2 i hi j hjd
    refine ⟨_, rfl, ?_, ?_, ?_, ?_, ?_⟩
    · rw [List.length_append, List.length_take, s1.length_eq]; omega
    · refine List.nodup_append.2 ⟨hUnd, hsnd.sublist (List.take_sublist _ _), ?_⟩
      intro a ha b hb he
      exact (hmemrem b).1 (s1.mem_iff.1 (List.mem_of_mem_take hb)) (he ▸ ha)
    · intro _
      refine ⟨fun i hi => List.mem_append_left _ hi, ?_⟩
      intro i hi hni j hj
      exact hfit i ((List.mem_append.1 hi).resolve_left hni) j hj
    · intro h; omega
    · intro i hi j hd'
      by_contra hcc
      have hiu : i ∉ undominated F := fun h => (hmemU i).1 h j hd'
      have := hfit i ((List.mem_append.1 hi).resolve_left hiu) j hcc
      exact absurd (C76_compatible F dist hd j i hd') (not_lt.2 this)
  · rw [if_neg h1]
    by_cases h2 : n < (undominated F).length
    · rw [if_pos h2]
      obtain ⟨g, g1, g2, g3, g4⟩ := speaTruncate_ok dist n (undominated F).length (undominated F) hUnd h2.le (by omega)
      refine ⟨g, g1, g2, hUnd.sublist g3, fun h => by omega, fun _ => ⟨fun i hi => g3.subset hi, g4⟩, ?_⟩
      intro i hi j hd'
      exact absurd hd' ((hmemU i).1 (g3.subset hi) j)
    · rw [if_neg h2]
      have he : (undominated F).length = n := by omega
      refine ⟨_, rfl, he, hUnd, fun _ => ⟨fun i hi => hi, fun i hi hni => absurd hi hni⟩, fun _ => ⟨fun i hi => hi, CrowdedRemoval.done _⟩, ?_⟩
      intro i hi j hd'
      exact absurd hd' ((hmemU i).1 hi j)

/-- C76. The density: with `k = ⌊√N⌋` the fitness uses the `(k + 1)`-th nearest of the other individuals (the distance to itself is infinite and comes last). -/
theorem C76_density (dist : Fin N → Fin N → K) (hN : Nat.sqrt N + 1 < N) (i : Fin N) :
    ∃ d : K, (nearest dist (List.finRange N) i)[Nat.sqrt N]? = some (d : WithTop K) ∧ speaDensity dist i = 1 / (d + 2) := by
  have hl := nearest_length dist (List.finRange N) (List.nodup_finRange N) i (List.mem_finRange i)
  rw [List.length_finRange] at hl
  have hlt : Nat.sqrt N < (nearest dist (List.finRange N) i).length := by omega
  have hmem := List.getElem_mem hlt
  have hmem' := hmem
  unfold nearest at hmem'
  rw [(List.perm_insertionSort _ _).mem_iff, List.mem_map] at hmem'
  obtain ⟨j, -, hj⟩ := hmem'
  refine ⟨dist i j, ?_, ?_⟩
  · rw [List.getElem?_eq_getElem hlt]
    exact congrArg some hj.symm
  · unfold speaDensity
    have hk : speaK N = Nat.sqrt N := if_neg (by omega)
    rw [hk, speaSorted_eq dist _ (List.nodup_finRange N) i (List.mem_finRange i), List.getElem?_append_left hlt, List.getElem?_eq_getElem hlt]
    have h' : (nearest dist (List.finRange N) i)[Nat.sqrt N] = (dist i j : WithTop K) := hj.symm
    rw [h']

end Spea

/-! ### AGE-MOEA -/

section Age
variable {K : Type*} [LinearOrder K] [Zero K] {β : Type*} [LinearOrder β] [AddCommGroup β] [IsOrderedAddMonoid β]

theorem ageFrontNo_iff (fronts : List (List (Fin N))) (hnd : fronts.flatten.Nodup) (i : Fin N) (k : ℕ) :
    ageFrontNo fronts i = some k ↔ ∃ f, fronts[k]? = some f ∧ i ∈ f := by
  induction fronts using List.reverseRecOn with
  | nil => simp [ageFrontNo]
  | append_singleton l g ih =>
    rw [List.flatten_append] at hnd
    have hd := (List.nodup_append.1 hnd).2.2
    have ih := ih (List.nodup_append.1 hnd).1
    unfold ageFrontNo at ih ⊢
    rw [List.zipIdx_append, List.foldl_append]
    simp only [List.zipIdx_cons, List.zipIdx_nil, List.foldl_cons, List.foldl_nil, Nat.zero_add]
    by_cases hi : i ∈ g
    · rw [if_pos hi]
      constructor
      · intro h
        cases h
        exact ⟨g, by rw [List.getElem?_append_right (le_refl _)]; simp, hi⟩
      · rintro ⟨f, h1, h2⟩
        rcases lt_trichotomy k l.length with h | h | h
        · exfalso
          rw [List.getElem?_append_left h] at h1
          exact hd i (List.mem_flatten.2 ⟨f, List.mem_of_getElem? h1, h2⟩) i (by simpa using hi) rfl
        · rw [h]
        · rw [List.getElem?_eq_none (by simp; omega)] at h1; cases h1
    · rw [if_neg hi, ih]
      constructor
      · rintro ⟨f, h1, h2⟩
        refine ⟨f, ?_, h2⟩
        rw [List.getElem?_append_left]
        · exact h1
        · exact (List.getElem?_eq_some_iff.1 h1).1
      · rintro ⟨f, h1, h2⟩
        rcases lt_trichotomy k l.length with h | h | h
        · rw [List.getElem?_append_left h] at h1
          exact ⟨f, h1, h2⟩
        · subst h
          rw [List.getElem?_append_right (le_refl _)] at h1
          simp at h1
          exact absurd (h1 ▸ h2) hi
        · rw [List.getElem?_eq_none (by simp; omega)] at h1; cases h1

theorem ageSurvival_split (F : Fin N → Fin m → β) (fronts : List (List (Fin N))) (all p : List (List (Fin N))) (last : List (Fin N)) (rest : List (List (Fin N)))
    (crowd : Fin N → K) (argsort : (Fin N → K) → List (Fin N) → List (Fin N))
    (hsort : ∀ v l, (argsort v l).Perm l ∧ (argsort v l).Pairwise fun a b => v a ≤ v b) (n : ℕ)
    (h2 : CanonicalFronts (fun i j => Dominates (F i) (F j)) all) (e1 : fronts = p ++ [last]) (e2 : all = p ++ last :: rest) (e3 : p.flatten.length ≤ n)
    (e4 : n ≤ p.flatten.length + last.length) :
    let sel := fun i => decide (∃ k < fronts.length - 1, ageFrontNo fronts i = some k)
    let last' := (List.finRange N).filter fun i => decide (ageFrontNo fronts i = some (fronts.length - 1))
    let add := ((argsort crowd last').reverse).take (n - ((List.finRange N).filter sel).length)
    let S := (List.finRange N).filter fun i => sel i || decide (i ∈ add)
    S.length = n ∧ S.Nodup ∧ (∀ i, i ∈ S ↔ i ∈ p.flatten ++ add) ∧ add.Nodup ∧ (∀ i ∈ add, i ∈ last) ∧ (∀ i ∈ add, ∀ j ∈ last, j ∉ add → crowd j ≤ crowd i) := by
  intro sel last' add S
  have hfnd : fronts.flatten.Nodup := by
    have := h2.nodup
    rw [e2, show p ++ last :: rest = (p ++ [last]) ++ rest by simp, List.flatten_append, ← e1] at this
    exact (List.nodup_append.1 this).1
  have hpnd : p.flatten.Nodup := by rw [e1, List.flatten_append] at hfnd; exact (List.nodup_append.1 hfnd).1
  have hlnd : last.Nodup := by rw [e1, List.flatten_append] at hfnd; simpa using (List.nodup_append.1 hfnd).2.1
  have hdis : ∀ i ∈ p.flatten, i ∉ last := by
    intro i hi hl
    rw [e1, List.flatten_append] at hfnd
    exact (List.nodup_append.1 hfnd).2.2 i hi i (by simpa using hl) rfl
  have hlen : fronts.length - 1 = p.length := by rw [e1]; simp
  have hsel : ∀ i, sel i = true ↔ i ∈ p.flatten := by
    intro i
    simp only [sel, decide_eq_true_iff, hlen]
    constructor
    · rintro ⟨k, hk, h⟩
      obtain ⟨f, f1, f2⟩ := (ageFrontNo_iff fronts hfnd i k).1 h
      rw [e1, List.getElem?_append_left hk] at f1
      exact List.mem_flatten.2 ⟨f, List.mem_of_getElem? f1, f2⟩
    · intro h
      obtain ⟨f, f1, f2⟩ := List.mem_flatten.1 h
      obtain ⟨k, hk, rfl⟩ := List.getElem_of_mem f1
      refine ⟨k, hk, (ageFrontNo_iff fronts hfnd i k).2 ⟨p[k], ?_, f2⟩⟩
      rw [e1, List.getElem?_append_left hk, List.getElem?_eq_getElem hk]
  have hlast : ∀ i, i ∈ last' ↔ i ∈ last := by
    intro i
    simp only [last', List.mem_filter, List.mem_finRange, true_and, decide_eq_true_iff, hlen, ageFrontNo_iff fronts hfnd]
    rw [e1, List.getElem?_append_right (le_refl _)]
    simp
  have hl'nd : last'.Nodup := (List.nodup_finRange N).filter _
  have hlperm : last'.Perm last := (List.perm_ext_iff_of_nodup hl'nd hlnd).2 hlast
  have hselperm : ((List.finRange N).filter sel).Perm p.flatten := by
    rw [List.perm_ext_iff_of_nodup ((List.nodup_finRange N).filter _) hpnd]
    intro i
    rw [List.mem_filter, hsel]; simp
  obtain ⟨s1, s2⟩ := hsort crowd last'
  have hrperm : (argsort crowd last').reverse.Perm last := (List.reverse_perm _).trans (s1.trans hlperm)
  have hadd : add = ((argsort crowd last').reverse).take (n - p.flatten.length) := by simp only [add, hselperm.length_eq]
  have haddnd : add.Nodup := by rw [hadd]; exact (hrperm.nodup_iff.2 hlnd).sublist (List.take_sublist _ _)
  have haddsub : ∀ i ∈ add, i ∈ last := by
    intro i hi
    rw [hadd] at hi
    exact hrperm.mem_iff.1 (List.mem_of_mem_take hi)
  have hmemS : ∀ i, i ∈ S ↔ i ∈ p.flatten ++ add := by
    intro i
    simp only [S, List.mem_filter, List.mem_finRange, true_and, Bool.or_eq_true, hsel, decide_eq_true_iff, List.mem_append]
  have hnd2 : (p.flatten ++ add).Nodup := List.nodup_append.2 ⟨hpnd, haddnd, fun a ha b hb he => hdis a ha (haddsub a (he ▸ hb))⟩
  have hSnd : S.Nodup := (List.nodup_finRange N).filter _
  refine ⟨?_, hSnd, hmemS, haddnd, haddsub, ?_⟩
  · rw [((List.perm_ext_iff_of_nodup hSnd hnd2).2 hmemS).length_eq, List.length_append, hadd, List.length_take, hrperm.length_eq]
    omega
  · intro i hi j hj hja
    rw [hadd] at hi hja
    have hjr := hrperm.mem_iff.2 hj
    rw [← List.take_append_drop (n - p.flatten.length) (argsort crowd last').reverse, List.mem_append] at hjr
    have hjd := hjr.resolve_left hja
    have s3 : (argsort crowd last').reverse.Pairwise fun a b => crowd b ≤ crowd a := List.pairwise_reverse.2 s2
    rw [← List.take_append_drop (n - p.flatten.length) (argsort crowd last').reverse] at s3
    exact (List.pairwise_append.1 s3).2.2 i hi j hjd

/-- C78. AGE-MOEA: exactly as many survivors as asked for, in the order of the population without duplicates; whole fronts first, so no survivor is dominated by an individual that does not survive;
when there is only one front, the survivors have the largest survival scores. -/
theorem C78_survival (paretoRank : (Fin N → Fin m → β) → Fin N → ℕ) (hpr : ∀ F, IsParetoRank (fun i j => Dominates (F i) (F j)) (paretoRank F)) (F : Fin N → Fin m → β)
    (score prox : List (List (Fin N)) → Fin N → K) (argsort : (Fin N → K) → List (Fin N) → List (Fin N))
    (hsort : ∀ v l, (argsort v l).Perm l ∧ (argsort v l).Pairwise fun a b => v a ≤ v b) (n : ℕ) (hn : n ≤ N) (hN : 0 < N) :
    ∃ S all, ageSurvival paretoRank F score prox argsort n = some S ∧ CanonicalFronts (fun i j => Dominates (F i) (F j)) all ∧
      S.length = n ∧ S.Nodup ∧
      (∀ k l (hk : k < all.length) (hl : l < all.length), k < l → ∀ i ∈ all[l], i ∈ S → ∀ j ∈ all[k], j ∈ S) ∧
      (∀ i ∈ S, ∀ j, Dominates (F j) (F i) → j ∈ S) ∧
      (∀ f, all.head? = some f → n ≤ f.length → ∀ i ∈ S, ∀ j ∈ f, j ∉ S → score [f] j ≤ score [f] i) := by
  obtain ⟨all, fronts, h1, h2, h3, -, h5⟩ := C10_native paretoRank hpr none 0 F none (some n)
  have h5 := h5 n rfl
  rw [show leading none all = all from rfl] at h5
  obtain ⟨p, last, rest, e1, e2, e3, e4, e5⟩ := prefix_split h2 hn hN h5
  unfold ageSurvival
  rw [h3, Option.bind_some, if_neg (by rw [e1]; simp)]
  obtain ⟨s1, s2, s3, s4, s5, s6⟩ := ageSurvival_split F fronts all p last rest (ageCrowd fronts (score fronts) (prox fronts)) argsort hsort n h2 e1 e2 e3 e4
  obtain ⟨f1, f2, f3⟩ := split_facts h2 e2 s4 s5
  refine ⟨_, all, rfl, h2, s1, s2, ?_, ?_, ?_⟩
  · intro k l hk hl hkl i hi hm j hj
    exact (s3 j).2 (f2 k l hk hl hkl i hi ((s3 i).1 hm) j hj)
  · intro i hi j hd
    exact (s3 j).2 (f3 i ((s3 i).1 hi) j hd)
  · intro f hf hle i hi j hj hjS
    have hp : p = [] := by
      by_contra hp
      obtain ⟨g, q, rfl⟩ := List.exists_cons_of_ne_nil hp
      have hfg : f = g := by rw [e2] at hf; simpa using hf.symm
      have := e5 hp
      rw [List.flatten_cons, List.length_append, ← hfg] at this
      omega
    subst hp
    have hfl : f = last := by rw [e2] at hf; simpa using hf.symm
    subst hfl
    simp only [List.nil_append] at e1
    subst e1
    simp only [List.flatten_nil, List.nil_append] at s3
    have hi' := (s3 i).1 hi
    have hj' : j ∉ _ := fun h => hjS ((s3 j).2 h)
    have := s6 i hi' j hj hj'
    have hzero : ∀ x ∈ f, ageFrontNo [f] x = some 0 := by
      intro x hx
      simp [ageFrontNo, hx]
    unfold ageCrowd at this
    rw [if_pos (hzero j hj), if_pos (hzero i (s5 i hi'))] at this
    exact this

/-- C78, refuted: when the splitting front is not the first one, its individuals are chosen without looking at proximity or diversity at all: `crowd_dist` is still zero there
(the loop `range(1, max_f_no)` stops before the last front), whatever the scores are. -/
theorem C78_blind_refuted (paretoRank : (Fin N → Fin m → β) → Fin N → ℕ) (hpr : ∀ F, IsParetoRank (fun i j => Dominates (F i) (F j)) (paretoRank F)) (F : Fin N → Fin m → β)
    (score prox score' prox' : List (List (Fin N)) → Fin N → K) (argsort : (Fin N → K) → List (Fin N) → List (Fin N))
    (hkeys : ∀ v w l, (∀ i ∈ l, v i = w i) → argsort v l = argsort w l) (n : ℕ)
    (hmore : ∀ fronts, ndsFronts paretoRank none none 0 F none (some n) = some fronts → 2 ≤ fronts.length) :
    ageSurvival paretoRank F score prox argsort n = ageSurvival paretoRank F score' prox' argsort n := by
  obtain ⟨all, fronts, h1, h2, h3, -, h5⟩ := C10_native paretoRank hpr none 0 F none (some n)
  have h2' := hmore fronts h3
  unfold ageSurvival
  rw [h3, Option.bind_some, Option.bind_some]
  have hcr : ∀ sc pr : Fin N → K, ∀ i ∈ (List.finRange N).filter fun i => decide (ageFrontNo fronts i = some (fronts.length - 1)), ageCrowd fronts sc pr i = 0 := by
    intro sc pr i hi
    rw [List.mem_filter, decide_eq_true_iff] at hi
    unfold ageCrowd
    rw [if_neg (by rw [hi.2]; simp; omega), hi.2]
    simp
  have := hkeys (ageCrowd fronts (score fronts) (prox fronts)) (ageCrowd fronts (score' fronts) (prox' fronts)) _
    (fun i hi => (hcr _ _ i hi).trans (hcr _ _ i hi).symm)
  simp only [this]

end Age

/-! ### Through `Survival.do`: feasibility first -/

section Lift
variable {ι K γ : Type*} [LinearOrder γ]

/-- A selection of positions applied to a list of individuals (`pop[I]`). -/
def liftSel (sel : (l : ℕ) → (Fin l → ι) → ℕ → Option (List (Fin l))) (sub : List ι) (k : ℕ) : List ι := ((sel sub.length sub.get k).getD []).map sub.get

theorem liftSel_ok (sel : (l : ℕ) → (Fin l → ι) → ℕ → Option (List (Fin l)))
    (h : ∀ l (g : Fin l → ι) k, k ≤ l → 0 < l → ∃ S, sel l g k = some S ∧ S.length = k ∧ S.Nodup)
    (h0 : ∀ g k S, sel 0 g k = some S → S = []) (sub : List ι) (k : ℕ) (hs : sub.Nodup) (hk : k ≤ sub.length) :
    (liftSel sel sub k).length = k ∧ (liftSel sel sub k).Nodup ∧ ∀ x ∈ liftSel sel sub k, x ∈ sub := by
  unfold liftSel
  rcases Nat.eq_zero_or_pos sub.length with hl | hl
  · have : sub = [] := List.length_eq_zero_iff.1 hl
    subst this
    have hk0 : k = 0 := by simpa using hk
    subst hk0
    cases hc : sel ([] : List ι).length ([] : List ι).get 0 with
    | none => simp
    | some S =>
      have := h0 _ _ _ hc
      subst this
      exact ⟨rfl, List.nodup_nil, by simp⟩
  · obtain ⟨S, s1, s2, s3⟩ := h sub.length sub.get k hk hl
    rw [s1, Option.getD_some]
    refine ⟨by rw [List.length_map, s2], s3.map (List.nodup_iff_injective_get.1 hs), ?_⟩
    intro x hx
    obtain ⟨i, -, rfl⟩ := List.mem_map.1 hx
    exact List.get_mem _ _

end Lift

section LiftUse
variable {ι γ : Type*} [LinearOrder γ] {K : Type*} [Field K] [LinearOrder K] [IsStrictOrderedRing K]

/-- C75. On constrained problems SMS-EMOA puts feasible individuals first. -/
theorem C75_constrained (paretoRank : (l : ℕ) → (Fin l → Fin m → K) → Fin l → ℕ) (hpr : ∀ l F, IsParetoRank (fun i j => Dominates (F i) (F j)) (paretoRank l F))
    (hvc : (Fin m → K) → List (Fin m → K) → List K) (vol : (Fin m → K) → List (Fin m → K) → K) (hc : ContributionContract hvc vol) (eps : K) (F : ι → Fin m → K)
    (bounds : (Fin m → K) × (Fin m → K)) (feas : ι → Bool) (cv : ι → γ) (pop : List ι) (hnd : pop.Nodup) (sortCV : List (Fin pop.length) → List (Fin pop.length))
    (hCV : ∀ l, (sortCV l).Perm l ∧ (sortCV l).Pairwise (fun a b => cv (pop.get a) ≤ cv (pop.get b))) (nSurvive : Option ℕ) :
    let S := survivalDo true (liftSel fun l g k => (smsSurvival (paretoRank l) hvc eps (fun i => F (g i)) (some bounds) k).map fun o => o.map Prod.fst) feas pop sortCV nSurvive
    S.length = min (nSurvive.getD pop.length) pop.length ∧ S.Nodup ∧ (∀ x ∈ S, x ∈ pop) ∧
    (∀ x ∈ S, feas x = false → ∀ y ∈ pop, feas y = true → y ∈ S) ∧
    (∀ x ∈ S, feas x = false → ∀ y ∈ pop, feas y = false → y ∉ S → cv x ≤ cv y) := by
  refine C12_feasibility_first _ feas cv pop hnd sortCV hCV (fun sub k hs hk => liftSel_ok _ ?_ ?_ sub k hs hk) nSurvive
  · intro l g k hk hl
    obtain ⟨out, all, p, last, rest, kept, h1, -, -, -, -, -, h7, h8, -⟩ := C75_survival (paretoRank l) (hpr l) hvc vol hc eps (fun i => F (g i)) bounds.1 bounds.2 k hk hl
    exact ⟨out.map Prod.fst, by rw [h1]; rfl, by rw [List.length_map, h7], h8⟩
  · intro g k S h
    exact List.eq_nil_iff_forall_not_mem.2 fun i => i.elim0

/-- C76. On constrained problems SPEA2 puts feasible individuals first. -/
theorem C76_constrained (F : ι → Fin m → K) (dist : ι → ι → K) (hd : ∀ i j, 0 ≤ dist i j) (argsort : (l : ℕ) → (Fin l → K) → List (Fin l) → List (Fin l))
    (hsort : ∀ l v L, (argsort l v L).Perm L ∧ (argsort l v L).Pairwise fun a b => v a ≤ v b) (feas : ι → Bool) (cv : ι → γ) (pop : List ι) (hnd : pop.Nodup)
    (sortCV : List (Fin pop.length) → List (Fin pop.length))
    (hCV : ∀ l, (sortCV l).Perm l ∧ (sortCV l).Pairwise (fun a b => cv (pop.get a) ≤ cv (pop.get b))) (nSurvive : Option ℕ) :
    let S := survivalDo true (liftSel fun l g k => speaSurvival (domM fun i => F (g i)) (fun i j => dist (g i) (g j)) (argsort l) k) feas pop sortCV nSurvive
    S.length = min (nSurvive.getD pop.length) pop.length ∧ S.Nodup ∧ (∀ x ∈ S, x ∈ pop) ∧
    (∀ x ∈ S, feas x = false → ∀ y ∈ pop, feas y = true → y ∈ S) ∧
    (∀ x ∈ S, feas x = false → ∀ y ∈ pop, feas y = false → y ∉ S → cv x ≤ cv y) := by
  refine C12_feasibility_first _ feas cv pop hnd sortCV hCV (fun sub k hs hk => liftSel_ok _ ?_ ?_ sub k hs hk) nSurvive
  · intro l g k hk hl
    obtain ⟨S, h1, h2, h3, -⟩ := C76_survival (fun i => F (g i)) (fun i j => dist (g i) (g j)) (fun i j => hd _ _) (argsort l) (hsort l) k hk
    exact ⟨S, h1, h2, h3⟩
  · intro g k S h
    exact List.eq_nil_iff_forall_not_mem.2 fun i => i.elim0

/-- C78. On constrained problems AGE-MOEA puts feasible individuals first. -/
theorem C78_constrained (paretoRank : (l : ℕ) → (Fin l → Fin m → K) → Fin l → ℕ) (hpr : ∀ l F, IsParetoRank (fun i j => Dominates (F i) (F j)) (paretoRank l F))
    (F : ι → Fin m → K) (score prox : (l : ℕ) → (Fin l → ι) → List (List (Fin l)) → Fin l → K) (argsort : (l : ℕ) → (Fin l → K) → List (Fin l) → List (Fin l))
    (hsort : ∀ l v L, (argsort l v L).Perm L ∧ (argsort l v L).Pairwise fun a b => v a ≤ v b) (feas : ι → Bool) (cv : ι → γ) (pop : List ι) (hnd : pop.Nodup)
    (sortCV : List (Fin pop.length) → List (Fin pop.length))
    (hCV : ∀ l, (sortCV l).Perm l ∧ (sortCV l).Pairwise (fun a b => cv (pop.get a) ≤ cv (pop.get b))) (nSurvive : Option ℕ) :
    let S := survivalDo true (liftSel fun l g k => ageSurvival (paretoRank l) (fun i => F (g i)) (score l g) (prox l g) (argsort l) k) feas pop sortCV nSurvive
    S.length = min (nSurvive.getD pop.length) pop.length ∧ S.Nodup ∧ (∀ x ∈ S, x ∈ pop) ∧
    (∀ x ∈ S, feas x = false → ∀ y ∈ pop, feas y = true → y ∈ S) ∧
    (∀ x ∈ S, feas x = false → ∀ y ∈ pop, feas y = false → y ∉ S → cv x ≤ cv y) := by
  refine C12_feasibility_first _ feas cv pop hnd sortCV hCV (fun sub k hs hk => liftSel_ok _ ?_ ?_ sub k hs hk) nSurvive
  · intro l g k hk hl
    obtain ⟨S, all, h1, -, h2, h3, -⟩ := C78_survival (paretoRank l) (hpr l) (fun i => F (g i)) (score l g) (prox l g) (argsort l) (hsort l) k hk hl
    exact ⟨S, h1, h2, h3⟩
  · intro g k S h
    exact List.eq_nil_iff_forall_not_mem.2 fun i => i.elim0

end LiftUse

/-! ### Examples -/

/-- A Pareto rank, by counting the longest chain; enough for the examples below. -/
def exRank (l : List ℕ) {n : ℕ} : (Fin n → Fin 2 → ℚ) → Fin n → ℕ := fun _ i => l.getD i 0

/-- The number of points, as a stand-in for the hypervolume (every removal is equally good). -/
example : (smsSurvival (N := 4) (m := 2) (exRank [0, 0, 1, 1]) (fun _ L => L.map fun f => f 0 + f 1) 10
    (fun i => ![![1, 4], ![4, 1], ![4, 5], ![5, 4]] i) (some (fun _ => 0, fun _ => 5)) 3) = some [(0, 0), (1, 0), (3, 1)] := by
  decide +kernel

/-- Three of four non-dominated points on a line survive: one of the closest pair is removed, namely the one with the nearer second neighbour. -/
example : speaSurvival (K := ℚ) (domM (fun i : Fin 4 => ![(![0, 4, 5, 9] : Fin 4 → ℚ) i, 9 - (![0, 4, 5, 9] : Fin 4 → ℚ) i]))
    (fun i j => |(![0, 4, 5, 9] : Fin 4 → ℚ) i - (![0, 4, 5, 9] : Fin 4 → ℚ) j|) (fun v l => l.insertionSort fun a b => v a ≤ v b) 3 = some [0, 2, 3] := by
  decide +kernel

/-- Two non-dominated points, three wanted: the dominated one with smaller fitness is taken. -/
example : speaSurvival (K := ℚ) (domM (fun i : Fin 4 => (![![1, 1], ![2, 2], ![3, 3], ![0, 4]] : Fin 4 → Fin 2 → ℚ) i))
    (fun i j => |(i : ℕ) - (j : ℕ)|) (fun v l => l.insertionSort fun a b => v a ≤ v b) 3 = some [0, 3, 1] := by
  decide +kernel

/-- AGE-MOEA with two fronts: the second member of the last front is taken, although the first one has the better scores. -/
example : ageSurvival (N := 3) (m := 2) (K := ℚ) (exRank [0, 1, 1]) (fun i => (![![1, 1], ![2, 3], ![3, 2]] : Fin 3 → Fin 2 → ℚ) i) (fun _ i => 10 - (i : ℕ)) (fun _ i => 10 - (i : ℕ))
    (fun v l => l.insertionSort fun a b => v a ≤ v b) 2 = some [0, 2] := by
  decide +kernel

end Props
