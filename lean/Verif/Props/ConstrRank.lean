import Verif.Model.ConstrRank
import Verif.Lemmas.CTAEA
import Verif.Lemmas.FrontSurvivals
import Verif.Lemmas.ChainRank
import Verif.Props.GDE3
import Verif.Props.Sorting
import Mathlib.Tactic.FinCases
import Mathlib.Data.Fin.VecNotation

/-!
# C115: constrained rank-and-crowding survival

Feasible individuals come first and are ranked as in NSGA-II; places that are left are filled with infeasible individuals, front by front of their
vectors of constraint violations, and inside the front that does not fit by total violation.
-/

set_option linter.unusedSectionVars false

namespace Props

open Model Spec Lemmas

section
variable {ι K : Type*} {m p q : ℕ} [Field K] [LinearOrder K] [IsStrictOrderedRing K]

/-- `x` violates every constraint at most as much as `y` and one constraint less: inequality constraints are violated by `max(g, 0)`, equality
constraints by `|h|`. -/
def ViolatesLess (G : ι → Fin p → K) (H : ι → Fin q → K) (x y : ι) : Prop :=
  (∀ j, max (G x j) 0 ≤ max (G y j) 0) ∧ (∀ j, |H x j| ≤ |H y j|) ∧ ((∃ j, max (G x j) 0 < max (G y j) 0) ∨ ∃ j, |H x j| < |H y j|)

theorem crViol_dominates (G : ι → Fin p → K) (H : ι → Fin q → K) (x y : ι) :
    Dominates (crViol G H x) (crViol G H y) ↔ ViolatesLess G H x y := by
  unfold Dominates ViolatesLess crViol
  constructor
  · rintro ⟨h1, j, hj⟩
    refine ⟨fun i => by simpa using h1 (Fin.castAdd q i), fun i => by simpa using h1 (Fin.natAdd p i), ?_⟩
    induction j using Fin.addCases with
    | left i => left; exact ⟨i, by simpa using hj⟩
    | right i => right; exact ⟨i, by simpa using hj⟩
  · rintro ⟨h1, h2, h3⟩
    refine ⟨fun i => ?_, ?_⟩
    · induction i using Fin.addCases with
      | left i => simpa using h1 i
      | right i => simpa using h2 i
    · rcases h3 with ⟨j, hj⟩ | ⟨j, hj⟩
      · exact ⟨Fin.castAdd q j, by simpa using hj⟩
      · exact ⟨Fin.natAdd p j, by simpa using hj⟩

theorem crTrim_spec {argsort : (l : ℕ) → (Fin l → K) → List (Fin l)} {P : (l : ℕ) → Fin l → Fin l}
    (hsort : ∀ l A, (argsort l A).Perm (List.finRange l) ∧ (argsort l A).Pairwise (fun a b => A a ≤ A b)) (hP : ∀ l, Function.Bijective (P l))
    (cv : ι → K) (r : ℕ) (front : List ι) (hn : front.Nodup) :
    ∃ kept, crTrim argsort P cv r front = some kept ∧ kept.length = front.length - r ∧ kept.Nodup ∧ (∀ x ∈ kept, x ∈ front) ∧
      ∀ x ∈ kept, ∀ y ∈ front, y ∉ kept → cv x ≤ cv y := by
  unfold crTrim
  by_cases hr : r = 0
  · subst hr
    exact ⟨front, by simp, by simp, hn, fun x hx => hx, fun x _ y hy hny => absurd hy hny⟩
  · rw [if_neg hr]
    obtain ⟨⟨I, h1, h2, h3⟩, -⟩ := C38_numpy (argsort front.length) (hsort front.length) (P front.length) (hP _) (fun i => cv (front.get i))
    refine ⟨_, by rw [h1]; rfl, ?_, ?_, ?_, ?_⟩
    · rw [List.length_map, List.length_take, h2.length_eq, List.length_finRange]
      omega
    · exact ((h2.nodup_iff.2 (List.nodup_finRange _)).sublist (List.take_sublist _ _)).map (List.nodup_iff_injective_get.1 hn)
    · intro x hx
      obtain ⟨i, -, rfl⟩ := List.mem_map.1 hx
      exact List.get_mem _ _
    · intro x hx y hy hny
      obtain ⟨i, hi, rfl⟩ := List.mem_map.1 hx
      obtain ⟨j, rfl⟩ := List.get_of_mem hy
      have hj : j ∈ I.drop (front.length - r) := by
        have : j ∈ I := h2.mem_iff.2 (List.mem_finRange j)
        rw [← List.take_append_drop (front.length - r) I] at this
        rcases List.mem_append.1 this with h | h
        · exact absurd (List.mem_map_of_mem h) hny
        · exact h
      rw [← List.take_append_drop (front.length - r) I] at h3
      exact (List.pairwise_append.1 h3).2.2 i hi j hj

theorem frontsOf_congr {dom dom' : ι → ι → Prop} {L L' : List ι} {fronts : List (List ι)} (h : FrontsOf dom L fronts) (hd : ∀ x y, dom x y ↔ dom' x y)
    (hL : L.Perm L') : FrontsOf dom' L' fronts := by
  refine ⟨h.perm.trans hL, h.nonempty, fun k hk x => ?_⟩
  rw [h.level k hk x, hL.mem_iff]
  constructor
  · rintro ⟨a, b, c⟩
    exact ⟨a, b, fun y hy hd' => c y (hL.mem_iff.2 hy) ((hd y x).2 hd')⟩
  · rintro ⟨a, b, c⟩
    exact ⟨a, b, fun y hy hd' => c y (hL.mem_iff.1 hy) ((hd y x).1 hd')⟩

/-- What survives of a list of infeasible individuals: complete fronts, then the best of the next by total violation. -/
structure LeastViolating (viol : ι → ι → Prop) (cv : ι → K) (L S : List ι) : Prop where
  fronts : ∃ all, FrontsOf viol L all ∧
    (∀ k l (hk : k < all.length) (hl : l < all.length), k < l → ∀ x ∈ all[l], x ∈ S → ∀ y ∈ all[k], y ∈ S) ∧
    ∀ k (hk : k < all.length), ∀ x ∈ all[k], x ∈ S → ∀ y ∈ all[k], y ∉ S → cv x ≤ cv y

theorem crFill_spec {paretoRankC : ∀ n, (Fin n → Fin (p + q) → K) → Fin n → ℕ}
    (hpr : ∀ n F, IsParetoRank (fun i j => Dominates (F i) (F j)) (paretoRankC n F)) {argsort : (l : ℕ) → (Fin l → K) → List (Fin l)}
    {P : (l : ℕ) → Fin l → Fin l} (hsort : ∀ l A, (argsort l A).Perm (List.finRange l) ∧ (argsort l A).Pairwise (fun a b => A a ≤ A b))
    (hP : ∀ l, Function.Bijective (P l)) (cv : ι → K) (G : ι → Fin p → K) (H : ι → Fin q → K) (L : List ι) (hnd : L.Nodup) (k : ℕ) (hk0 : 0 < k)
    (hk : k ≤ L.length) :
    ∃ fronts s, ndsList paretoRankC (crViol G H) L none (some k) = some fronts ∧ frontFill (crTrim argsort P cv) k fronts = some s ∧
      (s.map Prod.fst).length = k ∧ (s.map Prod.fst).Nodup ∧ (∀ x ∈ s.map Prod.fst, x ∈ L) ∧
      LeastViolating (ViolatesLess G H) cv L (s.map Prod.fst) := by
  obtain ⟨all, res, h1, h2, -, h4⟩ := ndsList_spec paretoRankC hpr (crViol G H) L hnd (some k)
  have hlen : all.flatten.length = L.length := h1.perm.length_eq
  have hne : all ≠ [] := fun h => by rw [h] at hlen; simp at hlen; omega
  obtain ⟨pre, last, rest, e1, e2, l1, l2, -⟩ := split_of_prefix (by omega) hne (h4 k rfl)
  have hfn : all.flatten.Nodup := h1.perm.nodup_iff.2 hnd
  rw [e2, List.flatten_append, List.flatten_cons] at hfn
  have hpn := (List.nodup_append.1 hfn).1
  have hln := (List.nodup_append.1 ((List.nodup_append.1 hfn).2.1)).1
  have hdis := (List.nodup_append.1 hfn).2.2
  obtain ⟨kept, t1, t2, t3, t4, t5⟩ := crTrim_spec hsort hP cv (pre.flatten.length + last.length - k) last hln
  have hfill := frontFill_split (crTrim argsort P cv) (fun f => by simp [crTrim]) k pre last l1 l2
  rw [t1, Option.map_some, ← e1] at hfill
  have hfst : (rankedFrom 0 pre ++ kept.map fun i => (i, pre.length)).map Prod.fst = pre.flatten ++ kept := by
    rw [List.map_append, rankedFrom_fst, List.map_map]
    congr 1
    exact List.map_id _
  refine ⟨res, _, h2, hfill, ?_, ?_, ?_, ?_⟩ <;> rw [hfst]
  · rw [List.length_append, t2]; omega
  · exact List.nodup_append.2 ⟨hpn, t3, fun a ha b hb => hdis a ha b (List.mem_append_left _ (t4 b hb))⟩
  · intro x hx
    refine h1.perm.mem_iff.1 ?_
    rw [e2, List.flatten_append, List.flatten_cons]
    rcases List.mem_append.1 hx with h | h
    · exact List.mem_append_left _ h
    · exact List.mem_append_right _ (List.mem_append_left _ (t4 x h))
  · refine ⟨all, frontsOf_congr h1 (crViol_dominates G H) (List.Perm.refl _), ?_, ?_⟩
    · -- a survivor in front l means l ≤ pre.length
      intro a b ha hb hab x hx hxS y hy
      have hbl : b ≤ pre.length := by
        by_contra hc
        have hxr : x ∈ rest.flatten := by
          refine List.mem_flatten.2 ⟨all[b], ?_, hx⟩
          have hg : all[b] = rest[b - (pre.length + 1)]'(by have := congrArg List.length e2; simp at this; omega) := by
            have : all[b] = (pre ++ last :: rest)[b]'(e2 ▸ hb) := by congr 1
            rw [this, List.getElem_append_right (by omega), List.getElem_cons, dif_neg (by omega)]
            congr 1
          rw [hg]
          exact List.getElem_mem _
        rcases List.mem_append.1 hxS with h | h
        · exact hdis x h x (List.mem_append_right _ hxr) rfl
        · exact (List.nodup_append.1 (List.nodup_append.1 hfn).2.1).2.2 x (t4 x h) x hxr rfl
      have hal : a < pre.length := by omega
      have hg : all[a] = pre[a] := by
        have : all[a] = (pre ++ last :: rest)[a]'(e2 ▸ ha) := by congr 1
        rw [this, List.getElem_append_left hal]
      rw [hg] at hy
      exact List.mem_append_left _ (List.mem_flatten.2 ⟨_, List.getElem_mem hal, hy⟩)
    · intro a ha x hx hxS y hy hyS
      rcases lt_trichotomy a pre.length with hal | hal | hal
      · have hg : all[a] = pre[a] := by
          have : all[a] = (pre ++ last :: rest)[a]'(e2 ▸ ha) := by congr 1
          rw [this, List.getElem_append_left hal]
        rw [hg] at hy
        exact absurd (List.mem_append_left _ (List.mem_flatten.2 ⟨_, List.getElem_mem hal, hy⟩)) hyS
      · have hg : all[a] = last := by
          have : all[a] = (pre ++ last :: rest)[a]'(e2 ▸ ha) := by congr 1
          rw [this, List.getElem_append_right (by omega), List.getElem_cons, dif_pos (by omega)]
        rw [hg] at hx hy
        have hxk : x ∈ kept := by
          rcases List.mem_append.1 hxS with h | h
          · exact absurd rfl (hdis x h x (List.mem_append_left _ hx))
          · exact h
        exact t5 x hxk y hy fun h => hyS (List.mem_append_right _ h)
      · exfalso
        have hxr : x ∈ rest.flatten := by
          refine List.mem_flatten.2 ⟨all[a], ?_, hx⟩
          have hg : all[a] = rest[a - (pre.length + 1)]'(by have := congrArg List.length e2; simp at this; omega) := by
            have : all[a] = (pre ++ last :: rest)[a]'(e2 ▸ ha) := by congr 1
            rw [this, List.getElem_append_right (by omega), List.getElem_cons, dif_neg (by omega)]
            congr 1
          rw [hg]
          exact List.getElem_mem _
        rcases List.mem_append.1 hxS with h | h
        · exact hdis x h x (List.mem_append_right _ hxr) rfl
        · exact (List.nodup_append.1 (List.nodup_append.1 hfn).2.1).2.2 x (t4 x h) x hxr rfl

variable {γ : Type*} [LinearOrder γ] {paretoRank : (N : ℕ) → (Fin N → Fin m → K) → Fin N → ℕ} {argsort : (l : ℕ) → (Fin l → γ) → List (Fin l)}
  {P : ℕ → (l : ℕ) → Fin l → Fin l} (crowd : (l : ℕ) → (Fin l → Fin m → K) → ℕ → Fin l → γ)

/-- **C115** (constrained problem). `min(n, size)` different members survive; an infeasible individual survives only beside all feasible ones; a feasible
individual that no feasible one dominates is dropped only for feasible non-dominated ones; and the infeasible survivors are taken front by front of
the vectors of constraint violations, in the last front the ones with the least total violation. -/
theorem C115_survival (h : RcOk paretoRank argsort P) {paretoRankC : ∀ n, (Fin n → Fin (p + q) → K) → Fin n → ℕ}
    (hpr : ∀ n F, IsParetoRank (fun i j => Dominates (F i) (F j)) (paretoRankC n F)) {argsortC : (l : ℕ) → (Fin l → K) → List (Fin l)}
    {PC : (l : ℕ) → Fin l → Fin l} (hsort : ∀ l A, (argsortC l A).Perm (List.finRange l) ∧ (argsortC l A).Pairwise (fun a b => A a ≤ A b))
    (hPC : ∀ l, Function.Bijective (PC l)) (at' : Attrs ι K K m) (G : ι → Fin p → K) (H : ι → Fin q → K)
    (sortCV : (L : List ι) → List (Fin L.length) → List (Fin L.length)) (hs : SortsCV at' sortCV) (pop : List ι) (hn : pop.Nodup)
    (nSurvive : Option ℕ) :
    ∃ S, crSurvival true paretoRank paretoRankC crowd argsort P argsortC PC at' G H sortCV pop nSurvive = some S ∧
      S.length = min (nSurvive.getD pop.length) pop.length ∧ S.Nodup ∧ (∀ x ∈ S, x ∈ pop) ∧
      (∀ x ∈ S, at'.feas x = false → ∀ y ∈ pop, at'.feas y = true → y ∈ S) ∧
      (∀ x ∈ pop, at'.feas x = true → (∀ y ∈ pop, at'.feas y = true → ¬ Dominates (at'.F y) (at'.F x)) → x ∉ S →
        ∀ y ∈ S, at'.feas y = true ∧ ∀ z ∈ pop, at'.feas z = true → ¬ Dominates (at'.F z) (at'.F y)) ∧
      LeastViolating (ViolatesLess G H) at'.cv (pop.filter fun x => !at'.feas x) S := by
  unfold crSurvival
  by_cases h0 : pop.length = 0
  · rw [if_pos h0]
    have : pop = [] := List.length_eq_zero_iff.1 h0
    subst this
    exact ⟨[], rfl, by simp, by simp, by simp, by simp, by simp, ⟨[], ⟨by simp, by simp, by simp⟩, by simp, by simp⟩⟩
  rw [if_neg h0]
  set n := min (nSurvive.getD pop.length) pop.length with hndef
  have hnle : n ≤ pop.length := min_le_right _ _
  have hnn : min ((some n : Option ℕ).getD pop.length) pop.length = n := by simpa using hnle
  unfold crDo
  rw [hnn]
  simp only [if_true]
  set fi := splitByFeasibility (fun i => at'.feas (pop.get i)) (sortCV pop) id true false with hfi
  have hspl := C12_split (fun i => at'.feas (pop.get i)) (fun i => at'.cv (pop.get i)) (fun i => at'.cv (pop.get i)) (sortCV pop) (sortCV pop)
    (hs pop) (hs pop) true false
  have hfi' : splitByFeasibility (fun i => at'.feas (pop.get i)) (sortCV pop) (sortCV pop) true false = fi := by
    simp [hfi, splitByFeasibility]
  rw [hfi'] at hspl
  obtain ⟨s1, s2, s3, -, -⟩ := hspl
  have hinj : Function.Injective pop.get := List.nodup_iff_injective_get.1 hn
  have hnd12 : (fi.1 ++ fi.2).Nodup := s1.nodup_iff.2 (List.nodup_finRange _)
  have hndF : (fi.1.map pop.get).Nodup := (List.nodup_append.1 hnd12).1.map hinj
  have hndI : (fi.2.map pop.get).Nodup := (List.nodup_append.1 hnd12).2.1.map hinj
  have hlen : fi.1.length + fi.2.length = pop.length := by
    have := s1.length_eq
    simpa using this
  have hF : ∀ z, z ∈ fi.1.map pop.get ↔ z ∈ pop ∧ at'.feas z = true := by
    intro z
    rw [List.mem_map]
    constructor
    · rintro ⟨i, hi, rfl⟩
      exact ⟨List.get_mem _ _, (s2 i).1 hi⟩
    · rintro ⟨hz, hzf⟩
      obtain ⟨i, rfl⟩ := List.get_of_mem hz
      exact ⟨i, (s2 i).2 hzf, rfl⟩
  have hI : ∀ z, z ∈ fi.2.map pop.get ↔ z ∈ pop ∧ at'.feas z = false := by
    intro z
    rw [List.mem_map]
    constructor
    · rintro ⟨i, hi, rfl⟩
      exact ⟨List.get_mem _ _, (s3 i).1 hi⟩
    · rintro ⟨hz, hzf⟩
      obtain ⟨i, rfl⟩ := List.get_of_mem hz
      exact ⟨i, (s3 i).2 hzf, rfl⟩
  have hIperm : (fi.2.map pop.get).Perm (pop.filter fun x => !at'.feas x) := by
    rw [List.perm_ext_iff_of_nodup hndI (hn.filter _)]
    intro z
    rw [hI, List.mem_filter]
    simp
  -- the ranking of the feasible ones
  set sv := if (fi.1.map pop.get).length = 0 then [] else
    crRanking true paretoRank crowd argsort P at' sortCV (fi.1.map pop.get) (min (fi.1.map pop.get).length n) with hsv
  have hsvfacts : sv.length = min fi.1.length n ∧ sv.Nodup ∧ (∀ x ∈ sv, x ∈ fi.1.map pop.get) ∧
      ∀ x ∈ fi.1.map pop.get, (∀ y ∈ fi.1.map pop.get, ¬ Dominates (at'.F y) (at'.F x)) → x ∉ sv →
        ∀ y ∈ sv, ∀ z ∈ fi.1.map pop.get, ¬ Dominates (at'.F z) (at'.F y) := by
    by_cases hz : (fi.1.map pop.get).length = 0
    · rw [hsv, if_pos hz]
      rw [List.length_map] at hz
      refine ⟨by simp [hz], by simp, by simp, by simp⟩
    · rw [hsv, if_neg hz]
      obtain ⟨c1, c2, c3, -, c5⟩ := C100_survival crowd h at' true (by simp) sortCV hs (min (fi.1.map pop.get).length n) (fi.1.map pop.get) hndF
      refine ⟨?_, c2, c3, fun x hx hund hlost y hy z hz => ?_⟩
      · refine Eq.trans c1 ?_
        rw [List.length_map]; omega
      · exact (c5 x hx ((hF x).1 hx).2 (fun y hy _ => hund y hy) hlost y hy).2 z hz ((hF z).1 hz).2
  obtain ⟨v1, v2, v3, v4⟩ := hsvfacts
  have hvall : fi.1.length ≤ sv.length → ∀ x ∈ fi.1.map pop.get, x ∈ sv := by
    intro hle x hx
    have hsub : sv ⊆ fi.1.map pop.get := v3
    have hperm := (List.subperm_of_subset v2 hsub).perm_of_length_le (by rw [List.length_map]; exact hle)
    exact hperm.mem_iff.2 hx
  by_cases hrem : n - sv.length > 0
  · rw [if_pos hrem]
    have hk : n - sv.length ≤ (fi.2.map pop.get).length := by rw [List.length_map]; omega
    obtain ⟨fronts, s, f1, f2, f3, f4, f5, f6⟩ := crFill_spec hpr hsort hPC at'.cv G H (fi.2.map pop.get) hndI (n - sv.length) hrem hk
    have hallF : ∀ x ∈ fi.1.map pop.get, x ∈ sv := hvall (by omega)
    refine ⟨sv ++ s.map Prod.fst, by rw [f1]; simp only [Option.bind_some]; rw [f2]; rfl, ?_, ?_, ?_, ?_, ?_, ?_⟩
    · rw [List.length_append, f3]; omega
    · refine List.nodup_append.2 ⟨v2, f4, fun a ha b hb hab => ?_⟩
      subst hab
      have e1 := ((hF a).1 (v3 a ha)).2
      rw [((hI a).1 (f5 a hb)).2] at e1
      cases e1
    · intro x hx
      rcases List.mem_append.1 hx with hx | hx
      · exact ((hF x).1 (v3 x hx)).1
      · exact ((hI x).1 (f5 x hx)).1
    · intro x _ _ y hy hyf
      exact List.mem_append_left _ (hallF y ((hF y).2 ⟨hy, hyf⟩))
    · intro x hx hxf _ hlost
      exact absurd (List.mem_append_left _ (hallF x ((hF x).2 ⟨hx, hxf⟩))) hlost
    · obtain ⟨all, g1, g2, g3⟩ := f6.fronts
      have hmem : ∀ a (ha : a < all.length), ∀ x ∈ all[a], (x ∈ sv ++ s.map Prod.fst ↔ x ∈ s.map Prod.fst) := by
        intro a ha x hx
        have hxI := ((hI x).1 (g1.perm.mem_iff.1 (List.mem_flatten.2 ⟨_, List.getElem_mem ha, hx⟩))).2
        rw [List.mem_append]
        constructor
        · rintro (hv | hv)
          · have := ((hF x).1 (v3 x hv)).2
            rw [hxI] at this
            cases this
          · exact hv
        · exact Or.inr
      refine ⟨all, frontsOf_congr g1 (fun _ _ => Iff.rfl) hIperm, ?_, ?_⟩
      · intro a b ha hb hab x hx hxS y hy
        exact (hmem a ha y hy).2 (g2 a b ha hb hab x hx ((hmem b hb x hx).1 hxS) y hy)
      · intro a ha x hx hxS y hy hyS
        exact g3 a ha x hx ((hmem a ha x hx).1 hxS) y hy fun hc => hyS ((hmem a ha y hy).2 hc)
  · rw [if_neg hrem]
    have hfeas : ∀ x ∈ sv, at'.feas x = true := fun x hx => ((hF x).1 (v3 x hx)).2
    refine ⟨sv, rfl, by omega, v2, fun x hx => ((hF x).1 (v3 x hx)).1, ?_, ?_, ?_⟩
    · intro x hx hxf
      rw [hfeas x hx] at hxf
      cases hxf
    · intro x hx hxf hund hlost y hy
      refine ⟨hfeas y hy, fun z hz hzf => v4 x ((hF x).2 ⟨hx, hxf⟩) ?_ hlost y hy z ((hF z).2 ⟨hz, hzf⟩)⟩
      intro w hw
      exact hund w ((hF w).1 hw).1 ((hF w).1 hw).2
    · obtain ⟨all, -, g1, -⟩ := ndsList_spec paretoRankC hpr (crViol G H) (fi.2.map pop.get) hndI none
      have hno : ∀ a (ha : a < all.length), ∀ x ∈ all[a], x ∉ sv := by
        intro a ha x hx hxS
        have := ((hI x).1 (g1.perm.mem_iff.1 (List.mem_flatten.2 ⟨_, List.getElem_mem ha, hx⟩))).2
        rw [hfeas x hxS] at this
        cases this
      refine ⟨all, frontsOf_congr g1 (crViol_dominates G H) hIperm, ?_, ?_⟩
      · intro a b ha hb _ x hx hxS
        exact absurd hxS (hno b hb x hx)
      · intro a ha x hx hxS
        exact absurd hxS (hno a ha x hx)

/-- **C115** (problem without constraints). Rank and crowding of the whole population. -/
theorem C115_unconstrained (paretoRankC : ∀ n, (Fin n → Fin (p + q) → K) → Fin n → ℕ) (argsortC : (l : ℕ) → (Fin l → K) → List (Fin l))
    (PC : (l : ℕ) → Fin l → Fin l) (at' : Attrs ι K K m) (G : ι → Fin p → K) (H : ι → Fin q → K)
    (sortCV : (L : List ι) → List (Fin L.length) → List (Fin L.length)) (pop : List ι) (hpop : pop ≠ []) (nSurvive : Option ℕ) :
    crSurvival false paretoRank paretoRankC crowd argsort P argsortC PC at' G H sortCV pop nSurvive =
      some (rcOperator paretoRank at'.F crowd argsort P pop (min (nSurvive.getD pop.length) pop.length)) := by
  have h0 : pop.length ≠ 0 := fun h => hpop (List.length_eq_zero_iff.1 h)
  unfold crSurvival crDo crRanking
  rw [if_neg h0]
  simp only [Bool.false_eq_true, if_false]
  congr 1
  have := C12_unconstrained (rcOperator paretoRank at'.F crowd argsort P) at'.feas pop hpop (sortCV pop)
    (some (min ((some (min (nSurvive.getD pop.length) pop.length) : Option ℕ).getD pop.length) pop.length))
  rw [this]
  congr 1
  simp

end

/-! ### A concrete population -/

section
/-- Insertion sort as `np.argsort`. -/
def exSortQ (l : ℕ) (A : Fin l → ℚ) : List (Fin l) := (List.finRange l).insertionSort fun a b => A a ≤ A b

theorem exSortQ_ok (l : ℕ) (A : Fin l → ℚ) : (exSortQ l A).Perm (List.finRange l) ∧ (exSortQ l A).Pairwise fun a b => A a ≤ A b := by
  haveI : Std.Total (fun a b : Fin l => A a ≤ A b) := ⟨fun a b => le_total _ _⟩
  haveI : IsTrans (Fin l) (fun a b => A a ≤ A b) := ⟨fun a b c => le_trans⟩
  exact ⟨List.perm_insertionSort _ _, List.pairwise_insertionSort _ _⟩

/-- One feasible and four infeasible individuals with two inequality constraints and one equality constraint. -/
def exCr : Attrs (Fin 5) ℚ ℚ 2 where
  F := ![![1, 1], ![0, 0], ![0, 0], ![0, 0], ![0, 0]]
  feas := ![true, false, false, false, false]
  cv := ![0, 4, 3, 3, 9]

def exCrG : Fin 5 → Fin 2 → ℚ := ![![-1, 0], ![4, -1], ![0, 3], ![1, -5], ![4, 3]]
def exCrH : Fin 5 → Fin 1 → ℚ := ![![0], ![0], ![0], ![-2], ![2]]

def exCrSort (at' : Attrs (Fin 5) ℚ ℚ 2) (L : List (Fin 5)) (l : List (Fin L.length)) : List (Fin L.length) :=
  l.insertionSort fun a b => at'.cv (L.get a) ≤ at'.cv (L.get b)

theorem exCrSort_ok (at' : Attrs (Fin 5) ℚ ℚ 2) : SortsCV at' (exCrSort at') := by
  intro L l
  haveI : Std.Total (fun a b : Fin L.length => at'.cv (L.get a) ≤ at'.cv (L.get b)) := ⟨fun a b => le_total _ _⟩
  haveI : IsTrans (Fin L.length) (fun a b => at'.cv (L.get a) ≤ at'.cv (L.get b)) := ⟨fun a b c => le_trans⟩
  exact ⟨List.perm_insertionSort _ _, List.pairwise_insertionSort _ _⟩

/-- `crSurvival` on the example; `PC` is the permutation drawn for the splitting front. -/
def exCrRun (PC : (l : ℕ) → Fin l → Fin l) (n : ℕ) : Option (List (Fin 5)) :=
  crSurvival (γ := ℚ) true (fun N F => chainRank N F) (fun N F => chainRank N F) (fun _ F' _ j => F' j 0) exSortQ (fun _ _ => id) exSortQ PC exCr exCrG
    exCrH (exCrSort exCr) [4, 3, 2, 1, 0] (some n)

example : RcOk (m := 2) (α := ℚ) (fun N F => chainRank N F) exSortQ (fun _ _ => id) ∧ (∀ n F, IsParetoRank (fun i j => Dominates (F i) (F j))
    (chainRank (m := 3) n F)) ∧ SortsCV exCr (exCrSort exCr) ∧ exCrRun (fun _ => id) 3 = some [0, 3, 2] :=
  ⟨⟨fun N F => chainRank_ok N F, exSortQ_ok, fun _ _ => Function.bijective_id⟩, fun n F => chainRank_ok n F, exCrSort_ok exCr, by decide +kernel⟩

/-- **C115** (refuted: reproducible with a seed). The splitting front is shuffled by a generator that the caller's seed does not reach: with the same
population and the same seeded random numbers two calls differ. -/
theorem C115_seed_refuted : ∃ PC PC' : (l : ℕ) → Fin l → Fin l, (∀ l, Function.Bijective (PC l)) ∧ (∀ l, Function.Bijective (PC' l)) ∧
    exCrRun PC 2 = some [0, 3] ∧ exCrRun PC' 2 = some [0, 2] :=
  ⟨fun _ => id, fun _ => Fin.rev, fun _ => Function.bijective_id, fun _ => Fin.rev_bijective, by decide +kernel, by decide +kernel⟩

end

end Props
