import Verif.Model.NSGA3
import Verif.Props.IdealNadir
import Verif.Props.NonDominatedSorting
import Mathlib.Data.Fin.VecNotation

/-!
# C34 — NSGA-III: niching and survival
-/

namespace Props
open Model Spec Lemmas

set_option linter.unusedSimpArgs false

/-- The number of members of niche `k` after the individuals `p` were selected. -/
def occupancy (niche count0 : ℕ → ℕ) (p : List ℕ) (k : ℕ) : ℕ := count0 k + p.countP fun i => niche i = k

/-- The selection `S` (in this order) from the individuals `0 .. L-1` follows the niching rule: every pick is an individual that
was not picked before, from a niche with currently the fewest members among the niches of the individuals that are left; if
that niche is still empty, the pick is one of its individuals that are closest to the direction. -/
def FairSelection (L : ℕ) (niche : ℕ → ℕ) (dist : ℕ → ℚ) (count0 : ℕ → ℕ) (S : List ℕ) : Prop :=
  ∀ p s, p ++ [s] <+: S → s < L ∧ s ∉ p ∧
    (∀ i < L, i ∉ p → occupancy niche count0 p (niche s) ≤ occupancy niche count0 p (niche i)) ∧
    (occupancy niche count0 p (niche s) = 0 → ∀ i < L, i ∉ p → niche i = niche s → dist s ≤ dist i)

section
variable {L : ℕ} {niche : ℕ → ℕ} {dist : ℕ → ℚ} {count0 : ℕ → ℕ} {shuffle : ℕ → List ℕ → List ℕ}

theorem fair_snoc (S : List ℕ) (s : ℕ) (h : FairSelection L niche dist count0 S) (hs : s < L) (hS : s ∉ S)
    (h1 : ∀ i < L, i ∉ S → occupancy niche count0 S (niche s) ≤ occupancy niche count0 S (niche i))
    (h2 : occupancy niche count0 S (niche s) = 0 → ∀ i < L, i ∉ S → niche i = niche s → dist s ≤ dist i) :
    FairSelection L niche dist count0 (S ++ [s]) := by
  intro p t hp
  rcases List.prefix_concat_iff.1 hp with h' | h'
  · obtain ⟨rfl, h''⟩ := List.append_inj' h' rfl
    simp only [List.cons.injEq, and_true] at h''
    subst h''
    exact ⟨hs, hS, h1, h2⟩
  · exact h p t h'

theorem fair_nodup (S : List ℕ) (h : FairSelection L niche dist count0 S) : S.Nodup ∧ ∀ s ∈ S, s < L := by
  induction S using List.reverseRecOn with
  | nil => simp
  | append_singleton S s ih =>
    obtain ⟨h1, h2⟩ := ih fun p t hp => h p t (hp.trans (List.prefix_append _ _))
    obtain ⟨h3, h4, -, -⟩ := h S s (List.prefix_refl _)
    constructor
    · rw [List.nodup_append]
      refine ⟨h1, by simp, ?_⟩
      intro a ha b hb
      rw [List.mem_singleton] at hb
      subst hb
      exact fun hc => h4 (hc ▸ ha)
    · intro x hx
      rcases List.mem_append.1 hx with hx | hx
      · exact h2 x hx
      · rw [List.mem_singleton.1 hx]; exact h3

theorem argminBy_spec (l : List ℕ) (hne : l ≠ []) : ∃ i, argminBy dist l = some i ∧ i ∈ l ∧ ∀ j ∈ l, dist i ≤ dist j := by
  obtain ⟨a, t, rfl⟩ := List.exists_cons_of_ne_nil hne
  have : ∀ (t : List ℕ) (a : ℕ), (t.foldl (fun b i => if dist i < dist b then i else b) a) ∈ a :: t ∧
      ∀ j ∈ a :: t, dist (t.foldl (fun b i => if dist i < dist b then i else b) a) ≤ dist j := by
    intro t
    induction t with
    | nil => intro a; simp
    | cons b t ih =>
      intro a
      simp only [List.foldl_cons]
      by_cases hb : dist b < dist a
      · rw [if_pos hb]
        obtain ⟨h1, h2⟩ := ih b
        refine ⟨List.mem_cons_of_mem _ h1, fun j hj => ?_⟩
        rcases List.mem_cons.1 hj with rfl | hj
        · exact (h2 b (by simp)).trans hb.le
        · exact h2 j hj
      · rw [if_neg hb]
        obtain ⟨h1, h2⟩ := ih a
        refine ⟨?_, fun j hj => ?_⟩
        · rcases List.mem_cons.1 h1 with h1 | h1
          · rw [h1]; simp
          · exact List.mem_cons_of_mem _ (List.mem_cons_of_mem _ h1)
        · rcases List.mem_cons.1 hj with rfl | hj
          · exact h2 _ (by simp)
          · rcases List.mem_cons.1 hj with rfl | hj
            · exact (h2 a (by simp)).trans (not_lt.1 hb)
            · exact h2 j (by simp [hj])
  exact ⟨_, rfl, this t a⟩

/-- What holds of the local variables between two selections. -/
structure NichInv (L : ℕ) (niche : ℕ → ℕ) (dist : ℕ → ℚ) (count0 : ℕ → ℕ) (st : NichState) : Prop where
  mask : ∀ i, st.mask i = true ↔ i ∉ st.survivors
  count : ∀ k, st.count k = occupancy niche count0 st.survivors k
  fair : FairSelection L niche dist count0 st.survivors

theorem nicheInner_spec (hsh : ∀ t l, (shuffle t l).Perm l) (ks : List ℕ) (c : ℕ) (st : NichState)
    (hinv : NichInv L niche dist count0 st) (hnd : ks.Nodup)
    (hks : ∀ k ∈ ks, st.count k = c ∧ ∃ i < L, st.mask i = true ∧ niche i = k)
    (hmin : ∀ i < L, st.mask i = true → c ≤ st.count (niche i)) :
    ∃ st', nicheInner L niche dist shuffle ks st = some st' ∧ NichInv L niche dist count0 st' ∧
      st'.survivors.length = st.survivors.length + ks.length := by
  induction ks generalizing st with
  | nil => exact ⟨st, rfl, hinv, by simp⟩
  | cons k ks ih =>
    obtain ⟨hck, i0, hi0, hm0, hn0⟩ := hks k (by simp)
    set base := (List.range L).filter fun i => decide (niche i = k) && st.mask i with hbase
    set ind := shuffle st.draws base with hind
    have hmem : ∀ i, i ∈ ind ↔ i < L ∧ niche i = k ∧ st.mask i = true := by
      intro i
      rw [hind, (hsh _ _).mem_iff, hbase]
      simp
    have hne : ind ≠ [] := by
      intro h0
      have := (hmem i0).2 ⟨hi0, hn0, hm0⟩
      rw [h0] at this; simp at this
    have hpick : ∃ s, (if st.count k = 0 then argminBy dist ind else ind.head?) = some s ∧ s ∈ ind ∧
        (st.count k = 0 → ∀ j ∈ ind, dist s ≤ dist j) := by
      by_cases h0 : st.count k = 0
      · rw [if_pos h0]
        obtain ⟨s, h1, h2, h3⟩ := argminBy_spec (dist := dist) ind hne
        exact ⟨s, h1, h2, fun _ => h3⟩
      · rw [if_neg h0]
        obtain ⟨a, t, ht⟩ := List.exists_cons_of_ne_nil hne
        exact ⟨a, by rw [ht]; rfl, by rw [ht]; simp, fun h => absurd h h0⟩
    obtain ⟨s, hs1, hs2, hs3⟩ := hpick
    obtain ⟨hsL, hsk, hsm⟩ := (hmem s).1 hs2
    set st1 : NichState := ⟨st.survivors ++ [s], Function.update st.mask s false,
      Function.update st.count k (st.count k + 1), st.draws + 1⟩ with hst1
    have hinv1 : NichInv L niche dist count0 st1 := by
      refine ⟨?_, ?_, ?_⟩
      · intro i
        simp only [hst1, Function.update_apply, List.mem_append, List.mem_singleton, not_or]
        split_ifs with h
        · simp [h]
        · rw [hinv.mask]; simp [h]
      · intro q
        simp only [hst1, Function.update_apply, occupancy, List.countP_append, List.countP_singleton]
        by_cases h : q = k
        · subst h
          rw [if_pos rfl, hinv.count]
          simp [occupancy, hsk]
          omega
        · rw [if_neg h, hinv.count]
          have : ¬ niche s = q := by rw [hsk]; exact fun hc => h hc.symm
          simp [occupancy, this]
      · refine fair_snoc _ _ hinv.fair hsL ((hinv.mask s).1 hsm) ?_ ?_
        · intro i hi hin
          rw [← hinv.count, ← hinv.count, hsk, hck]
          exact hmin i hi ((hinv.mask i).2 hin)
        · intro h0 i hi hin hni
          rw [← hinv.count, hsk] at h0
          exact hs3 h0 i ((hmem i).2 ⟨hi, by rw [hni, hsk], (hinv.mask i).2 hin⟩)
    have hkn : k ∉ ks := (List.nodup_cons.1 hnd).1
    obtain ⟨st', h1, h2, h3⟩ := ih st1 hinv1 (List.nodup_cons.1 hnd).2 (by
      intro q hq
      obtain ⟨hq1, i, hi, hmi, hni⟩ := hks q (by simp [hq])
      have hqk : q ≠ k := fun h => hkn (h ▸ hq)
      refine ⟨by simp [hst1, Function.update_apply, hqk, hq1], i, hi, ?_, hni⟩
      have : i ≠ s := by
        rintro rfl
        exact hqk (by rw [← hni, hsk])
      simp [hst1, Function.update_apply, this, hmi]) (by
      intro i hi hmi
      simp only [hst1, Function.update_apply] at hmi ⊢
      split_ifs at hmi with h
      have := hmin i hi hmi
      split_ifs with hk
      · rw [hck]; omega
      · exact this)
    refine ⟨st', ?_, h2, ?_⟩
    · simp only [nicheInner, ← hbase, ← hind, hs1, Option.bind_some]
      exact h1
    · rw [h3]; simp [hst1]; omega

/-- C34. `niching` from the last front of `L` individuals with at least `n_remaining` of them, for any association and niche
counts, and for every outcome of the random permutations: it ends, after at most `n_remaining` rounds of its loop, with exactly
`n_remaining` distinct individuals selected by the niching rule, and the niche counts are increased by the selected members. -/
theorem C34_niching (hsh : ∀ t l, (shuffle t l).Perm l) (n fuel : ℕ) (hn : n ≤ L) (hf : n ≤ fuel) :
    ∃ st, niching L niche dist shuffle count0 n fuel = some st ∧ st.survivors.length = n ∧ st.survivors.Nodup ∧
      (∀ s ∈ st.survivors, s < L) ∧ FairSelection L niche dist count0 st.survivors ∧
      ∀ k, st.count k = count0 k + st.survivors.countP fun i => niche i = k := by
  have main : ∀ (fuel : ℕ) (st : NichState), NichInv L niche dist count0 st → st.survivors.length ≤ n →
      n ≤ st.survivors.length + fuel →
      ∃ st', nichingLoop L niche dist shuffle n fuel st = some st' ∧ NichInv L niche dist count0 st' ∧
        st'.survivors.length = n := by
    intro fuel
    induction fuel with
    | zero =>
      intro st hinv hle hlt
      refine ⟨st, ?_, hinv, by omega⟩
      rw [nichingLoop, if_neg (by omega)]
    | succ fuel ih =>
      intro st hinv hle hlt
      rw [nichingLoop]
      by_cases hlen : st.survivors.length < n
      · rw [if_pos hlen]
        simp only
        set niches := (((List.range L).filter st.mask).map niche).dedup.insertionSort (· ≤ ·) with hniches
        have hperm := List.perm_insertionSort (· ≤ ·) ((((List.range L).filter st.mask).map niche).dedup)
        have hmem : ∀ k, k ∈ niches ↔ ∃ i < L, st.mask i = true ∧ niche i = k := by
          intro k
          rw [hniches, hperm.mem_iff, List.mem_dedup, List.mem_map]
          simp [and_assoc]
        have hnodup : niches.Nodup := hperm.nodup_iff.2 (List.nodup_dedup _)
        -- an individual is left
        have hleft : ∃ i < L, st.mask i = true := by
          by_contra hno
          push Not at hno
          have hsub : List.range L ⊆ st.survivors := by
            intro i hi
            by_contra hc
            exact hno i (List.mem_range.1 hi) ((hinv.mask i).2 hc)
          have := (List.nodup_range.subperm hsub).length_le
          simp at this
          omega
        obtain ⟨i0, hi0, hm0⟩ := hleft
        have hk0 : niche i0 ∈ niches := (hmem _).2 ⟨i0, hi0, hm0, rfl⟩
        have hne : niches.map st.count ≠ [] := by
          intro h
          rw [List.map_eq_nil_iff.1 h] at hk0
          simp at hk0
        obtain ⟨c, hc⟩ : ∃ c, (niches.map st.count).min? = some c := by
          rcases h : (niches.map st.count).min? with _ | c
          · exact absurd (List.min?_eq_none_iff.1 h) hne
          · exact ⟨c, rfl⟩
        rw [hc, Option.bind_some]
        obtain ⟨hc1, hc2⟩ := List.min?_eq_some_iff.1 hc
        obtain ⟨kc, hkc, hkc2⟩ := List.mem_map.1 hc1
        set cand := niches.filter fun k => decide (st.count k = c) with hcand
        set next := (shuffle st.draws cand).take (n - st.survivors.length) with hnext
        have hnm : ∀ k ∈ next, k ∈ niches ∧ st.count k = c := by
          intro k hk
          have := (hsh _ _).mem_iff.1 (List.mem_of_mem_take hk)
          rw [hcand] at this
          simpa using this
        have hnd : next.Nodup := by
          have : (shuffle st.draws cand).Nodup := (hsh _ _).nodup_iff.2 (hnodup.filter _)
          exact this.sublist (List.take_sublist _ _)
        have hpos : 0 < next.length := by
          have h1 : kc ∈ cand := by rw [hcand]; simp [hkc, hkc2]
          have h2 : 0 < cand.length := List.length_pos_of_mem h1
          have h3 := (hsh st.draws cand).length_eq
          rw [hnext, List.length_take]
          omega
        have hlenext : next.length ≤ n - st.survivors.length := by
          rw [hnext, List.length_take]; omega
        obtain ⟨st', h1, h2, h3⟩ := nicheInner_spec (shuffle := shuffle) hsh next c { st with draws := st.draws + 1 }
          ⟨hinv.mask, hinv.count, hinv.fair⟩ hnd (fun k hk => ⟨(hnm k hk).2, by
            obtain ⟨i, hi, hmi, hni⟩ := (hmem k).1 (hnm k hk).1
            exact ⟨i, hi, hmi, hni⟩⟩) (fun i hi hmi => hc2 _ (List.mem_map.2 ⟨niche i, (hmem _).2 ⟨i, hi, hmi, rfl⟩, rfl⟩))
        rw [h1, Option.bind_some]
        simp only at h3
        exact ih st' h2 (by omega) (by omega)
      · rw [if_neg hlen]
        exact ⟨st, rfl, hinv, by omega⟩
  obtain ⟨st, h1, h2, h3⟩ := main fuel ⟨[], fun _ => true, count0, 0⟩
    ⟨by simp, by simp [occupancy], by intro p s hp; simp at hp⟩ (by simp) (by simpa using hf)
  obtain ⟨h4, h5⟩ := fair_nodup _ h2.fair
  exact ⟨st, h1, h3, h4, h5, h2.fair, h2.count⟩

example : ((niching 5 (fun i => [0, 0, 1, 2, 2].getD i 0) (fun i => [3, 1, 2, 5, 4].getD i 0) (fun _ l => l.reverse)
    (fun k => [1, 0, 0].getD k 0) 4 4).map fun st => (st.survivors, (List.range 3).map st.count)) =
      some ([4, 2, 3, 1], [2, 1, 2]) := by decide +kernel

/-- C34. With fewer individuals than requested the code raises (the minimum of an empty array): there is no result. -/
theorem C34_niching_too_few (hsh : ∀ t l, (shuffle t l).Perm l) (fuel n : ℕ) (hn : L < n) :
    niching L niche dist shuffle count0 n fuel = none := by
  have inner : ∀ (ks : List ℕ) (st st' : NichState), st.survivors.Nodup → (∀ s ∈ st.survivors, s < L) →
      (∀ i, st.mask i = true → i ∉ st.survivors) →
      nicheInner L niche dist shuffle ks st = some st' →
      st'.survivors.Nodup ∧ (∀ s ∈ st'.survivors, s < L) ∧ (∀ i, st'.mask i = true → i ∉ st'.survivors) := by
    intro ks
    induction ks with
    | nil => intro st st' h1 h2 h3 h; simp only [nicheInner, Option.some.injEq] at h; subst h; exact ⟨h1, h2, h3⟩
    | cons k ks ih =>
      intro st st' h1 h2 h3 h
      simp only [nicheInner, Option.bind_eq_some_iff] at h
      obtain ⟨s, hs, h⟩ := h
      have hmem : s ∈ shuffle st.draws ((List.range L).filter fun i => decide (niche i = k) && st.mask i) := by
        split_ifs at hs
        · by_cases hne : shuffle st.draws ((List.range L).filter fun i => decide (niche i = k) && st.mask i) = []
          · rw [hne] at hs; cases hs
          · obtain ⟨i, hi, hi2, -⟩ := argminBy_spec (dist := dist) _ hne
            rw [hi] at hs; cases hs; exact hi2
        · exact List.mem_of_mem_head? hs
      rw [(hsh _ _).mem_iff] at hmem
      simp at hmem
      refine ih _ _ ?_ ?_ ?_ h
      · rw [List.nodup_append]
        refine ⟨h1, by simp, ?_⟩
        intro a ha b hb
        rw [List.mem_singleton] at hb
        subst hb
        exact fun hc => h3 _ hmem.2.2 (hc ▸ ha)
      · intro x hx
        rcases List.mem_append.1 hx with hx | hx
        · exact h2 x hx
        · rw [List.mem_singleton.1 hx]; exact hmem.1
      · intro i hi hc
        simp only [Function.update_apply] at hi
        split_ifs at hi with hs'
        rcases List.mem_append.1 hc with hc | hc
        · exact h3 i hi hc
        · exact hs' (List.mem_singleton.1 hc)
  have main : ∀ (fuel : ℕ) (st : NichState), st.survivors.Nodup → (∀ s ∈ st.survivors, s < L) →
      (∀ i, st.mask i = true → i ∉ st.survivors) → nichingLoop L niche dist shuffle n fuel st = none := by
    intro fuel
    induction fuel with
    | zero =>
      intro st h1 h2 _
      have hl : st.survivors.length ≤ L := by
        have := (h1.subperm (l₂ := List.range L) fun x hx => List.mem_range.2 (h2 x hx)).length_le
        simpa using this
      rw [nichingLoop, if_pos (by omega)]
    | succ fuel ih =>
      intro st h1 h2 h3
      have hl : st.survivors.length ≤ L := by
        have := (h1.subperm (l₂ := List.range L) fun x hx => List.mem_range.2 (h2 x hx)).length_le
        simpa using this
      rw [nichingLoop, if_pos (by omega)]
      simp only [Option.bind_eq_none_iff]
      intro c _ st' hst'
      obtain ⟨g1, g2, g3⟩ := inner _ { st with draws := st.draws + 1 } st' h1 h2 h3 hst'
      exact ih st' g1 g2 g3
  exact main fuel _ (by simp) (by simp) (by simp)

example : (niching 2 (fun _ => 0) (fun _ => 0) (fun _ l => l) (fun _ => 0) 3 9).isNone := by decide +kernel

end

/-- C34. The niche of an individual is a direction with the smallest distance in its row. -/
theorem C34_niche_of (row : List ℚ) (hne : row ≠ []) : ∃ h : nicheOf row < row.length, ∀ x ∈ row, row[nicheOf row] ≤ x :=
  argminFirst_spec row hne

theorem filterMap_getElem_range {α : Type*} (l : List α) (n : ℕ) (hn : n ≤ l.length) :
    (List.range n).filterMap (fun p => l[p]?) = l.take n := by
  induction n with
  | zero => simp
  | succ n ih =>
    rw [List.range_succ, List.filterMap_append, ih (by omega)]
    have : l[n]? = some l[n] := List.getElem?_eq_getElem (by omega)
    simp only [List.filterMap_cons, this, List.filterMap_nil]
    rw [List.take_concat_get' l n]

theorem filterMap_length_of {α : Type*} (l : List α) (S : List ℕ) (h : ∀ s ∈ S, s < l.length) :
    (S.filterMap fun p => l[p]?).length = S.length := by
  induction S with
  | nil => rfl
  | cons a S ih =>
    have : l[a]? = some (l[a]'(h a (by simp))) := List.getElem?_eq_getElem _
    rw [List.filterMap_cons, this]
    simp [ih fun s hs => h s (by simp [hs])]

theorem filterMap_nodup_of {α : Type*} (l : List α) (hl : l.Nodup) (S : List ℕ) (hS : S.Nodup) :
    (S.filterMap fun p => l[p]?).Nodup := by
  apply List.Nodup.filterMap _ hS
  intro a b x hx hy
  obtain ⟨h1, h2⟩ := List.getElem?_eq_some_iff.1 hx
  obtain ⟨h3, h4⟩ := List.getElem?_eq_some_iff.1 hy
  exact (List.Nodup.getElem_inj_iff hl).1 (h2.trans h4.symm)

/-- C34. NSGA-III's survival on a population of `N ≥ n_survive ≥ 1` individuals: given the Pareto fronts cut at the first one that ranks
enough points, any distance matrix and any random permutations, exactly `n_survive` distinct individuals survive, all
individuals of a better front than some survivor survive, and the reported optimum is a non-empty part of the first front. -/
theorem C34_survival {N : ℕ} (dom : Fin N → Fin N → Prop) (all fronts : List (List (Fin N)))
    (hall : CanonicalFronts dom all) (n : ℕ) (hn : n ≤ N) (hn1 : 0 < n) (hfr : ShortestPrefix n all fronts)
    (D : Fin N → List ℚ) (shuffle : ℕ → List ℕ → List ℕ) (hsh : ∀ t l, (shuffle t l).Perm l) (fuel : ℕ) (hfuel : n ≤ fuel) :
    ∃ surv opt, nsga3Survive fronts D shuffle n fuel = some (surv, opt) ∧ surv.length = n ∧ surv.Nodup ∧
      (∀ k l (hk : k < all.length) (hl : l < all.length), k < l → ∀ i ∈ all[l], i ∈ surv → ∀ j ∈ all[k], j ∈ surv) ∧
      opt ≠ [] ∧ ∀ i ∈ opt, ∀ j, ¬ dom j i := by
  have hlenall : all.flatten.length = N := by
    have h1 : all.flatten.Perm (List.finRange N) := by
      rw [List.perm_ext_iff_of_nodup hall.nodup (List.nodup_finRange N)]
      intro i; simp [hall.complete i]
    simpa using h1.length_eq
  have hallne : all ≠ [] := by rintro rfl; simp at hlenall; omega
  have hfne := hfr.nonempty hallne
  rcases List.eq_nil_or_concat fronts with h0 | ⟨p, f, hpf⟩
  · exact absurd h0 hfne
  rw [List.concat_eq_append] at hpf
  obtain ⟨t, ht⟩ := hfr.isPrefix
  have hnd : fronts.flatten.Nodup := by
    have := hall.nodup
    rw [← ht, List.flatten_append] at this
    exact (List.nodup_append.1 this).1
  have hfit : p.flatten.length < n ∨ p = [] := by
    by_cases hp : p = []
    · exact Or.inr hp
    · exact Or.inl (hfr.minimal p ⟨[f] ++ t, by rw [← ht, hpf]; simp⟩ hp (by rw [hpf]; simp))
  have hen : n ≤ fronts.flatten.length := by
    rcases hfr.enough with h | h
    · exact h
    · rw [h, hlenall]; exact hn
  have hdrop : fronts.dropLast = p := by rw [hpf]; simp
  have hflat : fronts.flatten = p.flatten ++ f := by rw [hpf]; simp
  -- the reported optimum
  have hhead : ∃ f0 rest, fronts = f0 :: rest ∧ f0 ≠ [] ∧ ∀ i ∈ f0, ∀ j, ¬ dom j i := by
    obtain ⟨f0, rest, hf0⟩ := List.exists_cons_of_ne_nil hfne
    have hall0 : all = f0 :: (rest ++ t) := by rw [← ht, hf0]; rfl
    refine ⟨f0, rest, hf0, hall.nonempty f0 (by rw [hall0]; simp), ?_⟩
    intro i hi j hj
    have := (hall.level 0 (by rw [hall0]; simp) i).1 (by simp [hall0, hi])
    exact absurd (this.2 j hj) (by simp)
  obtain ⟨f0, rest, hf0, hf0ne, hf0dom⟩ := hhead
  have hopt : ∀ S : List ℕ, S ≠ [] → (∀ s ∈ S, s < f0.length) →
      (S.filterMap fun q => fronts.flatten[q]?) ≠ [] ∧ ∀ i ∈ S.filterMap fun q => fronts.flatten[q]?, ∀ j, ¬ dom j i := by
    intro S hS hlt
    have hge : ∀ s ∈ S, ∃ i ∈ f0, fronts.flatten[s]? = some i := by
      intro s hs
      refine ⟨f0[s]'(hlt s hs), List.getElem_mem _, ?_⟩
      rw [hf0, List.flatten_cons, List.getElem?_append_left (hlt s hs), List.getElem?_eq_getElem]
    constructor
    · obtain ⟨a, S', rfl⟩ := List.exists_cons_of_ne_nil hS
      obtain ⟨i, -, hi⟩ := hge a (by simp)
      rw [List.filterMap_cons, hi]
      simp
    · intro i hi
      obtain ⟨s, hs, hs2⟩ := List.mem_filterMap.1 hi
      obtain ⟨i', hi', hi2⟩ := hge s hs
      rw [hs2] at hi2
      cases hi2
      exact hf0dom i hi'
  -- abbreviations of the code's locals
  generalize hrow : (fun q : ℕ => ((fronts.flatten[q]?).map D).getD []) = row
  set niche := fun q => nicheOf (row q) with hniche
  set dist := fun q => (row q).getD (niche q) 0 with hdist
  set closest := (((List.range fronts.flatten.length).map niche).dedup).map fun k =>
    argminFirst ((List.range fronts.flatten.length).map fun q => (row q).getD k 0) with hclosest
  set first := List.range (fronts.headD []).length with hfirst
  have hfirst' : first = List.range f0.length := by rw [hfirst, hf0]; rfl
  set opt0 := first.filter fun q => decide (q ∈ closest) with hopt0
  set O := (if opt0.length = 0 then first else opt0) with hO
  have hOne : O ≠ [] := by
    rw [hO]
    split_ifs with h
    · rw [hfirst']
      intro hc
      rw [List.range_eq_nil, List.length_eq_zero_iff] at hc
      exact hf0ne hc
    · intro hc; rw [hc] at h; simp at h
  have hOlt : ∀ s ∈ O, s < f0.length := by
    intro s hs
    rw [hO] at hs
    split_ifs at hs
    · rw [hfirst'] at hs; exact List.mem_range.1 hs
    · have := List.mem_of_mem_filter hs
      rw [hfirst'] at this; exact List.mem_range.1 this
  obtain ⟨ho1, ho2⟩ := hopt O hOne hOlt
  -- fronts before the last one are kept
  have hkeep : ∀ surv : List (Fin N), (∀ i ∈ p.flatten, i ∈ surv) → (∀ i ∈ surv, i ∈ fronts.flatten) →
      ∀ k l (hk : k < all.length) (hl : l < all.length), k < l → ∀ i ∈ all[l], i ∈ surv → ∀ j ∈ all[k], j ∈ surv := by
    intro surv hs1 hs2 k l hk hl hkl i hi his j hj
    have hif := hs2 i his
    -- the front of `i` is one of `fronts`
    have hlf : l < fronts.length := by
      by_contra hc
      push Not at hc
      have h1 : i ∈ t.flatten := by
        have : all[l] ∈ t := by
          have h2 : all[l] = t[l - fronts.length]'(by
              have := congrArg List.length ht; simp at this; omega) := by
            simp only [← ht]
            rw [List.getElem_append_right hc]
          rw [h2]; exact List.getElem_mem _
        exact List.mem_flatten.2 ⟨_, this, hi⟩
      have := hall.nodup
      rw [← ht, List.flatten_append, List.nodup_append] at this
      exact this.2.2 i hif i h1 rfl
    have hkp : k < p.length := by rw [hpf] at hlf; simp at hlf; omega
    have : all[k] = p[k] := by
      simp only [← ht, hpf]
      rw [List.getElem_append_left (by simp; omega), List.getElem_append_left hkp]
    rw [this] at hj
    exact hs1 j (List.mem_flatten.2 ⟨_, List.getElem_mem hkp, hj⟩)
  by_cases hlt : n < fronts.flatten.length
  · -- niching
    set nUntil := p.flatten.length with hnU
    have hl : fronts.flatten.length - nUntil = f.length := by rw [hflat]; simp [hnU]
    have hnr : (if fronts.length = 1 then n else n - nUntil) = n - nUntil := by
      split_ifs with h1
      · have : p = [] := by
          rw [hpf] at h1; simp at h1; exact h1
        simp [hnU, this]
      · rfl
    have hle : n - nUntil ≤ fronts.flatten.length - nUntil := by omega
    obtain ⟨st, g1, g2, g3, g4, -, -⟩ := C34_niching (L := fronts.flatten.length - nUntil)
      (niche := fun q => niche (nUntil + q)) (dist := fun q => dist (nUntil + q))
      (count0 := if fronts.length = 1 then fun _ => 0 else calcNicheCount ((List.range nUntil).map niche))
      (shuffle := shuffle) hsh (n - nUntil) fuel hle (by omega)
    set S := List.range nUntil ++ st.survivors.map (nUntil + ·) with hS
    have hSlt : ∀ s ∈ S, s < fronts.flatten.length := by
      intro s hs
      rcases List.mem_append.1 hs with h | h
      · have := List.mem_range.1 h; rw [hflat, List.length_append]; omega
      · obtain ⟨a, ha, rfl⟩ := List.mem_map.1 h
        have := g4 a ha
        omega
    have hSnd : S.Nodup := by
      rw [hS, List.nodup_append]
      refine ⟨List.nodup_range, (List.nodup_map_iff (fun a b hab => by simpa using hab)).2 g3, ?_⟩
      intro a ha b hb hab
      obtain ⟨c, -, rfl⟩ := List.mem_map.1 hb
      have := List.mem_range.1 ha
      omega
    refine ⟨S.filterMap fun q => fronts.flatten[q]?, O.filterMap fun q => fronts.flatten[q]?, ?_, ?_, ?_, ?_, ho1, ho2⟩
    · unfold nsga3Survive
      subst hrow
      simp only
      rw [if_pos hlt, hdrop, hnr]
      exact congrArg (Option.map _) g1
    · rw [filterMap_length_of _ _ hSlt, hS]
      simp only [List.length_append, List.length_range, List.length_map, g2]
      rcases hfit with h | h
      · omega
      · simp [hnU, h]
    · exact filterMap_nodup_of _ hnd _ hSnd
    · apply hkeep
      · intro i hi
        rw [hS, List.filterMap_append, filterMap_getElem_range _ _ (by rw [hflat, List.length_append]; omega), hflat,
          hnU, List.take_left]
        exact List.mem_append_left _ hi
      · intro i hi
        obtain ⟨s, -, hs⟩ := List.mem_filterMap.1 hi
        exact List.mem_of_getElem? hs
  · refine ⟨fronts.flatten, O.filterMap fun q => fronts.flatten[q]?, ?_, by omega, hnd, ?_, ho1, ho2⟩
    · unfold nsga3Survive
      subst hrow
      simp only
      rw [if_neg hlt]
    · apply hkeep
      · intro i hi
        rw [hflat]; exact List.mem_append_left _ hi
      · exact fun i hi => hi

theorem fair_congr {L : ℕ} {n1 n2 : ℕ → ℕ} {d1 d2 : ℕ → ℚ} {c1 c2 : ℕ → ℕ} (S : List ℕ) (hn : ∀ i < L, n1 i = n2 i)
    (hd : ∀ i < L, d1 i = d2 i) (hc : ∀ k, c1 k = c2 k) (h : FairSelection L n1 d1 c1 S) : FairSelection L n2 d2 c2 S := by
  have hS := (fair_nodup S h).2
  intro p s hp
  obtain ⟨h1, h2, h3, h4⟩ := h p s hp
  have hpL : ∀ i ∈ p, i < L := fun i hi => hS i (hp.subset (List.mem_append_left _ hi))
  have hocc : ∀ k, occupancy n1 c1 p k = occupancy n2 c2 p k := by
    intro k
    unfold occupancy
    rw [hc k]
    congr 1
    apply List.countP_congr
    intro i hi
    rw [hn i (hpL i hi)]
  refine ⟨h1, h2, fun i hi hip => ?_, fun h0 i hi hip hni => ?_⟩
  · rw [← hn s h1, ← hn i hi, ← hocc, ← hocc]; exact h3 i hi hip
  · rw [← hd s h1, ← hd i hi]
    exact h4 (by rw [hocc, hn s h1]; exact h0) i hi hip (by rw [hn i hi, hn s h1]; exact hni)

/-- C34. Which individuals of the cut front `f` survive: the fronts `p` before it survive completely, and the rest is selected
from `f` by the niching rule, with niche counts that start with the members of `p`. The niche of an individual is its closest
direction, its distance the one to this direction. -/
theorem C34_survival_fair {N : ℕ} (p : List (List (Fin N))) (f : List (Fin N)) (n : ℕ) (hp : p.flatten.length ≤ n)
    (hlt : n < (p.flatten ++ f).length) (D : Fin N → List ℚ) (shuffle : ℕ → List ℕ → List ℕ)
    (hsh : ∀ t l, (shuffle t l).Perm l) (fuel : ℕ) (hfuel : n ≤ fuel) :
    ∃ opt S, nsga3Survive (p ++ [f]) D shuffle n fuel = some (p.flatten ++ S.filterMap fun q => f[q]?, opt) ∧
      p.flatten.length + S.length = n ∧
      FairSelection f.length (fun q => ((f[q]?).map fun i => nicheOf (D i)).getD 0)
        (fun q => ((f[q]?).map fun i => (D i).getD (nicheOf (D i)) 0).getD 0)
        (fun k => p.flatten.countP fun i => nicheOf (D i) = k) S := by
  have hflat : (p ++ [f]).flatten = p.flatten ++ f := by simp
  have hdrop : (p ++ [f]).dropLast = p := by simp
  set nU := p.flatten.length with hnU
  set row := fun q : ℕ => ((((p ++ [f]).flatten)[q]?).map D).getD [] with hrow
  set niche := fun q => nicheOf (row q) with hniche
  set dist := fun q => (row q).getD (niche q) 0 with hdist
  have hnr : (if (p ++ [f]).length = 1 then n else n - nU) = n - nU := by
    split_ifs with h1
    · have : p = [] := by simpa using h1
      simp [hnU, this]
    · rfl
  have hL : (p ++ [f]).flatten.length - nU = f.length := by rw [hflat, List.length_append]; omega
  have hlt' : n < (p ++ [f]).flatten.length := by rw [hflat]; exact hlt
  obtain ⟨st, g1, g2, g3, g4, g5, -⟩ := C34_niching (L := (p ++ [f]).flatten.length - nU)
    (niche := fun q => niche (nU + q)) (dist := fun q => dist (nU + q))
    (count0 := if (p ++ [f]).length = 1 then fun _ => 0 else calcNicheCount ((List.range nU).map niche))
    (shuffle := shuffle) hsh (n - nU) fuel (by omega) (by omega)
  have hrowf : ∀ q < f.length, ∃ i, f[q]? = some i ∧ row (nU + q) = D i := by
    intro q hq
    refine ⟨f[q], List.getElem?_eq_getElem hq, ?_⟩
    simp only [hrow, hflat]
    rw [List.getElem?_append_right (by omega), hnU, Nat.add_sub_cancel_left, List.getElem?_eq_getElem hq]
    rfl
  have hmapniche : (List.range nU).map niche = p.flatten.map fun i => nicheOf (D i) := by
    apply List.ext_getElem (by rw [List.length_map, List.length_map, List.length_range])
    intro q h1 h2
    have hq : q < nU := by simpa using h1
    simp only [List.getElem_map, List.getElem_range, hniche, hrow, hflat]
    rw [List.getElem?_append_left hq, List.getElem?_eq_getElem hq]
    rfl
  have key : ∀ opt : List (Fin N), (p ++ [f]).flatten.length = (p ++ [f]).flatten.length →
      ((List.range nU ++ st.survivors.map (nU + ·)).filterMap fun q => ((p ++ [f]).flatten)[q]?, opt) =
        (p.flatten ++ st.survivors.filterMap fun q => f[q]?, opt) := by
    intro opt _
    congr 1
    rw [List.filterMap_append, filterMap_getElem_range _ _ (by omega), hflat, hnU, List.take_left, List.filterMap_map]
    congr 1
    apply List.filterMap_congr
    intro q _
    simp only [Function.comp]
    rw [List.getElem?_append_right (by omega), Nat.add_sub_cancel_left]
  have hex : ∃ opt, nsga3Survive (p ++ [f]) D shuffle n fuel = some (p.flatten ++ st.survivors.filterMap fun q => f[q]?, opt) := by
    unfold nsga3Survive
    simp only
    rw [if_pos hlt', hdrop, hnr]
    have key' : ∀ (o : List (Fin N)) (x : Option NichState), x = some st → ∃ opt, x.map (fun st : NichState =>
        ((List.range p.flatten.length ++ st.survivors.map (p.flatten.length + ·)).filterMap fun q => ((p ++ [f]).flatten)[q]?, o)) =
        some (p.flatten ++ st.survivors.filterMap fun q => f[q]?, opt) := by
      rintro o x rfl
      exact ⟨o, congrArg some (key o rfl)⟩
    exact key' _ _ g1
  obtain ⟨opt, hopt⟩ := hex
  refine ⟨opt, st.survivors, hopt, by omega, ?_⟩
  · rw [hL] at g5
    refine fair_congr _ ?_ ?_ ?_ g5
    · intro q hq
      obtain ⟨i, hi, hr⟩ := hrowf q hq
      simp only [hniche, hr, hi, Option.map_some, Option.getD_some]
    · intro q hq
      obtain ⟨i, hi, hr⟩ := hrowf q hq
      simp only [hdist, hniche, hr, hi, Option.map_some, Option.getD_some]
    · intro k
      split_ifs with h1
      · have : p = [] := by simpa using h1
        simp [this]
      · simp only [calcNicheCount, hmapniche]
        rw [List.count, List.countP_map]
        apply List.countP_congr
        intro i _
        simp

example : ([[0, 1]] : List (List (Fin 5))).flatten.length ≤ 3 ∧ 3 < (([[0, 1]] : List (List (Fin 5))).flatten ++ [2, 3, 4]).length := by
  decide

/-- Five individuals, the second front is cut. -/
example : (nsga3Survive ([[0, 1], [2, 3, 4]] : List (List (Fin 5)))
      (fun i => ![[0, 5], [4, 1], [1, 6], [2, 3], [9, 2]] i) (fun _ l => l) 3 3) = some ([0, 1, 2], [0, 1]) ∧
    CanonicalFronts (fun i j : Fin 5 => Dominates (![![0, 4], ![4, 0], ![1, 5], ![5, 1], ![4, 4]] i)
      (![![0, 4], ![4, 0], ![1, 5], ![5, 1], ![4, 4]] j : Fin 2 → ℕ)) [[0, 1], [2, 3, 4]] := by
  constructor
  · decide +kernel
  · refine ⟨by decide, by decide, by decide, ?_⟩
    intro k hk i
    have : k = 0 ∨ k = 1 := by simp at hk; omega
    rcases this with rfl | rfl <;> revert i <;> revert hk <;> decide

/-- The reported optimum need not be part of the surviving population: three non-dominated points `(1, 0)`, `(0.6, 0.2)`,
`(0, 1)`, two directions `(1, 0)` and `(1, 1)`, two survivors. The second point is the closest to the second direction and
is reported, but it belongs to the first niche and does not survive. (The matrix has the squares of the distances.) -/
theorem C34_opt_outside_population : ∃ (D : Fin 3 → List ℚ) (shuffle : ℕ → List ℕ → List ℕ), (∀ t l, (shuffle t l).Perm l) ∧
    nsga3Survive [[0, 1, 2]] D shuffle 2 2 = some ([0, 2], [0, 1]) := by
  refine ⟨![[0, 1 / 2], [1 / 25, 2 / 25], [1, 1 / 2]], fun _ l => l, fun _ _ => List.Perm.refl _, ?_⟩
  decide +kernel

end Props
