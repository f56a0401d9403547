import Verif.Lemmas.Survival
import Verif.Props.NonDominatedSorting
import Mathlib.Tactic.FinCases

/-! # C11 (rank and crowding survival), C12 (feasibility first), C41 (replacement by survival) -/

namespace Props
open Model Spec Lemmas

section RankAndCrowding
variable {N m : ℕ} {α β : Type*} [LinearOrder β]

/-- C11. Rank-and-crowding survival, for any dominance relation, any crowding metric, any random stream and any
tie-breaking of the sort: given the canonical fronts cut at the first front that ranks `n ≤ N` points,
exactly `n` distinct positions survive; a survivor's better-ranked rivals all survive; in the cut front no
survivor has smaller crowding than a non-survivor; and every member of a processed front is labelled with its
front number and with the crowding value of its front (recomputed with the number of members to remove). -/
theorem C11_rank_and_crowding (dom : Fin N → Fin N → Prop) (all fronts : List (List (Fin N)))
    (hall : CanonicalFronts dom all) (n : ℕ) (hn : n ≤ N) (hfr : ShortestPrefix n all fronts)
    (F : Fin N → Fin m → α) (crowd : (l : ℕ) → (Fin l → Fin m → α) → ℕ → Fin l → β)
    (argsort : (l : ℕ) → (Fin l → β) → List (Fin l)) (P : ℕ → (l : ℕ) → Fin l → Fin l)
    (hsort : ∀ l A, (argsort l A).Perm (List.finRange l) ∧ (argsort l A).Pairwise (fun a b => A a ≤ A b))
    (hP : ∀ k l, Function.Bijective (P k l)) :
    let st := rcLoop F crowd argsort P n fronts
    st.survivors.length = n ∧ st.survivors.Nodup ∧
    (∀ k l (hk : k < all.length) (hl : l < all.length), k < l → ∀ i ∈ all[l], i ∈ st.survivors →
      ∀ j ∈ all[k], j ∈ st.survivors) ∧
    (∀ k (hk : k < all.length), ∀ i ∈ all[k], i ∈ st.survivors → ∀ j ∈ all[k], j ∉ st.survivors →
      ∃ ci cj, st.crowding i = some ci ∧ st.crowding j = some cj ∧ cj ≤ ci) ∧
    (∀ k (hk : k < all.length), ∀ i ∈ all[k], i ∈ st.survivors → st.rank i = some k) ∧
    (∀ k (hk : k < all.length), k < fronts.length → ∀ j : Fin all[k].length, st.crowding (all[k].get j) =
      some (crowd all[k].length (fun j => F (all[k].get j)) ((all.take (k + 1)).flatten.length - n) j)) := by
  intro st
  have hlenall : all.flatten.length = N := by
    have h1 : all.flatten.Perm (List.finRange N) := by
      rw [List.perm_ext_iff_of_nodup hall.nodup (List.nodup_finRange N)]
      intro i; simp [hall.complete i]
    simpa using h1.length_eq
  have hne : ∀ k (hk : k < all.length) i, i ∈ all[k] → fronts ≠ [] := by
    intro k hk i _ h0
    exact hfr.nonempty (fun h => by simp [h] at hk) h0
  rcases List.eq_nil_or_concat fronts with h0 | ⟨p, f, hpf⟩
  · have hall0 : all = [] := by
      by_contra h; exact hfr.nonempty h h0
    subst hall0
    have hN : N = 0 := by simpa using hlenall.symm
    have hn0 : n = 0 := by omega
    subst h0
    refine ⟨by simp [st, rcLoop, RCState.init, hn0], by simp [st, rcLoop, RCState.init], ?_, ?_, ?_, ?_⟩
    · intro k l hk; simp at hk
    · intro k hk; simp at hk
    · intro k hk; simp at hk
    · intro k hk; simp at hk
  · rw [List.concat_eq_append] at hpf
    obtain ⟨t, ht⟩ := hfr.isPrefix
    have hfront : ∀ k (hk : k < all.length) (hk' : k < fronts.length), all[k] = fronts[k] := by
      intro k hk hk'
      subst ht
      exact List.getElem_append_left hk'
    have hnd : fronts.flatten.Nodup := by
      have := hall.nodup
      rw [← ht, List.flatten_append] at this
      exact (List.nodup_append.1 this).1
    have hfit : p.flatten.length ≤ n := by
      by_cases hp : p = []
      · simp [hp]
      · have := hfr.minimal p ⟨[f] ++ t, by rw [← ht, hpf]; simp⟩ hp (by rw [hpf]; simp)
        omega
    have hen : n ≤ fronts.flatten.length := by
      rcases hfr.enough with h | h
      · exact h
      · rw [h, hlenall]; exact hn
    rw [hpf] at hnd hen
    obtain ⟨cut, c1, c2, c3, c4, c5, c6⟩ := rcLoop_spec F crowd argsort P n hsort hP p f hnd hfit hen
    have hst : st = rcLoop F crowd argsort P n (p ++ [f]) := by simp only [st, hpf]
    rw [← hst] at c1 c2 c3 c5 c6
    have hlenf : fronts.length = p.length + 1 := by rw [hpf]; simp
    -- a survivor lies in one of the processed fronts
    have hsurvk : ∀ k (hk : k < all.length) i, i ∈ all[k] → i ∈ st.survivors → k < fronts.length := by
      intro k hk i hi his
      have himem : i ∈ fronts.flatten := by
        rw [c1, List.mem_append] at his
        rw [hpf, List.flatten_append, List.mem_append, List.flatten_singleton]
        rcases his with h | h
        · exact .inl h
        · exact .inr (c4 i h)
      by_contra hge
      have hit : i ∈ t.flatten := by
        have : all[k] = t[k - fronts.length]'(by
            have : all.length = fronts.length + t.length := by rw [← ht]; simp
            omega) := by
          subst ht
          exact List.getElem_append_right (by omega)
        rw [this] at hi
        exact List.mem_flatten.2 ⟨_, List.getElem_mem _, hi⟩
      have := hall.nodup
      rw [← ht, List.flatten_append] at this
      exact (List.nodup_append.1 this).2.2 i himem i hit rfl
    have hpk : ∀ k (hk : k < all.length), k < p.length → ∀ j ∈ all[k], j ∈ p.flatten := by
      intro k hk hkp j hj
      rw [hfront k hk (by omega)] at hj
      have : fronts[k]'(by omega) = p[k] := by subst hpf; exact List.getElem_append_left hkp
      rw [this] at hj
      exact List.mem_flatten.2 ⟨_, List.getElem_mem _, hj⟩
    have hlast : ∀ k (hk : k < all.length), k < fronts.length → ¬ k < p.length → all[k] = f := by
      intro k hk hk' hkp
      have : k = p.length := by omega
      subst this
      rw [hfront _ hk hk']
      subst hpf
      simp
    refine ⟨c2, c3, ?_, ?_, ?_, ?_⟩
    · intro k l hk hl hkl i hi his j hj
      have hlf := hsurvk l hl i hi his
      rw [c1, List.mem_append]
      exact .inl (hpk k hk (by omega) j hj)
    · intro k hk i hi his j hj hjs
      have hkf := hsurvk k hk i hi his
      by_cases hkp : k < p.length
      · exact absurd (by rw [c1, List.mem_append]; exact .inl (hpk k hk hkp j hj)) hjs
      · have hf := hlast k hk hkf hkp
        rw [hf] at hi hj
        have hic : i ∈ cut := by
          rw [c1, List.mem_append] at his
          rcases his with h | h
          · have hnd' := hnd
            rw [List.flatten_append, List.flatten_singleton] at hnd'
            exact absurd rfl ((List.nodup_append.1 hnd').2.2 i h i hi)
          · exact h
        exact c5 i hi hic j hj (fun h => hjs (by rw [c1, List.mem_append]; exact .inr h))
    · intro k hk i hi his
      have hkf := hsurvk k hk i hi his
      refine (c6 k (by rw [← hpf]; exact hkf)).1 i ?_
      rw [hfront k hk hkf] at hi
      subst hpf; exact hi
    · intro k hk hkf j
      have key : ∀ (g : List (Fin N)) (hg : g = (p ++ [f])[k]'(by rw [← hpf]; exact hkf)) (j : Fin g.length),
          st.crowding (g.get j) = some (crowd g.length (fun j => F (g.get j))
            (((p ++ [f]).take (k + 1)).flatten.length - n) j) := by
        rintro g rfl j
        exact (c6 k (by rw [← hpf]; exact hkf)).2 j
      have htake : (all.take (k + 1)) = ((p ++ [f]).take (k + 1)) := by
        rw [← ht, List.take_append_of_le_length (by omega), hpf]
      rw [htake]
      refine key _ ?_ j
      rw [hfront k hk hkf]
      subst hpf; rfl

/-- C11, end to end for NSGA-II's survival (`RankAndCrowding()` with the default sorting): the statement of
`C11_rank_and_crowding` with the Pareto fronts of the objective matrix. -/
theorem C11_nsga2 [LinearOrder α] [AddCommGroup α] [IsOrderedAddMonoid α]
    (paretoRank : (Fin N → Fin m → α) → Fin N → ℕ)
    (hpr : ∀ F, IsParetoRank (fun i j => Dominates (F i) (F j)) (paretoRank F)) (F : Fin N → Fin m → α)
    (crowd : (l : ℕ) → (Fin l → Fin m → α) → ℕ → Fin l → β)
    (argsort : (l : ℕ) → (Fin l → β) → List (Fin l)) (P : ℕ → (l : ℕ) → Fin l → Fin l)
    (hsort : ∀ l A, (argsort l A).Perm (List.finRange l) ∧ (argsort l A).Pairwise (fun a b => A a ≤ A b))
    (hP : ∀ k l, Function.Bijective (P k l)) (n : ℕ) (hn : n ≤ N) :
    ∃ st all, rankAndCrowding paretoRank F crowd argsort P n = some st ∧
      CanonicalFronts (fun i j => Dominates (F i) (F j)) all ∧
      st.survivors.length = n ∧ st.survivors.Nodup ∧
      (∀ k l (hk : k < all.length) (hl : l < all.length), k < l → ∀ i ∈ all[l], i ∈ st.survivors →
        ∀ j ∈ all[k], j ∈ st.survivors) ∧
      (∀ k (hk : k < all.length), ∀ i ∈ all[k], i ∈ st.survivors → ∀ j ∈ all[k], j ∉ st.survivors →
        ∃ ci cj, st.crowding i = some ci ∧ st.crowding j = some cj ∧ cj ≤ ci) ∧
      (∀ k (hk : k < all.length), ∀ i ∈ all[k], i ∈ st.survivors → st.rank i = some k) := by
  obtain ⟨all, res, -, h2, h3, -, h5⟩ := C10_native paretoRank hpr none 0 F none (some n)
  have := C11_rank_and_crowding _ all res h2 n hn (h5 n rfl) F crowd argsort P hsort hP
  exact ⟨_, all, by rw [rankAndCrowding, h3]; rfl, h2, this.1, this.2.1, this.2.2.1, this.2.2.2.1, this.2.2.2.2.1⟩

end RankAndCrowding

/-- Six points, four survive: the front of two, then the two most crowded-apart of the front of three. -/
example :
    let F : Fin 6 → Fin 2 → ℕ := ![![0, 5], ![5, 0], ![1, 9], ![3, 6], ![9, 1], ![9, 9]]
    let crowd : (l : ℕ) → (Fin l → Fin 2 → ℕ) → ℕ → Fin l → ℕ := fun _ F' _ j => F' j 0
    let sort : (l : ℕ) → (Fin l → ℕ) → List (Fin l) := fun l A => (List.finRange l).insertionSort (fun a b => A a ≤ A b)
    let st := rcLoop F crowd sort (fun _ _ => id) 4 [[0, 1], [2, 3, 4]]
    st.survivors = [0, 1, 4, 3] ∧ st.rank 2 = some 1 ∧ st.rank 5 = none := by decide

section Survival
variable {ι γ : Type*} [LinearOrder γ]

/-- C12. `split_by_feasibility` splits the positions into the feasible and the infeasible ones, each exactly
once, the infeasible ones by increasing violation. -/
theorem C12_split {N : ℕ} (feas : Fin N → Bool) (cv f : Fin N → γ) (sortCV sortF : List (Fin N) → List (Fin N))
    (hCV : ∀ l, (sortCV l).Perm l ∧ (sortCV l).Pairwise (fun a b => cv a ≤ cv b))
    (hF : ∀ l, (sortF l).Perm l ∧ (sortF l).Pairwise (fun a b => f a ≤ f b)) (sortInfeas sortFeas : Bool) :
    let r := splitByFeasibility feas sortCV sortF sortInfeas sortFeas
    (r.1 ++ r.2).Perm (List.finRange N) ∧ (∀ i, i ∈ r.1 ↔ feas i = true) ∧ (∀ i, i ∈ r.2 ↔ feas i = false) ∧
    (sortInfeas = true → r.2.Pairwise (fun a b => cv a ≤ cv b)) ∧
    (sortFeas = true → r.1.Pairwise (fun a b => f a ≤ f b)) := by
  simp only [splitByFeasibility]
  have p1 : ∀ l, (if sortFeas = true then sortF l else l).Perm l := by
    intro l; split_ifs
    · exact (hF l).1
    · exact List.Perm.refl _
  have p2 : ∀ l, (if sortInfeas = true then sortCV l else l).Perm l := by
    intro l; split_ifs
    · exact (hCV l).1
    · exact List.Perm.refl _
  refine ⟨((p1 _).append (p2 _)).trans (List.filter_append_perm feas _), ?_, ?_, ?_, ?_⟩
  · intro i; rw [(p1 _).mem_iff]; simp
  · intro i; rw [(p2 _).mem_iff]; simp
  · intro h; rw [if_pos h]; exact (hCV _).2
  · intro h; rw [if_pos h]; exact (hF _).2

example : splitByFeasibility (N := 5) (fun i => ![true, false, true, false, false] i)
    (fun l => l.insertionSort (fun a b => (![0, 7, 0, 2, 5] : Fin 5 → ℕ) a ≤ ![0, 7, 0, 2, 5] b)) id true false =
      ([0, 2], [3, 4, 1]) := by decide

/-- C12. Survival on a constrained problem, for any operator that returns as many members as it is asked for:
exactly `min(n_survive, len(pop))` distinct individuals of the population survive; if an infeasible one survives
then all feasible ones do; and an infeasible survivor never violates more than an infeasible non-survivor. -/
theorem C12_feasibility_first (op : List ι → ℕ → List ι) (feas : ι → Bool) (cv : ι → γ) (pop : List ι)
    (hnd : pop.Nodup) (sortCV : List (Fin pop.length) → List (Fin pop.length))
    (hCV : ∀ l, (sortCV l).Perm l ∧ (sortCV l).Pairwise (fun a b => cv (pop.get a) ≤ cv (pop.get b)))
    (hop : ∀ sub k, sub.Nodup → k ≤ sub.length → (op sub k).length = k ∧ (op sub k).Nodup ∧ ∀ x ∈ op sub k, x ∈ sub)
    (nSurvive : Option ℕ) :
    let S := survivalDo true op feas pop sortCV nSurvive
    S.length = min (nSurvive.getD pop.length) pop.length ∧ S.Nodup ∧ (∀ x ∈ S, x ∈ pop) ∧
    (∀ x ∈ S, feas x = false → ∀ y ∈ pop, feas y = true → y ∈ S) ∧
    (∀ x ∈ S, feas x = false → ∀ y ∈ pop, feas y = false → y ∉ S → cv x ≤ cv y) := by
  intro S
  by_cases h0 : pop.length = 0
  · have : pop = [] := List.length_eq_zero_iff.1 h0
    subst this
    have hS : S = [] := by simp [S, survivalDo]
    rw [hS]; simp
  set n := min (nSurvive.getD pop.length) pop.length with hn
  have hinj : Function.Injective pop.get := List.nodup_iff_injective_get.1 hnd
  have hsplit := C12_split (fun i => feas (pop.get i)) (fun i => cv (pop.get i)) (fun i => cv (pop.get i)) sortCV
    sortCV hCV hCV true false
  set fi := splitByFeasibility (fun i => feas (pop.get i)) sortCV sortCV true false with hfi
  have hfi' : splitByFeasibility (fun i => feas (pop.get i)) sortCV id true false = fi := by
    simp [hfi, splitByFeasibility]
  obtain ⟨s1, s2, s3, s4, -⟩ := hsplit
  have s4 := s4 rfl
  have hnd12 : (fi.1 ++ fi.2).Nodup := s1.nodup_iff.2 (List.nodup_finRange _)
  have hlen : fi.1.length + fi.2.length = pop.length := by
    have := s1.length_eq
    simpa using this
  have hd := List.nodup_append.1 hnd12
  set sub := fi.1.map pop.get with hsub
  have hsubnd : sub.Nodup := hd.1.map hinj
  have hsublen : sub.length = fi.1.length := by simp [hsub]
  set V := (if fi.1.length = 0 then [] else op sub (min fi.1.length n)) with hV
  have hVspec : V.length = min fi.1.length n ∧ V.Nodup ∧ ∀ x ∈ V, x ∈ sub := by
    rw [hV]
    split_ifs with h
    · simp [h]
    · exact hop sub _ hsubnd (by omega)
  obtain ⟨v1, v2, v3⟩ := hVspec
  have hS : S = if n - V.length > 0 then V ++ (fi.2.take (n - V.length)).map pop.get else V := by
    simp only [S, survivalDo, if_neg h0, if_true, hfi']
    rfl
  have hfeassub : ∀ x ∈ sub, feas x = true ∧ x ∈ pop := by
    intro x hx
    obtain ⟨i, hi, rfl⟩ := List.mem_map.1 hx
    exact ⟨(s2 i).1 hi, List.get_mem _ _⟩
  have hinf : ∀ x ∈ fi.2.map pop.get, feas x = false ∧ x ∈ pop := by
    intro x hx
    obtain ⟨i, hi, rfl⟩ := List.mem_map.1 hx
    exact ⟨(s3 i).1 hi, List.get_mem _ _⟩
  have hnle : n ≤ pop.length := by omega
  by_cases hr : n - V.length > 0
  · rw [if_pos hr] at hS
    have hVall : V.length = fi.1.length := by omega
    have hVsub : ∀ y ∈ sub, y ∈ V := by
      have hp : V.Perm sub := (List.subperm_of_subset v2 v3).perm_of_length_le (by omega)
      intro y hy; exact hp.mem_iff.2 hy
    have htk : ∀ x ∈ (fi.2.take (n - V.length)).map pop.get, x ∈ fi.2.map pop.get := by
      intro x hx
      exact ((List.take_sublist _ _).map _).subset hx
    rw [hS]
    refine ⟨?_, ?_, ?_, ?_, ?_⟩
    · simp only [List.length_append, List.length_map, List.length_take]; omega
    · rw [List.nodup_append]
      refine ⟨v2, ((hd.2.1.sublist (List.take_sublist _ _)).map hinj), ?_⟩
      intro a ha b hb hab
      have h1 := (hfeassub a (v3 a ha)).1
      have h2 := (hinf b (htk b hb)).1
      rw [hab, h2] at h1
      simp at h1
    · intro x hx
      rcases List.mem_append.1 hx with h | h
      · exact (hfeassub x (v3 x h)).2
      · exact (hinf x (htk x h)).2
    · intro x _ _ y hy hyf
      obtain ⟨i, rfl⟩ := List.mem_iff_get.1 hy
      exact List.mem_append.2 (.inl (hVsub _ (List.mem_map.2 ⟨i, (s2 i).2 hyf, rfl⟩)))
    · intro x hx hxf y hy hyf hyS
      have hx' : x ∈ (fi.2.take (n - V.length)).map pop.get := by
        rcases List.mem_append.1 hx with h | h
        · have := (hfeassub x (v3 x h)).1
          rw [hxf] at this; simp at this
        · exact h
      obtain ⟨i, hi, rfl⟩ := List.mem_map.1 hx'
      obtain ⟨j, rfl⟩ := List.mem_iff_get.1 hy
      have hj : j ∈ fi.2.drop (n - V.length) := by
        have : j ∈ fi.2 := (s3 j).2 hyf
        rw [← List.take_append_drop (n - V.length) fi.2, List.mem_append] at this
        rcases this with h | h
        · exact absurd (List.mem_append.2 (.inr (List.mem_map.2 ⟨j, h, rfl⟩))) hyS
        · exact h
      rw [← List.take_append_drop (n - V.length) fi.2, List.pairwise_append] at s4
      exact s4.2.2 i hi j hj
  · rw [if_neg hr] at hS
    rw [hS]
    refine ⟨by omega, v2, fun x hx => (hfeassub x (v3 x hx)).2, ?_, ?_⟩
    · intro x hx hxf
      have := (hfeassub x (v3 x hx)).1
      rw [hxf] at this; simp at this
    · intro x hx hxf
      have := (hfeassub x (v3 x hx)).1
      rw [hxf] at this; simp at this

/-- C12. Without constraints (or with `filter_infeasible=False`) the operator's own selection is returned. -/
theorem C12_unconstrained (op : List ι → ℕ → List ι) (feas : ι → Bool) (pop : List ι) (hpop : pop ≠ [])
    (sortCV : List (Fin pop.length) → List (Fin pop.length)) (nSurvive : Option ℕ) :
    survivalDo false op feas pop sortCV nSurvive = op pop (min (nSurvive.getD pop.length) pop.length) := by
  have : pop.length ≠ 0 := fun h => hpop (List.length_eq_zero_iff.1 h)
  simp [survivalDo, this, hpop]

/-- A constrained population of five, three survive: the two feasible ones and the least infeasible one. -/
example : survivalDo true (fun sub k => sub.take k) (fun i : Fin 5 => ![true, false, true, false, false] i)
    [0, 1, 2, 3, 4] (fun l => l.insertionSort (fun a b =>
      (![0, 7, 0, 2, 5] : Fin 5 → ℕ) (([0, 1, 2, 3, 4] : List (Fin 5)).get a) ≤
        ![0, 7, 0, 2, 5] (([0, 1, 2, 3, 4] : List (Fin 5)).get b))) (some 3) = [0, 2, 3] := by decide

/-- C12, end to end for NSGA-II: the rank-and-crowding operator meets the operator hypothesis of
`C12_feasibility_first`, so constrained NSGA-II survival has all its guarantees. -/
theorem C12_nsga2_operator {m : ℕ} {α β : Type*} [LinearOrder β] [LinearOrder α] [AddCommGroup α]
    [IsOrderedAddMonoid α] (paretoRank : (N : ℕ) → (Fin N → Fin m → α) → Fin N → ℕ)
    (hpr : ∀ N F, IsParetoRank (fun i j => Dominates (F i) (F j)) (paretoRank N F)) (obj : ι → Fin m → α)
    (crowd : (l : ℕ) → (Fin l → Fin m → α) → ℕ → Fin l → β)
    (argsort : (l : ℕ) → (Fin l → β) → List (Fin l)) (P : ℕ → (l : ℕ) → Fin l → Fin l)
    (hsort : ∀ l A, (argsort l A).Perm (List.finRange l) ∧ (argsort l A).Pairwise (fun a b => A a ≤ A b))
    (hP : ∀ k l, Function.Bijective (P k l)) (sub : List ι) (hsub : sub.Nodup) (k : ℕ) (hk : k ≤ sub.length) :
    let out := ((rankAndCrowding (paretoRank sub.length) (fun i => obj (sub.get i)) crowd argsort P k).map
      fun st => st.survivors.map sub.get).getD []
    out.length = k ∧ out.Nodup ∧ ∀ x ∈ out, x ∈ sub := by
  obtain ⟨st, all, h1, _, h3, h4, _⟩ := C11_nsga2 (paretoRank sub.length) (hpr sub.length)
    (fun i => obj (sub.get i)) crowd argsort P hsort hP k hk
  simp only [h1, Option.map_some, Option.getD_some]
  refine ⟨by simpa using h3, h4.map (List.nodup_iff_injective_get.1 hsub), ?_⟩
  intro x hx
  obtain ⟨i, _, rfl⟩ := List.mem_map.1 hx
  exact List.get_mem _ _

theorem dict_spec [DecidableEq ι] (pop : List ι) (k0 : ℕ) (h0 : ι → Option ℕ) :
    ∀ x, (x ∉ pop → (pop.zipIdx k0).foldl (fun (h : ι → Option ℕ) (p : ι × ℕ) => Function.update h p.1 (some p.2)) h0 x
        = h0 x) ∧
      (x ∈ pop → ∃ k, ∃ hk : k < pop.length, pop[k] = x ∧
        (pop.zipIdx k0).foldl (fun (h : ι → Option ℕ) (p : ι × ℕ) => Function.update h p.1 (some p.2)) h0 x =
          some (k0 + k)) := by
  induction pop generalizing k0 h0 with
  | nil => simp
  | cons a pop ih =>
    intro x
    rw [List.zipIdx_cons, List.foldl_cons]
    obtain ⟨i1, i2⟩ := ih (k0 + 1) (Function.update h0 a (some k0)) x
    constructor
    · intro hx
      rw [List.mem_cons, not_or] at hx
      rw [i1 hx.2, Function.update_of_ne hx.1]
    · intro hx
      by_cases hp : x ∈ pop
      · obtain ⟨k, hk, h1, h2⟩ := i2 hp
        exact ⟨k + 1, by simpa using hk, by simpa using h1, by rw [h2]; congr 1; omega⟩
      · have hxa : x = a := by
          rcases List.mem_cons.1 hx with h | h
          · exact h
          · exact absurd h hp
        refine ⟨0, by simp, by simp [hxa], ?_⟩
        rw [i1 hp, hxa]; simp

/-- C12. With `return_indices=True` the returned positions are those of the survivors, in order. -/
theorem C12_return_indices [DecidableEq ι] (pop survivors : List ι) (hs : ∀ x ∈ survivors, x ∈ pop) :
    ∃ idx, survivalIndices pop survivors = some idx ∧ idx.map (fun k => pop[k]?) = survivors.map some := by
  unfold survivalIndices
  simp only
  induction survivors with
  | nil => exact ⟨[], rfl, rfl⟩
  | cons x xs ih =>
    obtain ⟨idx, h1, h2⟩ := ih (fun y hy => hs y (List.mem_cons_of_mem _ hy))
    obtain ⟨k, hk, hx, hd⟩ := (dict_spec pop 0 (fun _ => none) x).2 (hs x (by simp))
    refine ⟨k :: idx, ?_, ?_⟩
    · rw [List.mapM_cons, h1]
      rw [show pop.zipIdx.foldl (fun (h : ι → Option ℕ) (p : ι × ℕ) => Function.update h p.1 (some p.2))
        (fun _ => none) x = some (0 + k) from hd]
      simp
    · simp [h2, hx, hk]

example : survivalIndices ["a", "b", "c"] ["c", "a"] = some [2, 0] := by decide
example : survivalIndices ["a", "b"] ["z"] = none := by decide

end Survival

/-! ## C41: replacement driven by a survival operator -/

/-- C41 is FALSE of the unchanged code: `survival.do(..., return_indices=True)` returns the positions in order of
merit, but `ToReplacement` stores entry `i` of that list as the rank of individual `i`. Witness: two parents
`0, 1` and offspring `2, 3`; the survival order (best first) is `1, 2, 3, 0`. Offspring `2` is better than its
parent `0` and offspring `3` worse than its parent `1`, yet the code keeps `0` and replaces `1` by `3`. -/
theorem C41_to_replacement_refuted : ∃ (pop off order : List ℕ), order.Perm (pop ++ off) ∧
    (pop ++ off) = List.range 4 ∧ pop.length = off.length ∧
    -- merit of an individual = its place in the order
    order.idxOf off[0]! < order.idxOf pop[0]! ∧ order.idxOf pop[1]! < order.idxOf off[1]! ∧
    toReplacement order pop off = [pop[0]!, off[1]!] :=
  ⟨[0, 1], [2, 3], [1, 2, 3, 0], by decide, by decide, by decide, by decide, by decide, by decide⟩

/-- C41, what does hold: with a single parent and a single offspring the better of the two is kept. -/
theorem C41_to_replacement_partial {ι : Type*} [DecidableEq ι] (p o : ι) (hne : p ≠ o) (order : List ι)
    (hord : order.Perm [p, o]) :
    ∃ idx, survivalIndices [p, o] order = some idx ∧
      toReplacement idx [p] [o] = [if order.idxOf o < order.idxOf p then o else p] := by
  have hlen : order.length = 2 := by simpa using hord.length_eq
  match order, hlen with
  | [a, b], _ =>
    have ha : a ∈ [p, o] := hord.mem_iff.1 (by simp)
    have hb : b ∈ [p, o] := hord.mem_iff.1 (by simp)
    have hab : a ≠ b := by
      have := hord.nodup_iff.2 (by simpa using hne)
      simpa using this
    simp only [List.mem_cons, List.not_mem_nil, or_false] at ha hb
    rcases ha with rfl | rfl
    · rcases hb with rfl | rfl
      · exact absurd rfl hab
      · refine ⟨[0, 1], ?_, ?_⟩
        · simp [survivalIndices, Function.update_of_ne hne]
        · have : List.idxOf b [a, b] = 1 := by simp [List.idxOf_cons, hne]
          simp [toReplacement, this]
    · rcases hb with rfl | rfl
      · refine ⟨[1, 0], ?_, ?_⟩
        · simp [survivalIndices, Function.update_of_ne hne]
        · have : List.idxOf b [a, b] = 1 := by simp [List.idxOf_cons, hne.symm]
          simp [toReplacement, this]
      · exact absurd rfl hab

example : ([3, 5] : List ℕ).Perm [5, 3] ∧ (3 : ℕ) ≠ 5 := by decide

end Props
