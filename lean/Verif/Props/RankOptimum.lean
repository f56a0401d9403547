import Verif.Model.RankOptimum
import Verif.Props.Elitism
import Verif.Lemmas.ChainRank

/-! # C158: the optimum reported by NSGA-II, NSDE, GDE3 and AGE-MOEA -/

set_option linter.unusedSimpArgs false
set_option linter.unusedVariables false
set_option linter.unusedSectionVars false

namespace Props
open Model Spec Lemmas

section
variable {ι α β : Type*} {m : ℕ} [LinearOrder α] [LinearOrder β]

/-- What is needed of a survival: it returns `k` different members; a survivor gets rank 0 exactly if no given individual dominates it, and a dominated survivor is dominated by a survivor; ranks are only written into the individuals given. -/
structure RanksOk (F : ι → Fin m → α) (c : RankCall ι) : Prop where
  basic : ∀ sub k, sub.Nodup → 1 ≤ k → k ≤ sub.length → (c.op sub k).length = k ∧ (c.op sub k).Nodup ∧ ∀ x ∈ c.op sub k, x ∈ sub
  zero : ∀ sub k, sub.Nodup → 1 ≤ k → k ≤ sub.length → ∀ x ∈ c.op sub k, ∃ r, c.ranks sub k x = some r ∧ (r = 0 ↔ ∀ y ∈ sub, ¬ Dominates (F y) (F x))
  keeps : ∀ sub k, sub.Nodup → 1 ≤ k → k ≤ sub.length → ∀ x ∈ c.op sub k, ∀ y ∈ sub, Dominates (F y) (F x) → ∃ z ∈ c.op sub k, Dominates (F z) (F x)
  only : ∀ sub k x r, c.ranks sub k x = some r → x ∈ sub

theorem rankSub_mem (split : Bool) (feas : ι → Bool) (hsplit : split = false → ∀ x, feas x = true) (pop : List ι) (hn : pop.Nodup) (sortCV : List (Fin pop.length) → List (Fin pop.length)) :
    (rankSub split feas pop sortCV).Nodup ∧ ∀ x, x ∈ rankSub split feas pop sortCV ↔ x ∈ pop ∧ feas x = true := by
  cases split with
  | false => simp [rankSub, hn, hsplit rfl]
  | true =>
    simp only [rankSub, if_true, splitByFeasibility]
    refine ⟨((List.nodup_finRange _).filter _).map (List.nodup_iff_injective_get.1 hn), fun x => ?_⟩
    simp only [List.mem_map, List.mem_filter, List.mem_finRange, true_and, Bool.false_eq_true, if_false]
    constructor
    · rintro ⟨i, hi, rfl⟩; exact ⟨List.get_mem _ _, hi⟩
    · rintro ⟨hx, hf⟩
      obtain ⟨i, rfl⟩ := List.get_of_mem hx
      exact ⟨i, hf, rfl⟩

/-- One call of the survival. -/
theorem rankSurvive_spec (at' : Attrs ι α β m) (c : RankCall ι) (hc : RanksOk at'.F c) (hs : SortsCV at' c.sortCV) (split : Bool) (hsplit : split = false → ∀ x, at'.feas x = true)
    (n : ℕ) (hn1 : 1 ≤ n) (s : RankState ι) (hn : s.pop.Nodup) (hinf : ∀ x, at'.feas x = false → s.rank x = none) :
    (rankSurvive split at'.feas n c s).pop.Nodup ∧ (∀ x ∈ (rankSurvive split at'.feas n c s).pop, x ∈ s.pop) ∧ (s.pop ≠ [] → (rankSurvive split at'.feas n c s).pop ≠ []) ∧
    (∀ x, at'.feas x = false → (rankSurvive split at'.feas n c s).rank x = none) ∧
    ∀ x ∈ (rankSurvive split at'.feas n c s).pop, (rankSurvive split at'.feas n c s).rank x = some 0 ↔ feasibleFront at' (rankSurvive split at'.feas n c s).pop x := by
  obtain ⟨u1, u2⟩ := rankSub_mem split at'.feas hsplit s.pop hn (c.sortCV s.pop)
  set sub := rankSub split at'.feas s.pop (c.sortCV s.pop) with hsub
  set S := (rankSurvive split at'.feas n c s).pop with hS
  have hSe : S = survivalDo split c.op at'.feas s.pop (c.sortCV s.pop) (some n) := rfl
  have hR : ∀ x, (rankSurvive split at'.feas n c s).rank x = if sub.length = 0 then s.rank x else (c.ranks sub (min sub.length (min n s.pop.length)) x).or (s.rank x) := fun x => rfl
  by_cases hp : s.pop = []
  · have hS0 : S = [] := by rw [hSe]; simp [survivalDo, hp]
    have hsub0 : sub.length = 0 := by
      rw [List.length_eq_zero_iff, List.eq_nil_iff_forall_not_mem]
      intro x hx
      have := ((u2 x).1 hx).1
      rw [hp] at this
      simp at this
    rw [hS0]
    refine ⟨by simp, by simp, fun h => absurd hp h, fun x hx => ?_, by simp⟩
    rw [hR, if_pos hsub0]
    exact hinf x hx
  have hp0 : s.pop.length ≠ 0 := fun h => hp (List.length_eq_zero_iff.1 h)
  -- the guarantees of the base class
  set op' : List ι → ℕ → List ι := fun sub k => if k = 0 then [] else c.op sub k with hop'
  have hbasic : ∀ sub k, sub.Nodup → k ≤ sub.length → (op' sub k).length = k ∧ (op' sub k).Nodup ∧ ∀ x ∈ op' sub k, x ∈ sub := by
    intro sub k hsn hk
    by_cases h0 : k = 0
    · subst h0; simp [hop']
    · simp only [hop', if_neg h0]; exact hc.basic sub k hsn (by omega) hk
  -- the population: the survivors of the operator, then infeasible ones
  have hdec : ∃ tl, S = (if sub.length = 0 then [] else c.op sub (min sub.length (min n s.pop.length))) ++ tl ∧ ∀ x ∈ tl, at'.feas x = false := by
    cases split with
    | false =>
      have e : sub = s.pop := by simp [hsub, rankSub]
      refine ⟨[], ?_, by simp⟩
      rw [e, if_neg hp0, List.append_nil, hSe]
      have := C12_unconstrained c.op at'.feas s.pop hp (c.sortCV s.pop) (some n)
      rw [this]
      congr 1
      simp
    | true =>
      have hlen : (splitByFeasibility (fun i => at'.feas (s.pop.get i)) (c.sortCV s.pop) id true false).1.length = sub.length := by simp [hsub, rankSub]
      have hsubl : sub = (splitByFeasibility (fun i => at'.feas (s.pop.get i)) (c.sortCV s.pop) id true false).1.map s.pop.get := by simp [hsub, rankSub]
      have hinfe : ∀ i ∈ (splitByFeasibility (fun i => at'.feas (s.pop.get i)) (c.sortCV s.pop) id true false).2, at'.feas (s.pop.get i) = false := by
        intro i hi
        simp only [splitByFeasibility, if_true] at hi
        have := (hs s.pop _).1.mem_iff.1 hi
        simpa using (List.mem_filter.1 this).2
      rw [hSe]
      simp only [survivalDo, if_neg hp0, Option.getD_some, if_true, hlen]
      rw [← hsubl]
      split_ifs with h1 h2 h3
      · exact ⟨_, rfl, fun x hx => by
          obtain ⟨i, hi, rfl⟩ := List.mem_map.1 hx
          exact hinfe i (List.mem_of_mem_take hi)⟩
      · exact ⟨[], by simp, by simp⟩
      · exact ⟨_, rfl, fun x hx => by
          obtain ⟨i, hi, rfl⟩ := List.mem_map.1 hx
          exact hinfe i (List.mem_of_mem_take hi)⟩
      · exact ⟨[], by simp, by simp⟩
  have hall : S.Nodup ∧ (∀ x ∈ S, x ∈ s.pop) ∧ S.length = min n s.pop.length := by
    cases split with
    | false =>
      have := C12_unconstrained c.op at'.feas s.pop hp (c.sortCV s.pop) (some n)
      rw [hSe, this]
      obtain ⟨a1, a2, a3⟩ := hc.basic s.pop (min n s.pop.length) hn (by omega) (min_le_right _ _)
      simp only [Option.getD_some]
      exact ⟨a2, a3, a1⟩
    | true =>
      have hSe' : S = survivalDo true op' at'.feas s.pop (c.sortCV s.pop) (some n) := by
        rw [hSe]
        simp only [survivalDo, if_neg hp0, Option.getD_some, if_true]
        by_cases hfl : (splitByFeasibility (fun i => at'.feas (s.pop.get i)) (c.sortCV s.pop) id true false).1.length = 0
        · simp only [if_pos hfl]
        · have : min (splitByFeasibility (fun i => at'.feas (s.pop.get i)) (c.sortCV s.pop) id true false).1.length (min n s.pop.length) ≠ 0 := by omega
          simp only [if_neg hfl, hop', if_neg this]
      have := C12_feasibility_first op' at'.feas at'.cv s.pop hn (c.sortCV s.pop) (hs s.pop) hbasic (some n)
      simp only [← hSe', Option.getD_some] at this
      exact ⟨this.2.1, this.2.2.1, this.1⟩
  obtain ⟨tl, hdec, htl⟩ := hdec
  obtain ⟨b1, b2, b3⟩ := hall
  refine ⟨b1, b2, fun _ h => ?_, ?_, ?_⟩
  · rw [h] at b3; simp at b3; omega
  · intro x hx
    rw [hR]
    split_ifs
    · exact hinf x hx
    · cases hr : c.ranks sub (min sub.length (min n s.pop.length)) x with
      | none => simpa using hinf x hx
      | some r =>
        have := ((u2 x).1 (hc.only _ _ _ _ hr)).2
        rw [hx] at this
        cases this
  · intro x hx
    by_cases hf : at'.feas x = true
    · have hxs : x ∈ sub := (u2 x).2 ⟨b2 x hx, hf⟩
      have h0 : sub.length ≠ 0 := fun h => by rw [List.length_eq_zero_iff.1 h] at hxs; simp at hxs
      have hk1 : 1 ≤ min sub.length (min n s.pop.length) := by omega
      rw [if_neg h0] at hdec
      have hxo : x ∈ c.op sub (min sub.length (min n s.pop.length)) := by
        rw [hdec] at hx
        rcases List.mem_append.1 hx with h | h
        · exact h
        · rw [htl x h] at hf; cases hf
      obtain ⟨r, hr, hr0⟩ := hc.zero sub _ u1 hk1 (min_le_left _ _) x hxo
      rw [hR, if_neg h0, hr]
      simp only [Option.some_or, Option.some.injEq, hr0]
      constructor
      · intro h
        exact ⟨hx, hf, fun y hy hyf => h y ((u2 y).2 ⟨b2 y hy, hyf⟩)⟩
      · rintro ⟨-, -, h⟩ y hy hd
        obtain ⟨z, hz, hzd⟩ := hc.keeps sub _ u1 hk1 (min_le_left _ _) x hxo y hy hd
        exact h z (by rw [hdec]; exact List.mem_append_left _ hz) ((u2 z).1 ((hc.basic sub _ u1 hk1 (min_le_left _ _)).2.2 z hz)).2 hzd
    · have hf' : at'.feas x = false := by simpa using hf
      constructor
      · intro h
        exfalso
        rw [hR] at h
        split_ifs at h
        · rw [hinf x hf'] at h; cases h
        · cases hr : c.ranks sub (min sub.length (min n s.pop.length)) x with
          | none => rw [hr, hinf x hf'] at h; simp at h
          | some r => exact hf ((u2 x).1 (hc.only _ _ _ _ hr)).2
      · rintro ⟨-, h, -⟩; exact absurd h hf

/-- **C158.** In every run, constrained or not, with any offspring and any number of generations, as long as what counts as feasible stays the same: after every generation the optimum reported consists of exactly the feasible members of the population that no feasible member dominates, each once and in the order of the population — although the ranks it is read from are left over from different calls of the survival, on different populations. Without a feasible member it is one member with the least violation. -/
theorem C158_optimum (at' : Attrs ι α β m) (split : Bool) (hsplit : split = false → ∀ x, at'.feas x = true) (popSize : ℕ) (hn1 : 1 ≤ popSize)
    (init : List ι) (hi : init ≠ []) (g0 : RankGen ι) (gens : List (RankGen ι)) (hg : ∀ g ∈ g0 :: gens, g.feas = at'.feas ∧ RanksOk at'.F g.call ∧ SortsCV at' g.call.sortCV)
    (hnd : (init ++ (gens.map fun g => g.off.getD []).flatten).Nodup) :
    let s := rankRun split popSize init g0 gens
    ∃ opt, rankOptimum at' s = some opt ∧ opt.Sublist s.pop ∧ opt.Nodup ∧ ((∃ x ∈ s.pop, at'.feas x = true) → ∀ x, x ∈ opt ↔ feasibleFront at' s.pop x) ∧
      ((∀ x ∈ s.pop, at'.feas x = false) → ∃ x ∈ s.pop, opt = [x] ∧ ∀ y ∈ s.pop, at'.cv x ≤ at'.cv y) := by
  intro s
  have key : s.pop.Nodup ∧ (∀ x ∈ s.pop, x ∈ init ++ (gens.map fun g => g.off.getD []).flatten) ∧ s.pop ≠ [] ∧ (∀ x, at'.feas x = false → s.rank x = none) ∧
      ∀ x ∈ s.pop, s.rank x = some 0 ↔ feasibleFront at' s.pop x := by
    subst_vars
    revert hnd hg
    change _ → _ → _
    induction gens using List.reverseRecOn with
    | nil =>
      intro hg hnd
      obtain ⟨c1, c2, c3⟩ := hg g0 (by simp)
      have hil : 1 ≤ init.length := List.length_pos_iff.2 hi
      obtain ⟨a1, a2, a3, a4, a5⟩ := rankSurvive_spec at' g0.call c2 c3 split hsplit init.length hil ⟨init, fun _ => none⟩ (by simpa using hnd) (fun _ _ => rfl)
      have hrun : s = rankSurvive split at'.feas init.length g0.call ⟨init, fun _ => none⟩ := by
        change rankRun split popSize init g0 [] = _
        simp only [rankRun, List.foldl_nil]
        rw [c1]
      rw [hrun]
      exact ⟨a1, fun x hx => by simpa using a2 x hx, a3 hi, a4, a5⟩
    | append_singleton gens g ih =>
      intro hg hnd
      have hnd' : ((init ++ (gens.map fun g => g.off.getD []).flatten) ++ g.off.getD []).Nodup := by simpa using hnd
      obtain ⟨d1, d2, d3, d4, d5⟩ := ih (fun q hq => hg q (by
        rcases List.mem_cons.1 hq with h | h
        · simp [h]
        · simp [h])) (List.nodup_append.1 hnd').1
      obtain ⟨c1, c2, c3⟩ := hg g (by simp)
      set t := rankRun split popSize init g0 gens with ht
      have hmerge : g.off.elim t.pop (t.pop ++ ·) = t.pop ++ g.off.getD [] := by cases g.off <;> simp
      have hmn : (t.pop ++ g.off.getD []).Nodup := by
        rw [List.nodup_append]
        exact ⟨d1, (List.nodup_append.1 hnd').2.1, fun a ha b hb hab => (List.nodup_append.1 hnd').2.2 a (d2 a ha) b hb hab⟩
      obtain ⟨a1, a2, a3, a4, a5⟩ := rankSurvive_spec at' g.call c2 c3 split hsplit popSize hn1 { t with pop := t.pop ++ g.off.getD [] } hmn d4
      have hrun : s = rankSurvive split at'.feas popSize g.call { t with pop := t.pop ++ g.off.getD [] } := by
        change rankRun split popSize init g0 (gens ++ [g]) = _
        simp only [rankRun, List.foldl_append, List.foldl_cons, List.foldl_nil]
        rw [rankAdvance, c1]
        rw [show (gens.foldl (rankAdvance split popSize) (rankSurvive split g0.feas init.length g0.call ⟨init, fun _ => none⟩)) = t from rfl, hmerge]
      rw [hrun]
      refine ⟨a1, fun x hx => ?_, a3 (by simp [d3]), a4, a5⟩
      have := a2 x hx
      rcases List.mem_append.1 this with h | h
      · have := d2 x h
        simp only [List.map_append, List.flatten_append, List.mem_append] at this ⊢
        tauto
      · simp only [List.map_append, List.flatten_append, List.mem_append]
        right; right
        simpa using h
  obtain ⟨k1, -, k3, -, k5⟩ := key
  unfold rankOptimum
  by_cases hf : s.pop.any at'.feas = true
  · rw [if_pos hf]
    refine ⟨_, rfl, List.filter_sublist, k1.filter _, fun _ x => ?_, fun h => ?_⟩
    · rw [List.mem_filter, decide_eq_true_iff]
      constructor
      · rintro ⟨h1, h2⟩; exact (k5 x h1).1 h2
      · intro h; exact ⟨h.1, (k5 x h.1).2 h⟩
    · obtain ⟨x, hx, hxf⟩ := List.any_eq_true.1 hf
      rw [h x hx] at hxf; cases hxf
  · rw [if_neg hf]
    cases hx : npArgmin at'.cv s.pop with
    | none => exact absurd ((npArgmin_spec at'.cv s.pop).1.1 hx) k3
    | some x =>
      obtain ⟨m1, m2⟩ := (npArgmin_spec at'.cv s.pop).2 x hx
      refine ⟨[x], rfl, by simpa using m1, by simp, fun ⟨y, hy, hyf⟩ => absurd (List.any_eq_true.2 ⟨y, hy, hyf⟩) hf, fun _ => ⟨x, m1, rfl, m2⟩⟩

end

/-! ### The survivals -/

section
variable {ι α γ : Type*} {m : ℕ} [LinearOrder α] [AddCommGroup α] [IsOrderedAddMonoid α]

theorem rankAt_get [DecidableEq ι] (sub : List ι) (hn : sub.Nodup) (r : Fin sub.length → Option ℕ) (i : Fin sub.length) : rankAt sub r (sub.get i) = r i := by
  have hinj : Function.Injective sub.get := List.nodup_iff_injective_get.1 hn
  unfold rankAt
  cases hr : r i with
  | none =>
    rw [List.findSome?_eq_none_iff]
    intro j _
    split_ifs with h
    · rw [hinj h, hr]
    · rfl
  | some v =>
    cases hf : (List.finRange sub.length).findSome? (fun j => if sub.get j = sub.get i then r j else none) with
    | none =>
      have := List.findSome?_eq_none_iff.1 hf i (List.mem_finRange i)
      simp [hr] at this
    | some w =>
      obtain ⟨j, -, hj⟩ := List.exists_of_findSome?_eq_some hf
      split_ifs at hj with h
      rw [hinj h, hr] at hj
      rw [← hj]

theorem rankAt_mem [DecidableEq ι] (sub : List ι) (r : Fin sub.length → Option ℕ) (x : ι) (v : ℕ) (h : rankAt sub r x = some v) : x ∈ sub := by
  obtain ⟨j, -, hj⟩ := List.exists_of_findSome?_eq_some h
  split_ifs at hj with e
  rw [← e]; exact List.get_mem _ _

/-- In canonical fronts the first one consists of the individuals nobody dominates, and dominators are in earlier fronts. -/
theorem level_facts {N : ℕ} {dom : Fin N → Fin N → Prop} {all : List (List (Fin N))} (h : CanonicalFronts dom all) (q : ℕ) (hq : q < all.length) (i : Fin N) (hi : i ∈ all[q]) :
    (q = 0 ↔ ∀ j, ¬ dom j i) ∧ ∀ j, dom j i → ∃ k, ∃ hk : k < all.length, k < q ∧ j ∈ all[k] := by
  have hback : ∀ j, dom j i → ∃ k, ∃ hk : k < all.length, k < q ∧ j ∈ all[k] := by
    intro j hd
    obtain ⟨f, hf, hjf⟩ := List.mem_flatten.1 (((h.level q hq i).1 hi).2 j hd)
    obtain ⟨k, hk, rfl⟩ := List.mem_iff_getElem.1 hf
    simp only [List.length_take] at hk
    exact ⟨k, by omega, by omega, by simpa using hjf⟩
  refine ⟨⟨fun h0 j hd => ?_, fun hund => ?_⟩, hback⟩
  · obtain ⟨k, _, hk, _⟩ := hback j hd; omega
  · by_contra hne
    have h0 : 0 < all.length := by omega
    have hi0 : i ∈ all[0] := by rw [h.level 0 h0 i]; exact ⟨by simp, fun j hj => absurd hj (hund j)⟩
    refine ((h.level q hq i).1 hi).1 (List.mem_flatten.2 ⟨all[0], ?_, hi0⟩)
    rw [List.mem_take_iff_getElem]
    exact ⟨0, by omega, rfl⟩

/-- **C158.** The survival by rank and crowding meets the conditions of `C158_optimum`, for every crowding metric and all random numbers. -/
theorem C158_rank_and_crowding [DecidableEq ι] [LinearOrder γ] {paretoRank : (N : ℕ) → (Fin N → Fin m → α) → Fin N → ℕ} {argsort : (l : ℕ) → (Fin l → γ) → List (Fin l)} {P : ℕ → (l : ℕ) → Fin l → Fin l}
    (crowd : (l : ℕ) → (Fin l → Fin m → α) → ℕ → Fin l → γ) (h : RcOk paretoRank argsort P) (F : ι → Fin m → α) (sortCV : (pop : List ι) → List (Fin pop.length) → List (Fin pop.length)) :
    RanksOk F (rcCall paretoRank F crowd argsort P sortCV) := by
  have main : ∀ sub k, sub.Nodup → k ≤ sub.length → ∃ st all, rankAndCrowding (paretoRank sub.length) (fun i => F (sub.get i)) crowd argsort P k = some st ∧
      CanonicalFronts (fun i j => Dominates (F (sub.get i)) (F (sub.get j))) all ∧ rcOperator paretoRank F crowd argsort P sub k = st.survivors.map sub.get ∧
      (∀ k l (hk : k < all.length) (hl : l < all.length), k < l → ∀ i ∈ all[l], i ∈ st.survivors → ∀ j ∈ all[k], j ∈ st.survivors) ∧
      (∀ k (hk : k < all.length), ∀ i ∈ all[k], i ∈ st.survivors → st.rank i = some k) := by
    intro sub k hn hk
    obtain ⟨st, all, h1, h2, h3, h4, h5, -, h7⟩ := C11_nsga2 (paretoRank sub.length) (h.rank sub.length) (fun i => F (sub.get i)) crowd argsort P h.sort h.perm k hk
    exact ⟨st, all, h1, h2, by unfold rcOperator; rw [h1]; rfl, h5, h7⟩
  refine ⟨fun sub k hn _ hk => rcOperator_basic crowd h F sub k hn hk, ?_, ?_, ?_⟩
  · intro sub k hn hk1 hk x hx
    obtain ⟨st, all, h1, h2, h3, h4, h5⟩ := main sub k hn hk
    simp only [rcCall, h1, Option.bind_some] at hx ⊢
    rw [h3] at hx
    obtain ⟨i, hi, rfl⟩ := List.mem_map.1 hx
    obtain ⟨f, hf, hif⟩ := List.mem_flatten.1 (h2.complete i)
    obtain ⟨q, hq, rfl⟩ := List.mem_iff_getElem.1 hf
    refine ⟨q, by rw [rankAt_get sub hn, h5 q hq i hif hi], ?_⟩
    rw [(level_facts h2 q hq i hif).1]
    constructor
    · intro hu y hy
      obtain ⟨j, rfl⟩ := List.get_of_mem hy
      exact hu j
    · intro hu j; exact hu _ (List.get_mem _ _)
  · intro sub k hn hk1 hk x hx y hy hd
    obtain ⟨st, all, h1, h2, h3, h4, h5⟩ := main sub k hn hk
    simp only [rcCall] at hx ⊢
    rw [h3] at hx ⊢
    obtain ⟨i, hi, rfl⟩ := List.mem_map.1 hx
    obtain ⟨j, rfl⟩ := List.get_of_mem hy
    obtain ⟨f, hf, hif⟩ := List.mem_flatten.1 (h2.complete i)
    obtain ⟨q, hq, rfl⟩ := List.mem_iff_getElem.1 hf
    obtain ⟨k', hk', hlt, hj⟩ := (level_facts h2 q hq i hif).2 j hd
    exact ⟨_, List.mem_map_of_mem (h4 k' q hk' hq hlt i hif hi j hj), hd⟩
  · intro sub k x r hr
    simp only [rcCall] at hr
    obtain ⟨st, -, hst⟩ := Option.bind_eq_some_iff.1 hr
    exact rankAt_mem sub _ x r hst

/-- **C158.** So does the survival of AGE-MOEA. -/
theorem C158_agemoea [DecidableEq ι] {K : Type*} [LinearOrder K] [Zero K] (maxVal : ℕ) (hmax : 0 < maxVal) (paretoRank : (l : ℕ) → (Fin l → Fin m → α) → Fin l → ℕ)
    (hpr : ∀ l F, IsParetoRank (fun i j => Dominates (F i) (F j)) (paretoRank l F)) (F : ι → Fin m → α) (score prox : (l : ℕ) → (Fin l → ι) → List (List (Fin l)) → Fin l → K)
    (argsort : (l : ℕ) → (Fin l → K) → List (Fin l) → List (Fin l)) (hsort : ∀ l v L, (argsort l v L).Perm L ∧ (argsort l v L).Pairwise fun a b => v a ≤ v b)
    (sortCV : (pop : List ι) → List (Fin pop.length) → List (Fin pop.length)) : RanksOk F (ageCall maxVal paretoRank F score prox argsort sortCV) := by
  have main : ∀ sub k, sub.Nodup → 1 ≤ k → k ≤ sub.length → ∃ S, ageSurvival (paretoRank sub.length) (fun i => F (sub.get i)) (score sub.length sub.get) (prox sub.length sub.get) (argsort sub.length) k = some S ∧
      (ageCall maxVal paretoRank F score prox argsort sortCV).op sub k = S.map sub.get ∧ S.length = k ∧ S.Nodup ∧ ∀ i ∈ S, ∀ j, Dominates (F (sub.get j)) (F (sub.get i)) → j ∈ S := by
    intro sub k hn hk1 hk
    obtain ⟨S, all, h1, h2, h3, h4, h5, h6, -⟩ := C78_survival (paretoRank sub.length) (hpr sub.length) (fun i => F (sub.get i)) (score sub.length sub.get) (prox sub.length sub.get) (argsort sub.length) (hsort sub.length) k hk (by omega)
    exact ⟨S, h1, by simp only [ageCall]; rw [h1]; rfl, h3, h4, h6⟩
  refine ⟨?_, ?_, ?_, ?_⟩
  · intro sub k hn hk1 hk
    obtain ⟨S, -, h2, h3, h4, -⟩ := main sub k hn hk1 hk
    rw [h2]
    refine ⟨by simpa using h3, h4.map (List.nodup_iff_injective_get.1 hn), ?_⟩
    intro x hx
    obtain ⟨i, -, rfl⟩ := List.mem_map.1 hx
    exact List.get_mem _ _
  · intro sub k hn hk1 hk x hx
    obtain ⟨S, -, h2, -, -, -⟩ := main sub k hn hk1 hk
    rw [h2] at hx
    obtain ⟨i, hi, rfl⟩ := List.mem_map.1 hx
    obtain ⟨all, fronts, -, c2, c3, -, c5⟩ := C10_native (paretoRank sub.length) (hpr sub.length) none 0 (fun i => F (sub.get i)) none (some k)
    have c5 := c5 k rfl
    rw [show leading none all = all from rfl] at c5
    simp only [ageCall, c3, Option.bind_some]
    rw [rankAt_get sub hn]
    refine ⟨_, rfl, ?_⟩
    have hfnd : fronts.flatten.Nodup := by
      obtain ⟨t, ht⟩ := c5.isPrefix
      have := c2.nodup
      rw [← ht, List.flatten_append] at this
      exact (List.nodup_append.1 this).1
    have hall : all ≠ [] := by
      intro h0
      have := c2.complete i
      rw [h0] at this
      simp at this
    have hfr := c5.nonempty hall
    have h0a : 0 < all.length := List.length_pos_iff.2 hall
    have h0f : 0 < fronts.length := List.length_pos_iff.2 hfr
    have hhead : fronts[0] = all[0] := by
      obtain ⟨t, ht⟩ := c5.isPrefix
      simp only [← ht, List.getElem_append_left h0f]
    have hzero : i ∈ all[0] ↔ ∀ j, ¬ Dominates (F (sub.get j)) (F (sub.get i)) := by
      rw [c2.level 0 h0a i]; simp
    have hval : (ageFrontNo fronts i).getD maxVal = 0 ↔ ageFrontNo fronts i = some 0 := by
      cases ageFrontNo fronts i with
      | none => simp; omega
      | some v => simp
    rw [hval, ageFrontNo_iff fronts hfnd]
    constructor
    · rintro ⟨f, hf, hif⟩ y hy
      obtain ⟨j, rfl⟩ := List.get_of_mem hy
      rw [List.getElem?_eq_getElem h0f, Option.some.injEq] at hf
      rw [← hf, hhead] at hif
      exact hzero.1 hif j
    · intro hu
      exact ⟨fronts[0], List.getElem?_eq_getElem h0f, by rw [hhead]; exact hzero.2 fun j => hu _ (List.get_mem _ _)⟩
  · intro sub k hn hk1 hk x hx y hy hd
    obtain ⟨S, -, h2, -, -, h6⟩ := main sub k hn hk1 hk
    rw [h2] at hx ⊢
    obtain ⟨i, hi, rfl⟩ := List.mem_map.1 hx
    obtain ⟨j, rfl⟩ := List.get_of_mem hy
    exact ⟨_, List.mem_map_of_mem (h6 i hi j hd), hd⟩
  · intro sub k x r hr
    simp only [ageCall] at hr
    obtain ⟨fr, -, hst⟩ := Option.bind_eq_some_iff.1 hr
    exact rankAt_mem sub _ x r hst

end

/-! ### Examples -/

/-- NSGA-II on the numbers `10 a + b` with the objectives `a`, `b`; the crowding is the first objective. -/
def exRankCall (feasible : ℕ → Bool) : RankCall ℕ :=
  rcCall chainRank (exDigits feasible).F (fun _ F' _ j => F' j 0) (fun l A => (List.finRange l).insertionSort fun a b => A a ≤ A b) (fun _ _ => id)
    fun pop l => l.insertionSort fun a b => (exDigits feasible).cv (pop.get a) ≤ (exDigits feasible).cv (pop.get b)

theorem exRankCall_ok (feasible : ℕ → Bool) : RanksOk (exDigits feasible).F (exRankCall feasible) ∧ SortsCV (exDigits feasible) (exRankCall feasible).sortCV :=
  ⟨C158_rank_and_crowding _ ⟨fun N F => chainRank_ok N F, fun l A => sortBy_ok A _, fun _ _ => Function.bijective_id⟩ _ _, fun pop l => sortBy_ok (fun a => (exDigits feasible).cv (pop.get a)) l⟩

/-- A constrained run: `11`, `12`, `21` are infeasible; `33` was of rank 0 in the first generation. -/
example : let feasible := fun x => decide (13 < x ∧ x ≠ 21)
    let s := rankRun true 3 [55, 11, 33] ⟨none, feasible, exRankCall feasible⟩ [⟨some [12, 14], feasible, exRankCall feasible⟩, ⟨some [32, 21], feasible, exRankCall feasible⟩]
    s.pop = [14, 32, 33] ∧ rankOptimum (exDigits feasible) s = some [14, 32] ∧ RanksOk (exDigits feasible).F (exRankCall feasible) := by
  intro feasible
  exact ⟨by decide +kernel, by decide +kernel, (exRankCall_ok _).1⟩

/-- **C158, refuted when the tolerance for constraints shrinks during the run** (`AdaptiveEpsilonConstraintHandling`): `22`, `12` and `33` satisfy the tolerance of the first generation, `33` is the only feasible one. The optimum is then read from ranks of that generation: after the first generation it consists of infeasible solutions only, although the feasible one is in the population; after the second one, with tolerance zero, the infeasible `12` is still reported together with the feasible `33`. -/
theorem C158_adaptive_refuted :
    let feasible := fun x => decide (x = 33)
    let s1 := rankRun true 3 [22, 12, 33] ⟨none, fun _ => true, exRankCall feasible⟩ []
    let s2 := rankRun true 3 [22, 12, 33] ⟨none, fun _ => true, exRankCall feasible⟩ [⟨none, feasible, exRankCall feasible⟩]
    33 ∈ s1.pop ∧ rankOptimum (exDigits feasible) s1 = some [12] ∧ rankOptimum (exDigits feasible) s2 = some [33, 12] ∧ ¬ feasible 12 = true := by
  decide +kernel

end Props
