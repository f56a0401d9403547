import Verif.Model.GDE3
import Verif.Props.Dominator
import Verif.Props.Survival
import Verif.Props.Repair
import Verif.Props.MaskCrossover
import Verif.Props.DESelection
import Verif.Lemmas.ChainRank
import Mathlib.Data.Fin.VecNotation
import Mathlib.Tactic.Linarith
import Mathlib.Tactic.Ring

/-!
# C100. Rank-and-crowding survival, NSDE and GDE3: good solutions are not lost, trial `k` competes with target `k`
-/

set_option linter.unusedSimpArgs false
set_option linter.unusedVariables false
set_option linter.unusedSectionVars false

namespace Props
open Model Spec Lemmas

section
variable {ι α β γ : Type*} {m : ℕ} [LinearOrder α] [AddCommGroup α] [IsOrderedAddMonoid α] [LinearOrder β] [LinearOrder γ]

/-- The violation is never negative, and zero exactly for the feasible individuals. -/
def ViolationOk [Zero β] (at' : Attrs ι α β m) : Prop := ∀ x, 0 ≤ at'.cv x ∧ (at'.feas x = true ↔ at'.cv x = 0)

/-- The random permutations and the sorting used by the survival are correct ones. -/
structure RcOk (paretoRank : (N : ℕ) → (Fin N → Fin m → α) → Fin N → ℕ) (argsort : (l : ℕ) → (Fin l → γ) → List (Fin l))
    (P : ℕ → (l : ℕ) → Fin l → Fin l) : Prop where
  rank : ∀ N F, IsParetoRank (fun i j => Dominates (F i) (F j)) (paretoRank N F)
  sort : ∀ l A, (argsort l A).Perm (List.finRange l) ∧ (argsort l A).Pairwise (fun a b => A a ≤ A b)
  perm : ∀ k l, Function.Bijective (P k l)

variable {paretoRank : (N : ℕ) → (Fin N → Fin m → α) → Fin N → ℕ} {argsort : (l : ℕ) → (Fin l → γ) → List (Fin l)}
  {P : ℕ → (l : ℕ) → Fin l → Fin l} (crowd : (l : ℕ) → (Fin l → Fin m → α) → ℕ → Fin l → γ)

theorem rcOperator_basic (h : RcOk paretoRank argsort P) (obj : ι → Fin m → α) (sub : List ι) (k : ℕ) (hn : sub.Nodup) (hk : k ≤ sub.length) :
    (rcOperator paretoRank obj crowd argsort P sub k).length = k ∧ (rcOperator paretoRank obj crowd argsort P sub k).Nodup ∧
    ∀ x ∈ rcOperator paretoRank obj crowd argsort P sub k, x ∈ sub :=
  C12_nsga2_operator paretoRank h.rank obj crowd argsort P h.sort h.perm sub hn k hk

/-- A non-dominated individual is dropped by rank-and-crowding only if all survivors are non-dominated. -/
theorem rcOperator_front (h : RcOk paretoRank argsort P) (obj : ι → Fin m → α) (sub : List ι) (k : ℕ) (hn : sub.Nodup) (hk : k ≤ sub.length) (x : ι)
    (hx : x ∈ sub) (hund : ∀ y ∈ sub, ¬ Dominates (obj y) (obj x)) (hlost : x ∉ rcOperator paretoRank obj crowd argsort P sub k) :
    ∀ y ∈ rcOperator paretoRank obj crowd argsort P sub k, ∀ z ∈ sub, ¬ Dominates (obj z) (obj y) := by
  obtain ⟨st, all, h1, h2, h3, h4, h5, -, -⟩ := C11_nsga2 (paretoRank sub.length) (h.rank sub.length) (fun i => obj (sub.get i)) crowd argsort P
    h.sort h.perm k hk
  have hop : rcOperator paretoRank obj crowd argsort P sub k = st.survivors.map sub.get := by unfold rcOperator; rw [h1]; rfl
  rw [hop] at hlost ⊢
  obtain ⟨i, hi⟩ := List.get_of_mem hx
  have hall : 0 < all.length := by
    rcases Nat.eq_zero_or_pos all.length with h0 | h0
    · have := h2.complete i
      rw [List.length_eq_zero_iff.1 h0] at this
      simp at this
    · exact h0
  have hi0 : i ∈ all[0] := by
    rw [h2.level 0 hall i]
    refine ⟨by simp, fun j hj => ?_⟩
    rw [hi] at hj
    exact absurd hj (hund (sub.get j) (List.get_mem _ _))
  have hilost : i ∉ st.survivors := fun hm => hlost (hi ▸ List.mem_map_of_mem hm)
  intro y hy z hz hdom
  obtain ⟨j, hj, rfl⟩ := List.mem_map.1 hy
  obtain ⟨l, rfl⟩ := List.get_of_mem hz
  obtain ⟨f, hf, hjf⟩ := List.mem_flatten.1 (h2.complete j)
  obtain ⟨q, hq, rfl⟩ := List.mem_iff_getElem.1 hf
  rcases Nat.eq_zero_or_pos q with h0 | h0
  · subst h0
    rw [h2.level 0 hall j] at hjf
    simpa using hjf.2 l hdom
  · exact hilost (h5 0 q hall hq h0 j hjf hj i hi0)

/-- The survival of NSGA-II, NSDE and GDE3: `RankAndCrowding` with any crowding metric. -/
def rcSurvival (paretoRank : (N : ℕ) → (Fin N → Fin m → α) → Fin N → ℕ) (crowd : (l : ℕ) → (Fin l → Fin m → α) → ℕ → Fin l → γ)
    (argsort : (l : ℕ) → (Fin l → γ) → List (Fin l)) (P : ℕ → (l : ℕ) → Fin l → Fin l) (at' : Attrs ι α β m) (split : Bool)
    (sortCV : (pop : List ι) → List (Fin pop.length) → List (Fin pop.length)) (n : ℕ) (pop : List ι) : List ι :=
  survivalDo split (rcOperator paretoRank at'.F crowd argsort P) at'.feas pop (sortCV pop) (some n)

/-- `np.argsort` of the violations. -/
def SortsCV (at' : Attrs ι α β m) (sortCV : (pop : List ι) → List (Fin pop.length) → List (Fin pop.length)) : Prop :=
  ∀ pop l, (sortCV pop l).Perm l ∧ (sortCV pop l).Pairwise fun a b => at'.cv (pop.get a) ≤ at'.cv (pop.get b)

/-- **C100** (a feasible non-dominated solution is lost only to others). Survival by rank and crowding, with any crowding metric, of a merged
population: `min(n, size)` different members survive, and if a feasible individual that no feasible individual dominates is dropped, then all
survivors are feasible and dominated by no feasible individual. -/
theorem C100_survival (h : RcOk paretoRank argsort P) (at' : Attrs ι α β m) (split : Bool) (hsplit : split = false → ∀ x, at'.feas x = true)
    (sortCV : (pop : List ι) → List (Fin pop.length) → List (Fin pop.length)) (hs : SortsCV at' sortCV) (n : ℕ) (pop : List ι) (hn : pop.Nodup) :
    let S := rcSurvival paretoRank crowd argsort P at' split sortCV n pop
    S.length = min n pop.length ∧ S.Nodup ∧ (∀ x ∈ S, x ∈ pop) ∧
    (∀ x ∈ pop, at'.feas x = true → x ∉ S → ∀ y ∈ S, at'.feas y = true) ∧
    ∀ x ∈ pop, at'.feas x = true → (∀ y ∈ pop, at'.feas y = true → ¬ Dominates (at'.F y) (at'.F x)) → x ∉ S →
      ∀ y ∈ S, at'.feas y = true ∧ ∀ z ∈ pop, at'.feas z = true → ¬ Dominates (at'.F z) (at'.F y) := by
  intro S
  cases split with
  | false =>
    have hf := hsplit rfl
    by_cases hp : pop = []
    · subst hp
      have : S = [] := by simp [S, rcSurvival, survivalDo]
      rw [this]; simp
    have e : S = rcOperator paretoRank at'.F crowd argsort P pop (min n pop.length) := by
      have := C12_unconstrained (rcOperator paretoRank at'.F crowd argsort P) at'.feas pop hp (sortCV pop) (some n)
      simpa [S, rcSurvival] using this
    obtain ⟨a1, a2, a3⟩ := rcOperator_basic crowd h at'.F pop (min n pop.length) hn (min_le_right _ _)
    rw [e]
    refine ⟨a1, a2, a3, fun x _ _ _ y _ => hf y, fun x hx hfx hund hlost y hy => ⟨hf y, fun z hz _ => ?_⟩⟩
    exact rcOperator_front crowd h at'.F pop _ hn (min_le_right _ _) x hx (fun y hy => hund y hy (hf y)) hlost y hy z hz
  | true =>
    obtain ⟨b1, b2, b3, b4, b5⟩ := C12_feasibility_first (rcOperator paretoRank at'.F crowd argsort P) at'.feas at'.cv pop hn (sortCV pop) (hs pop)
      (fun sub k hs hk => rcOperator_basic crowd h at'.F sub k hs hk) (some n)
    have hfirst : ∀ x ∈ pop, at'.feas x = true → x ∉ S → ∀ y ∈ S, at'.feas y = true := by
      intro x hx hfx hlost y hy
      by_contra hc
      exact hlost (b4 y hy (by simpa using hc) x hx hfx)
    refine ⟨b1, b2, b3, hfirst, fun x hx hfx hund hlost y hy => ⟨hfirst x hx hfx hlost y hy, ?_⟩⟩
    have hfy := hfirst x hx hfx hlost y hy
    have hp0 : pop.length ≠ 0 := fun h0 => by rw [List.length_eq_zero_iff.1 h0] at hx; simp at hx
    -- unfold the survival
    set fi := splitByFeasibility (fun i => at'.feas (pop.get i)) (sortCV pop) id true false with hfi
    have hspl := C12_split (fun i => at'.feas (pop.get i)) (fun i => at'.cv (pop.get i)) (fun i => at'.cv (pop.get i)) (sortCV pop) (sortCV pop)
      (hs pop) (hs pop) true false
    have hfi' : splitByFeasibility (fun i => at'.feas (pop.get i)) (sortCV pop) (sortCV pop) true false = fi := by
      simp [hfi, splitByFeasibility]
    rw [hfi'] at hspl
    obtain ⟨s1, s2, s3, -, -⟩ := hspl
    have hnd12 : (fi.1 ++ fi.2).Nodup := s1.nodup_iff.2 (List.nodup_finRange _)
    have hnd1 : fi.1.Nodup := (List.nodup_append.1 hnd12).1
    have hsubn : (fi.1.map pop.get).Nodup := hnd1.map (List.nodup_iff_injective_get.1 hn)
    have hsub : ∀ z, z ∈ fi.1.map pop.get ↔ z ∈ pop ∧ at'.feas z = true := by
      intro z
      rw [List.mem_map]
      constructor
      · rintro ⟨i, hi, rfl⟩
        exact ⟨List.get_mem _ _, (s2 i).1 hi⟩
      · rintro ⟨hz, hzf⟩
        obtain ⟨i, rfl⟩ := List.get_of_mem hz
        exact ⟨i, (s2 i).2 hzf, rfl⟩
    have hfl : fi.1.length ≠ 0 := fun h0 => by
      have := (hsub x).2 ⟨hx, hfx⟩
      rw [List.length_eq_zero_iff.1 h0] at this
      simp at this
    set k := min fi.1.length (min n pop.length) with hk
    set sv := rcOperator paretoRank at'.F crowd argsort P (fi.1.map pop.get) k with hsv
    have hS : S = if min n pop.length - sv.length > 0 then sv ++ (fi.2.take (min n pop.length - sv.length)).map pop.get else sv := by
      simp only [S, rcSurvival, survivalDo, if_neg hp0, Option.getD_some, if_true, ← hfi, if_neg hfl]
      rfl
    have hin : ∀ z ∈ sv, z ∈ S := by
      intro z hz
      rw [hS]
      split_ifs
      · exact List.mem_append_left _ hz
      · exact hz
    have hyv : y ∈ sv := by
      rw [hS] at hy
      split_ifs at hy
      · rcases List.mem_append.1 hy with hy | hy
        · exact hy
        · obtain ⟨i, hi, rfl⟩ := List.mem_map.1 hy
          have := (s3 i).1 (List.mem_of_mem_take hi)
          rw [this] at hfy
          cases hfy
      · exact hy
    intro z hz hzf
    refine rcOperator_front crowd h at'.F (fi.1.map pop.get) k hsubn (by rw [List.length_map]; exact min_le_left _ _) x ((hsub x).2 ⟨hx, hfx⟩) ?_
      (fun hm => hlost (hin x hm)) y hyv z ((hsub z).2 ⟨hz, hzf⟩)
    intro w hw
    exact hund w ((hsub w).1 hw).1 ((hsub w).1 hw).2

end

/-! ### GDE3 -/

section
variable {ι α β : Type*} {m : ℕ} [LinearOrder α] [LinearOrder β] (at' : Attrs ι α β m)

/-- `x` beats `y`: smaller violation, or the same violation and Pareto dominance. -/
def Wins (x y : ι) : Prop := at'.cv x < at'.cv y ∨ (at'.cv x = at'.cv y ∧ Dominates (at'.F x) (at'.F y))

theorem indRelation_spec (x y : ι) : (indRelation at' x y = 1 ↔ Wins at' x y) ∧ (indRelation at' x y = -1 ↔ Wins at' y x) ∧
    (indRelation at' x y = 0 ↔ ¬ Wins at' x y ∧ ¬ Wins at' y x) := C01_get_relation _ _ _ _

theorem gdePair_mem (p o x : ι) : x ∈ gdePair at' p o ↔ (x = p ∧ ¬ Wins at' o p) ∨ (x = o ∧ ¬ Wins at' p o) := by
  obtain ⟨h1, h2, h3⟩ := indRelation_spec at' p o
  unfold gdePair
  have hasym : Wins at' p o → ¬ Wins at' o p := fun a b => by
    have := h1.2 a
    rw [h2.2 b] at this
    omega
  by_cases c0 : indRelation at' p o = 0
  · have := h3.1 c0
    simp [c0, this]
  · by_cases c1 : indRelation at' p o = -1
    · have hw := h2.1 c1
      simp only [c1]
      have : ¬ Wins at' p o := fun a => hasym a hw
      simp [hw, this]
    · have hw : Wins at' p o := by
        by_contra hc
        by_cases hc' : Wins at' o p
        · exact c1 (h2.2 hc')
        · exact c0 (h3.2 ⟨hc, hc'⟩)
      simp [c0, c1, hw, hasym hw]

theorem gdePair_length (p o : ι) : 1 ≤ (gdePair at' p o).length ∧ (gdePair at' p o).length ≤ 2 := by
  unfold gdePair
  dsimp only
  split_ifs <;> simp_all

/-- **C100** (one-to-one competition). GDE3's pool: an `IndexError` exactly if there are fewer offspring than individuals; otherwise an individual
is in the pool exactly if it is some parent `k` not beaten by offspring `k`, or some offspring `k` not beaten by parent `k`; each pair
contributes one or two individuals. -/
theorem C100_pool : ∀ (pop infills : List ι),
    (gdePool at' pop infills = none ↔ infills.length < pop.length) ∧
    ∀ pool, gdePool at' pop infills = some pool →
      pop.length ≤ pool.length ∧ pool.length ≤ 2 * pop.length ∧
      (∀ x, x ∈ pool ↔ ∃ (k : ℕ) (p o : ι), pop[k]? = some p ∧ infills[k]? = some o ∧
        ((x = p ∧ ¬ Wins at' o p) ∨ (x = o ∧ ¬ Wins at' p o))) ∧
      List.Subperm pool (pop ++ infills) := by
  intro pop
  induction pop with
  | nil =>
    intro infills
    refine ⟨by simp [gdePool], fun pool h => ?_⟩
    obtain rfl := Option.some.inj h
    refine ⟨le_refl _, by simp, fun x => by simp, List.nil_subperm⟩
  | cons p pop ih =>
    intro infills
    cases infills with
    | nil => simp [gdePool]
    | cons o infills =>
      obtain ⟨i1, i2⟩ := ih infills
      refine ⟨by simp [gdePool, i1], fun pool h => ?_⟩
      obtain ⟨q, hq, rfl⟩ := Option.map_eq_some_iff.1 h
      obtain ⟨j1, j2, j3, j4⟩ := i2 q hq
      obtain ⟨l1, l2⟩ := gdePair_length at' p o
      refine ⟨by simp; omega, by simp; omega, fun x => ?_, ?_⟩
      · rw [List.mem_append, gdePair_mem, j3]
        constructor
        · rintro (hx | ⟨k, p', o', a, b, c⟩)
          · exact ⟨0, p, o, by simp, by simp, hx⟩
          · exact ⟨k + 1, p', o', by simpa using a, by simpa using b, c⟩
        · rintro ⟨k, p', o', a, b, c⟩
          cases k with
          | zero =>
            simp only [List.getElem?_cons_zero, Option.some.injEq] at a b
            subst a; subst b
            exact Or.inl c
          | succ k => exact Or.inr ⟨k, p', o', by simpa using a, by simpa using b, c⟩
      · have hs : List.Subperm (gdePair at' p o) [p, o] := by
          unfold gdePair
          simp only
          split_ifs
          · exact List.Subperm.refl _
          · exact (List.Sublist.cons p (List.Sublist.refl [o])).subperm
          · exact (List.Sublist.cons_cons p (List.nil_sublist [o])).subperm
        have : List.Perm ([p, o] ++ (pop ++ infills)) (p :: pop ++ o :: infills) := by
          simp only [List.cons_append, List.nil_append]
          exact (List.perm_middle.symm).cons p
        exact (List.Subperm.append hs j4).trans this.subperm

end

section
variable {ι α β γ : Type*} {m : ℕ} [LinearOrder α] [AddCommGroup α] [IsOrderedAddMonoid α] [LinearOrder β] [Zero β] [LinearOrder γ]
variable {paretoRank : (N : ℕ) → (Fin N → Fin m → α) → Fin N → ℕ} {argsort : (l : ℕ) → (Fin l → γ) → List (Fin l)}
  {P : ℕ → (l : ℕ) → Fin l → Fin l} (crowd : (l : ℕ) → (Fin l → Fin m → α) → ℕ → Fin l → γ)

/-- Whoever is beaten by its rival has a rival in the pool. -/
theorem gde_rival (at' : Attrs ι α β m) (pop infills pool : List ι) (hp : gdePool at' pop infills = some pool) (x : ι)
    (hx : x ∈ pop ∨ ∃ (k : ℕ), k < pop.length ∧ infills[k]? = some x) : x ∈ pool ∨ ∃ w ∈ pool, (w ∈ pop ∨ w ∈ infills) ∧ Wins at' w x := by
  obtain ⟨h0, h1⟩ := C100_pool at' pop infills
  obtain ⟨-, -, hmem, hsub⟩ := h1 pool hp
  have hlen : pop.length ≤ infills.length := by
    by_contra hc
    have := h0.2 (by omega)
    rw [hp] at this
    cases this
  have hasym : ∀ a b, Wins at' a b → ¬ Wins at' b a := fun a b u v => by
    obtain ⟨r1, r2, -⟩ := indRelation_spec at' a b
    have := r1.2 u
    rw [r2.2 v] at this
    omega
  rcases hx with hx | ⟨k, hk, hx⟩
  · obtain ⟨k, hk, rfl⟩ := List.mem_iff_getElem.1 hx
    have hk' : k < infills.length := by omega
    by_cases hw : Wins at' infills[k] pop[k]
    · refine Or.inr ⟨infills[k], (hmem _).2 ⟨k, pop[k], infills[k], by simp [hk], by simp [hk'], Or.inr ⟨rfl, hasym _ _ hw⟩⟩,
        Or.inr (List.getElem_mem _), hw⟩
    · exact Or.inl ((hmem _).2 ⟨k, pop[k], infills[k], by simp [hk], by simp [hk'], Or.inl ⟨rfl, hw⟩⟩)
  · by_cases hw : Wins at' pop[k] x
    · exact Or.inr ⟨pop[k], (hmem _).2 ⟨k, pop[k], x, by simp [hk], hx, Or.inl ⟨rfl, hasym _ _ hw⟩⟩, Or.inl (List.getElem_mem _), hw⟩
    · exact Or.inl ((hmem _).2 ⟨k, pop[k], x, by simp [hk], hx, Or.inr ⟨rfl, hw⟩⟩)

/-- **C100** (one generation of GDE3). With as many offspring as individuals (all different objects), the next population has the same size,
consists of different members of population and offspring, never contains fewer feasible ones than the population, and if it loses a feasible
individual that no feasible parent or offspring dominates, then all its members are feasible and dominated by no feasible parent or offspring. -/
theorem C100_generation (h : RcOk paretoRank argsort P) (at' : Attrs ι α β m) (hv : ViolationOk at') (split : Bool)
    (hsplit : split = false → ∀ x, at'.feas x = true) (sortCV : (pop : List ι) → List (Fin pop.length) → List (Fin pop.length))
    (hs : SortsCV at' sortCV) (pop infills : List ι) (hlen : infills.length = pop.length) (hnd : (pop ++ infills).Nodup) :
    ∃ S, gdeAdvance at' (rcSurvival paretoRank crowd argsort P at' split sortCV pop.length) pop infills = some S ∧
      S.length = pop.length ∧ S.Nodup ∧ (∀ x ∈ S, x ∈ pop ∨ x ∈ infills) ∧
      pop.countP at'.feas ≤ S.countP at'.feas ∧
      ∀ x ∈ pop ++ infills, at'.feas x = true → (∀ y ∈ pop ++ infills, at'.feas y = true → ¬ Dominates (at'.F y) (at'.F x)) → x ∉ S →
        ∀ y ∈ S, at'.feas y = true ∧ ∀ z ∈ pop ++ infills, at'.feas z = true → ¬ Dominates (at'.F z) (at'.F y) := by
  obtain ⟨h0, h1⟩ := C100_pool at' pop infills
  cases hp : gdePool at' pop infills with
  | none => exact absurd (h0.1 hp) (by omega)
  | some pool =>
    obtain ⟨p1, p2, p3, p4⟩ := h1 pool hp
    have hpn : pool.Nodup := by
      obtain ⟨l, hl, hs⟩ := p4
      exact hl.nodup_iff.1 (hs.nodup hnd)
    obtain ⟨s1, s2, s3, s4, s5⟩ := C100_survival crowd h at' split hsplit sortCV hs pop.length pool hpn
    set S := rcSurvival paretoRank crowd argsort P at' split sortCV pop.length pool with hS
    have hpm : ∀ x ∈ pool, x ∈ pop ++ infills := fun x hx => p4.subset hx
    have hwin : ∀ w x, Wins at' w x → at'.feas x = true → at'.feas w = true ∧ Dominates (at'.F w) (at'.F x) := by
      intro w x hw hfx
      have hx0 := (hv x).2.1 hfx
      rcases hw with hw | ⟨hw, hd⟩
      · exact absurd hw (not_lt.2 (by rw [hx0]; exact (hv w).1))
      · exact ⟨(hv w).2.2 (by rw [hw, hx0]), hd⟩
    have hside : ∀ x ∈ pop ++ infills, x ∈ pop ∨ ∃ k, k < pop.length ∧ infills[k]? = some x := by
      intro x hx
      rcases List.mem_append.1 hx with hx | hx
      · exact Or.inl hx
      · obtain ⟨k, hk, rfl⟩ := List.mem_iff_getElem.1 hx
        exact Or.inr ⟨k, by omega, by simp [hk]⟩
    refine ⟨S, by simp [gdeAdvance, hp, hS], by rw [s1]; omega, s2, fun x hx => List.mem_append.1 (hpm x (s3 x hx)), ?_, ?_⟩
    · -- the number of feasible individuals
      by_cases hall : ∃ x ∈ pool, at'.feas x = true ∧ x ∉ S
      · obtain ⟨x, hx, hfx, hl⟩ := hall
        have : S.countP at'.feas = S.length := List.countP_eq_length.2 (s4 x hx hfx hl)
        rw [this, s1]
        have := List.countP_le_length (p := at'.feas) (l := pop)
        omega
      · push Not at hall
        have e1 : pool.countP at'.feas ≤ S.countP at'.feas := by
          rw [List.countP_eq_length_filter, List.countP_eq_length_filter]
          refine (List.subperm_of_subset (hpn.filter _) ?_).length_le
          intro x hx
          rw [List.mem_filter] at hx ⊢
          exact ⟨hall x hx.1 hx.2, hx.2⟩
        refine le_trans ?_ e1
        clear_value S
        clear s1 s2 s3 s4 s5 hall e1 hS hpm hside p1 p2 p3 p4 hpn h0 h1 hnd
        induction pop generalizing infills pool with
        | nil => simp
        | cons p pop ih =>
          cases infills with
          | nil => simp at hlen
          | cons o infills =>
            obtain ⟨q, hq, rfl⟩ := Option.map_eq_some_iff.1 hp
            have := ih infills (by simpa using hlen) q hq
            rw [List.countP_append, List.countP_cons]
            have : (if at'.feas p = true then 1 else 0) ≤ (gdePair at' p o).countP at'.feas := by
              split_ifs with hf
              · rw [Nat.one_le_iff_ne_zero, ← Nat.pos_iff_ne_zero, List.countP_pos_iff]
                by_cases hw : Wins at' o p
                · refine ⟨o, (gdePair_mem at' p o o).2 (Or.inr ⟨rfl, fun h' => ?_⟩), (hwin o p hw hf).1⟩
                  obtain ⟨r1, r2, -⟩ := indRelation_spec at' p o
                  have := r1.2 h'
                  rw [r2.2 hw] at this
                  omega
                · exact ⟨p, (gdePair_mem at' p o p).2 (Or.inl ⟨rfl, hw⟩), hf⟩
              · omega
            omega
    · intro x hx hfx hund hl y hy
      have hxp : x ∈ pool := by
        rcases gde_rival at' pop infills pool hp x (hside x hx) with hm | ⟨w, hw, hw', hwx⟩
        · exact hm
        · obtain ⟨a, b⟩ := hwin w x hwx hfx
          exact absurd b (hund w (List.mem_append.2 hw') a)
      obtain ⟨t1, t2⟩ := s5 x hxp hfx (fun z hz hzf => hund z (hpm z hz) hzf) hl y hy
      refine ⟨t1, fun z hz hzf hd => ?_⟩
      rcases gde_rival at' pop infills pool hp z (hside z hz) with hm | ⟨w, hw, -, hwz⟩
      · exact t2 z hm hzf hd
      · obtain ⟨a, b⟩ := hwin w z hwz hzf
        exact t2 w hw a (dominates_strictPO.trans _ _ _ b hd)

/-- **C100** (a whole run of GDE3). Whatever offspring are produced in each generation (new objects, as many as individuals) and whatever random
numbers the survival uses: the run never raises, the population keeps its size, it consists of individuals that were evaluated, and the number
of feasible individuals never decreases; in particular a feasible solution, once found, is never followed by a population without one. -/
theorem C100_run (at' : Attrs ι α β m) (hv : ViolationOk at') (split : Bool) (hsplit : split = false → ∀ x, at'.feas x = true)
    (sortCV : (pop : List ι) → List (Fin pop.length) → List (Fin pop.length)) (hs : SortsCV at' sortCV) (hr : ∀ N F, IsParetoRank (fun i j => Dominates (F i) (F j)) (paretoRank N F))
    (hsort : ∀ l A, (argsort l A).Perm (List.finRange l) ∧ (argsort l A).Pairwise (fun a b => A a ≤ A b)) :
    ∀ (gens : List (List ι × (ℕ → (l : ℕ) → Fin l → Fin l))) (pop : List ι), (∀ g ∈ gens, g.1.length = pop.length ∧ ∀ k l, Function.Bijective (g.2 k l)) →
      (pop ++ (gens.map Prod.fst).flatten).Nodup →
      ∃ S, gdeRun at' pop (gens.map fun g => (g.1, rcSurvival paretoRank crowd argsort g.2 at' split sortCV pop.length)) = some S ∧
        S.length = pop.length ∧ S.Nodup ∧ (∀ x ∈ S, x ∈ pop ∨ ∃ g ∈ gens, x ∈ g.1) ∧ pop.countP at'.feas ≤ S.countP at'.feas := by
  intro gens
  induction gens with
  | nil => intro pop _ hn; exact ⟨pop, rfl, rfl, by simpa using hn, fun x hx => Or.inl hx, le_refl _⟩
  | cons g gens ih =>
    intro pop hg hn
    obtain ⟨g1, g2⟩ := hg g (List.mem_cons_self ..)
    simp only [List.map_cons, List.flatten_cons] at hn
    rw [← List.append_assoc] at hn
    obtain ⟨n1, n2, n3⟩ := List.nodup_append.1 hn
    obtain ⟨S, a1, a2, a3, a4, a5, -⟩ := C100_generation crowd (⟨hr, hsort, g2⟩ : RcOk paretoRank argsort g.2) at' hv split hsplit sortCV hs pop g.1 g1 n1
    obtain ⟨T, b1, b2, b3, b4, b5⟩ := ih S (fun g' hg' => by rw [a2]; exact hg g' (List.mem_cons_of_mem _ hg')) (by
      refine List.nodup_append.2 ⟨a3, n2, fun x hx y hy => ?_⟩
      exact n3 x (List.mem_append.2 (a4 x hx)) y hy)
    refine ⟨T, ?_, by omega, b3, fun x hx => ?_, by omega⟩
    · simp only [List.map_cons, gdeRun, a1, Option.bind_some]
      rw [a2] at b1
      exact b1
    · rcases b4 x hx with hx | ⟨g', hg', hx⟩
      · rcases a4 x hx with hx | hx
        · exact Or.inl hx
        · exact Or.inr ⟨g, List.mem_cons_self .., hx⟩
      · exact Or.inr ⟨g', List.mem_cons_of_mem _ hg', hx⟩

end

/-! Individuals are numbers; objectives `x / 10` and `x % 10`, violation of those above 50. -/
private def exG : Attrs ℕ ℚ ℚ 2 := ⟨fun x => ![(x / 10 : ℕ), (x % 10 : ℕ)], fun x => decide (x ≤ 50), fun x => ((x - 50 : ℕ) : ℚ)⟩

/-- Pairs: `23` against `12` (beaten), `14` against `41` (both stay), `60` against `45` (infeasible against feasible), `31` against `77`. -/
example : gdePool exG [23, 14, 60, 31] [12, 41, 45, 77] = some [12, 14, 41, 45, 31] ∧ ViolationOk exG ∧
    gdePool exG [23, 14] [12] = none ∧ ([23, 14, 60, 31] ++ [12, 41, 45, 77]).Nodup := by
  refine ⟨by decide +kernel, fun x => ⟨by simp [exG], ?_⟩, by decide +kernel, by decide⟩
  simp only [exG, decide_eq_true_eq, Nat.cast_eq_zero]
  omega

/-- The other hypotheses of `C100_generation`: a violation sort, a correct argsort, and the ranks of `Lemmas/ChainRank`. -/
example : SortsCV exG (fun pop l => l.insertionSort fun a b => exG.cv (pop.get a) ≤ exG.cv (pop.get b)) ∧
    RcOk chainRank (fun l (A : Fin l → ℚ) => (List.finRange l).insertionSort fun a b => A a ≤ A b)
      (fun _ _ => id) (m := 2) (α := ℚ) := by
  constructor
  · intro pop l
    refine ⟨List.perm_insertionSort _ _, ?_⟩
    have : Std.Total (fun a b : Fin pop.length => exG.cv (pop.get a) ≤ exG.cv (pop.get b)) := ⟨fun a b => le_total _ _⟩
    have : IsTrans (Fin pop.length) (fun a b => exG.cv (pop.get a) ≤ exG.cv (pop.get b)) := ⟨fun a b c => le_trans⟩
    exact List.pairwise_insertionSort _ _
  · refine ⟨fun N F => ?_, fun l A => ⟨List.perm_insertionSort _ _, ?_⟩, fun _ _ => Function.bijective_id⟩
    · exact chainRank_ok N F
    · have : Std.Total (fun a b : Fin l => A a ≤ A b) := ⟨fun a b => le_total _ _⟩
      have : IsTrans (Fin l) (fun a b => A a ≤ A b) := ⟨fun a b c => le_trans⟩
      exact List.pairwise_insertionSort _ _

/-! ### Trial vectors -/

section
variable {K : Type*} [Field K] [LinearOrder K] [IsStrictOrderedRing K] {n r : ℕ}

/-- The donor is the base plus the scaled differences: closed form. -/
theorem nsdeDonor_sum (F : K ⊕ K × K) (gamma : Option K) : ∀ (ds : List (NsdeDiff K n)) (base : Fin n → K) (j : Fin n),
    nsdeDonor F gamma base ds j =
      base j + (ds.map fun d => nsdeF F d.u * (gamma.elim 1 fun g => 1 + g * (d.w j - 1 / 2)) * (d.a j - d.b j)).sum := by
  intro ds
  induction ds with
  | nil => intro base j; simp [nsdeDonor]
  | cons d ds ih =>
    intro base j
    rw [nsdeDonor, ih]
    simp only [List.map_cons, List.sum_cons]
    ring

/-- **C100** (scale factors). A fixed `F` is used as it is; a pair `(lo, hi)` gives a factor between `lo` and `hi`; the jitter changes a factor by
at most `gamma / 2` (relative), and not at all without `gamma`. -/
theorem C100_factor (lo hi F u g w : K) (hlo : lo ≤ hi) (hu : 0 ≤ u ∧ u ≤ 1) (hg : 0 ≤ g) (hw : 0 ≤ w ∧ w ≤ 1) :
    nsdeF (Sum.inl F) u = F ∧ lo ≤ nsdeF (Sum.inr (lo, hi)) u ∧ nsdeF (Sum.inr (lo, hi)) u ≤ hi ∧
    |(1 + g * (w - 1 / 2)) - 1| ≤ g / 2 := by
  refine ⟨rfl, ?_, ?_, ?_⟩
  · simp only [nsdeF, Sum.elim_inr]; nlinarith [mul_nonneg hu.1 (sub_nonneg.2 hlo)]
  · simp only [nsdeF, Sum.elim_inr]; nlinarith [mul_nonneg (sub_nonneg.2 hu.2) (sub_nonneg.2 hlo)]
  · have e : (1 + g * (w - 1 / 2)) - 1 = g * (w - 1 / 2) := by ring
    rw [e, abs_le]
    constructor <;> nlinarith [mul_nonneg hg hw.1, mul_nonneg hg (sub_nonneg.2 hw.2)]

/-- The donor before the repair, written with the parents of the mating: base plus factor times difference, for every pair. -/
def trialDonor (F : K ⊕ K × K) (gamma : Option K) (X : ℕ → Fin n → K) (nDiffs : ℕ) (P : ℕ → ℕ) (u : ℕ → K) (w : ℕ → Fin n → K) (j : Fin n) : K :=
  X (P 1) j + ((List.range nDiffs).map fun k =>
    nsdeF F (u k) * (gamma.elim 1 fun g => 1 + g * (w k j - 1 / 2)) * (X (P (2 + 2 * k)) j - X (P (3 + 2 * k)) j)).sum

/-- **C100** (trial vectors). For every repair of the table, every parents matrix and all random numbers: if the population is inside the bounds, so
is every trial vector; every variable of trial `i` that is not in its mask is the one of its target (column 0 of its parents), every variable
in the mask is the donor's if that is inside the bounds; without bounds the donor is used as it is. -/
theorem C100_trial (F : K ⊕ K × K) (gamma : Option K) (k : DeRepair) (xl xu : Fin n → K) (X : ℕ → Fin n → K) (nDiffs : ℕ)
    (P : Fin r → ℕ → ℕ) (u : Fin r → ℕ → K) (w : Fin r → ℕ → Fin n → K) (u1 u2 : Fin r → Fin n → K) (M : Fin r → Fin n → Bool)
    (hX : ∀ i c j, xl j ≤ X (P i c) j ∧ X (P i c) j ≤ xu j) (hu1 : ∀ i j, 0 ≤ u1 i j ∧ u1 i j ≤ 1) (hu2 : ∀ i j, 0 ≤ u2 i j ∧ u2 i j ≤ 1)
    (i : Fin r) (j : Fin n) :
    let y := nsdeTrial F gamma k (some (xl, xu)) X nDiffs P u w u1 u2 M i j
    let d := trialDonor F gamma X nDiffs (P i) (u i) (w i) j
    (xl j ≤ y ∧ y ≤ xu j) ∧ (M i j = false → y = X (P i 0) j) ∧ (M i j = true → xl j ≤ d → d ≤ xu j → y = d) ∧
    nsdeTrial F gamma k none X nDiffs P u w u1 u2 M i j = if M i j then d else X (P i 0) j := by
  intro y d
  have hd : nsdeDonor F gamma (X (P i 1)) ((List.range nDiffs).map fun k => ⟨X (P i (2 + 2 * k)), X (P i (3 + 2 * k)), u i k, w i k⟩) j = d := by
    rw [nsdeDonor_sum]
    simp only [List.map_map]
    rfl
  set V : Fin r → Fin n → K := fun i =>
    nsdeDonor F gamma (X (P i 1)) ((List.range nDiffs).map fun k => ⟨X (P i (2 + 2 * k)), X (P i (3 + 2 * k)), u i k, w i k⟩) with hV
  have hd' : V i j = d := hd
  have hy : y = if M i j then deRepair k V (fun i => X (P i 1)) xl xu u1 u2 i j else X (P i 0) j := rfl
  have hb : ∀ j, xl j ≤ xu j := fun j => le_trans (hX i 0 j).1 (hX i 0 j).2
  have hrep : (xl j ≤ deRepair k V (fun i => X (P i 1)) xl xu u1 u2 i j ∧ deRepair k V (fun i => X (P i 1)) xl xu u1 u2 i j ≤ xu j) ∧
      (xl j ≤ V i j → V i j ≤ xu j → deRepair k V (fun i => X (P i 1)) xl xu u1 u2 i j = V i j) := by
    obtain ⟨a1, a2, a3⟩ := C24_de_repairs V (fun i => X (P i 1)) xl xu u1 u2 hu1 hu2 i j
    cases k with
    | bounceBack =>
      obtain ⟨b1, b2, b3, -, -⟩ := C24_random_init V (fun i => X (P i 1)) xl xu u1 u2 hu1 hu2 (fun i j => hX i 1 j) i j
      exact ⟨⟨b1, b2⟩, b3⟩
    | midway => exact ⟨a1 (hX i 1 j), fun e1 e2 => (a3 e1 e2).1⟩
    | randInit => exact ⟨a2 (hb j), fun e1 e2 => (a3 e1 e2).2⟩
    | toBounds =>
      obtain ⟨b1, b2, -, -, b5⟩ := C24_clamp V xl xu hb i j
      exact ⟨⟨b1, b2⟩, b5⟩
  refine ⟨?_, fun h => ?_, fun h e1 e2 => ?_, ?_⟩
  · rw [hy]
    split_ifs
    · exact hrep.1
    · exact hX i 0 j
  · rw [hy, h]; rfl
  · rw [hy, h]
    rw [← hd'] at e1 e2 ⊢
    exact hrep.2 e1 e2
  · have : nsdeTrial F gamma k none X nDiffs P u w u1 u2 M i j = if M i j then V i j else X (P i 0) j := rfl
    rw [this, hd']

/-- **C100** (pairing). With the default selection (`rand`) and a mask drawn "at least once", trial `k` is built on individual `k` (so GDE3 compares it
with its own target) and differs from it at most at the variables of the mask, of which there is at least one; base and difference vectors come
from different individuals, none of them the target. -/
theorem C100_pairing (fuel nPop nDiffs : ℕ) (draws : ℕ → ℕ → ℕ → ℕ) (hd : ∀ j t k, draws j t k < nPop) (P : List (List ℕ))
    (h : desRand fuel nPop nPop (2 + 2 * nDiffs) draws = some P) (F : K ⊕ K × K) (gamma : Option K) (rep : DeRepair)
    (bounds : Option ((Fin n → K) × (Fin n → K))) (X : ℕ → Fin n → K) (u : Fin nPop → ℕ → K) (w : Fin nPop → ℕ → Fin n → K)
    (u1 u2 : Fin nPop → Fin n → K) (bits : Fin nPop → Fin n → Bool) (rd : Fin nPop → Fin n) (k : Fin nPop) :
    let Q : Fin nPop → ℕ → ℕ := fun i c => (P.getD i []).getD c 0
    let M : Fin nPop → Fin n → Bool := fun i => mutBinomial true (bits i) (rd i)
    (Q k 0 = k ∧ (∀ a b, a < 2 + 2 * nDiffs → b < 2 + 2 * nDiffs → a ≠ b → Q k a ≠ Q k b) ∧ ∀ a < 2 + 2 * nDiffs, Q k a < nPop) ∧
    (∃ j, M k j = true) ∧
    ∀ j, M k j = false → nsdeTrial F gamma rep bounds X nDiffs Q u w u1 u2 M k j = X k j := by
  intro Q M
  obtain ⟨h1, h2⟩ := C40_rand fuel nPop nPop (2 + 2 * nDiffs) draws hd P h
  obtain ⟨t, t1, t2, t3, t4⟩ := h2 k k.2
  have hrow : P.getD (k : ℕ) [] = (k : ℕ) :: t := by simp [List.getD, t1]
  have hQ : ∀ c, Q k c = ((k : ℕ) :: t).getD c 0 := fun c => by simp only [Q, hrow]
  have hget : ∀ c (hc : c < ((k : ℕ) :: t).length), Q k c = ((k : ℕ) :: t)[c] := fun c hc => by
    rw [hQ, List.getD_eq_getElem?_getD, List.getElem?_eq_getElem hc]; rfl
  have h0 : Q k 0 = k := by rw [hQ]; rfl
  refine ⟨⟨h0, ?_, ?_⟩, ?_, ?_⟩
  · intro a b ha hb hab heq
    rw [hget a (by omega), hget b (by omega)] at heq
    exact hab ((List.Nodup.getElem_inj_iff t3).1 heq)
  · intro a ha
    rw [hget a (by omega)]
    rcases List.mem_cons.1 (List.getElem_mem (l := (k : ℕ) :: t) (n := a) (by omega)) with h' | h'
    · rw [h']; exact k.2
    · exact t4 _ h'
  · obtain ⟨c1, c2⟩ := C26_at_least_once (bits k) (rd k)
    by_cases hb : ∃ p, bits k p = true
    · obtain ⟨p, hp⟩ := hb
      refine ⟨p, ?_⟩
      simp only [M, mutBinomial, if_true]
      rw [c1 ⟨p, hp⟩]
      exact hp
    · push Not at hb
      refine ⟨rd k, ?_⟩
      simp only [M, mutBinomial, if_true]
      exact (c2 (fun p => by simpa using hb p) (rd k)).2 rfl
  · intro j hj
    simp only [nsdeTrial, hj, h0]
    rfl

/-- One trial: target 1, base 2, donor `2 + 1/2 * (5 - 3) = 3` in the first variable, out of bounds in the second. -/
example : let X : ℕ → Fin 2 → ℚ := fun i => [![0, 0], ![1, 1], ![2, 4], ![5, 5], ![3, 0]].getD i ![0, 0]
    (∀ j, nsdeTrial (Sum.inl (1 / 2)) none .toBounds (some (![0, 0], ![5, 5])) X 1 (fun (_ : Fin 1) c => c + 1)
      (fun _ _ => 0) (fun _ _ _ => 0) (fun _ _ => 0) (fun _ _ => 0) (fun _ _ => true) 0 j = ![3, 5] j) ∧
    (∀ j, trialDonor (Sum.inl (1 / 2)) none X 1 (fun c => c + 1) (fun _ => 0) (fun _ _ => 0) j = ![3, 13 / 2] j) := by
  decide +kernel

end
end Props
