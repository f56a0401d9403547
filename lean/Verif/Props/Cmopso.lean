import Verif.Model.Cmopso
import Verif.Props.Mopso
import Verif.Props.Elitism

/-!
# C103. CMOPSO: population, elites, flight
-/

set_option linter.unusedSimpArgs false
set_option linter.unusedVariables false
set_option linter.unusedSectionVars false

namespace Props
open Model Spec Lemmas

section
variable {ι α β γ : Type*} {m : ℕ} [Field α] [LinearOrder α] [IsStrictOrderedRing α] [LinearOrder β] [LinearOrder γ]

theorem cmoTournament_ok (crowd : List ι → ℕ → γ) (draw : ℕ → List ℕ → List ℕ) (hd : DrawOk draw) (sub : List ι) (k : ℕ) (hk : k ≤ sub.length) :
    (cmoTournament crowd draw sub k).length = k ∧ ∀ x ∈ cmoTournament crowd draw sub k, x ∈ sub := by
  obtain ⟨I, i1, i2, i3, i4, -⟩ := C101_tournament (crowd sub) draw hd k 0 (List.range sub.length) List.nodup_range (by simpa using hk)
  unfold cmoTournament
  rw [i1]
  simp only [Option.map_some, Option.getD_some]
  refine ⟨?_, ?_⟩
  · rw [filterMap_length_of sub I (fun s hs => List.mem_range.1 (i4 s hs)), i2]
  · intro x hx
    obtain ⟨i, -, hi⟩ := List.mem_filterMap.1 hx
    exact List.mem_of_getElem? hi

/-- **C103** (truncation of the elites). Whatever is drawn, the tournament truncation returns exactly the number of elites asked for, all of them members. -/
theorem C103_truncation (crowd : List ι → ℕ → γ) (draw : ℕ → List ℕ → List ℕ) (hd : DrawOk draw) (split : Bool) (feas : ι → Bool)
    (sortCV : (pop : List ι) → List (Fin pop.length) → List (Fin pop.length)) (hs : ∀ pop l, (sortCV pop l).Perm l) :
    TruncOK (cmoTrunc crowd draw split feas sortCV) := by
  intro l t ht
  unfold cmoTrunc survivalDo
  by_cases h0 : l.length = 0
  · rw [if_pos h0]
    exact ⟨by omega, fun x hx => hx⟩
  rw [if_neg h0]
  simp only [Option.getD_some, min_eq_left ht]
  cases split with
  | false =>
    simp only [Bool.false_eq_true, if_false]
    exact cmoTournament_ok crowd draw hd l t ht
  | true =>
    simp only [if_true]
    set fi := splitByFeasibility (fun i => feas (l.get i)) (sortCV l) id true false with hfi
    have hlen : fi.1.length + fi.2.length = l.length := by
      have e1 : fi.1 = (List.finRange l.length).filter fun i => feas (l.get i) := by simp [hfi, splitByFeasibility]
      have e2 : fi.2 = sortCV l ((List.finRange l.length).filter fun i => !feas (l.get i)) := by simp [hfi, splitByFeasibility]
      rw [e1, e2, (hs l _).length_eq, ← List.length_append, (List.filter_append_perm _ _).length_eq]
      simp
    obtain ⟨c1, c2⟩ := cmoTournament_ok crowd draw hd (fi.1.map l.get) (min fi.1.length t) (by simp)
    have hsv : (if fi.1.length = 0 then [] else cmoTournament crowd draw (fi.1.map l.get) (min fi.1.length t)).length = min fi.1.length t ∧
        ∀ x ∈ (if fi.1.length = 0 then [] else cmoTournament crowd draw (fi.1.map l.get) (min fi.1.length t)), x ∈ l := by
      split_ifs with h
      · simp [h]
      · refine ⟨c1, fun x hx => ?_⟩
        obtain ⟨i, -, rfl⟩ := List.mem_map.1 (c2 x hx)
        exact List.get_mem _ _
    generalize (if fi.1.length = 0 then [] else cmoTournament crowd draw (fi.1.map l.get) (min fi.1.length t)) = sv at hsv ⊢
    split_ifs with h
    · refine ⟨?_, ?_⟩
      · rw [List.length_append, List.length_map, List.length_take, hsv.1]
        omega
      · intro x hx
        rcases List.mem_append.1 hx with hx | hx
        · exact hsv.2 x hx
        · obtain ⟨i, -, rfl⟩ := List.mem_map.1 hx
          exact List.get_mem _ _
    · exact ⟨by rw [hsv.1] at h ⊢; omega, hsv.2⟩

variable (paretoRank : ∀ n, (Fin n → Fin m → α) → Fin n → ℕ)

/-- The generations as calls of the generation loop of the genetic algorithms. -/
def cmoGens (gens : List (CmoGen ι)) : List (Option (List ι) × SurvCall ι) := gens.map fun g => (some g.infills, g.call)

/-- Everything evaluated. -/
def cmoAll (init : CmoGen ι) (gens : List (CmoGen ι)) : List ι := init.infills ++ (gens.map CmoGen.infills).flatten

theorem cmoAll_eq (init : CmoGen ι) (gens : List (CmoGen ι)) : cmoAll init gens = genAll (init.infills, init.call) (cmoGens gens) := by
  unfold cmoAll genAll cmoGens
  rw [List.map_map]
  rfl

theorem archiveRun_append (cfg : ArchiveCfg ι) (f : List ι → Option (List ι)) (calls : List (List ι × (List ι → ℕ → List ι))) (d : List ι × (List ι → ℕ → List ι)) :
    ∀ self, archiveRun cfg f self (calls ++ [d]) = (archiveRun cfg f self calls).bind fun a => archiveAdd cfg f d.2 a d.1 := by
  induction calls with
  | nil => intro self; simp [archiveRun]
  | cons c calls ih =>
    intro self
    simp only [List.cons_append, archiveRun]
    cases archiveAdd cfg f c.2 self c.1 with
    | none => rfl
    | some a => simp only [Option.bind_some, ih]

/-- The calls of `elites.add` along a run. -/
theorem cmoRun_calls (c : CmoCfg ι α β m) (cfg : ArchiveCfg ι) (hcfg : cmoArchive c = some cfg) (init : CmoGen ι) (gens : List (CmoGen ι)) (s : CmoState ι)
    (hr : cmoRun paretoRank c init gens = some s)
    (hsub : ∀ k ≤ gens.length, ∀ x ∈ geneticRun c.split c.at'.feas c.popSize false (init.infills, init.call) (cmoGens (gens.take k)), x ∈ cmoAll init (gens.take k)) :
    s.pop = geneticRun c.split c.at'.feas c.popSize false (init.infills, init.call) (cmoGens gens) ∧
    ∃ calls, archiveRun cfg (findOptMulti paretoRank c.at') [] calls = some s.elites ∧
      (∀ d ∈ calls, d.2 = init.trunc ∨ ∃ g ∈ gens, d.2 = g.trunc) ∧
      ∀ x, x ∈ cmoAll init gens ↔ ∃ d ∈ calls, x ∈ d.1 := by
  induction gens using List.reverseRecOn generalizing s with
  | nil =>
    simp only [cmoRun, List.foldlM_nil, Option.pure_def] at hr
    obtain ⟨s', hr, h'⟩ := Option.bind_eq_some_iff.1 hr
    obtain ⟨e, h1, rfl⟩ := Option.map_eq_some_iff.1 hr
    simp only [Option.some.injEq] at h'
    subst h'
    refine ⟨by simp [geneticRun, geneticInit, cmoGens], [(init.infills, init.trunc)], ?_, by simp, by simp [cmoAll]⟩
    rw [cmoAdd, hcfg, Option.bind_some] at h1
    simp [archiveRun, h1]
  | append_singleton gens g ih =>
    have hsplit : cmoRun paretoRank c init (gens ++ [g]) = (cmoRun paretoRank c init gens).bind fun s => cmoNext paretoRank c s g := by
      unfold cmoRun
      cases cmoInit paretoRank c init with
      | none => rfl
      | some s => simp [List.foldlM_append]
    rw [hsplit] at hr
    obtain ⟨s0, h0, hr⟩ := Option.bind_eq_some_iff.1 hr
    obtain ⟨e, h1, rfl⟩ := Option.map_eq_some_iff.1 hr
    obtain ⟨hp, calls, k1, k2, k3⟩ := ih s0 h0 (fun k hk => by
      have := hsub k (by simp; omega)
      rwa [List.take_append_of_le_length hk] at this)
    have hall : cmoAll init (gens ++ [g]) = cmoAll init gens ++ g.infills := by simp [cmoAll]
    have hps := hsub gens.length (by simp)
    rw [List.take_left' rfl, ← hp] at hps
    refine ⟨?_, calls ++ [(s0.pop ++ g.infills, g.trunc)], ?_, ?_, ?_⟩
    · simp only [geneticRun, cmoGens, List.map_append, List.foldl_append, List.map_cons, List.map_nil, List.foldl_cons, List.foldl_nil]
      change _ = geneticAdvance c.split c.at'.feas c.popSize (geneticRun c.split c.at'.feas c.popSize false (init.infills, init.call) (cmoGens gens)) (some g.infills, g.call)
      rw [← hp]; rfl
    · rw [archiveRun_append, k1, Option.bind_some]
      rw [cmoAdd, hcfg, Option.bind_some] at h1
      exact h1
    · intro d hd
      rcases List.mem_append.1 hd with hd | hd
      · rcases k2 d hd with h | ⟨g', hg', h⟩
        · exact Or.inl h
        · exact Or.inr ⟨g', by simp [hg'], h⟩
      · simp only [List.mem_singleton] at hd
        subst hd
        exact Or.inr ⟨g, by simp, rfl⟩
    · intro x
      rw [hall]
      constructor
      · intro hx
        rcases List.mem_append.1 hx with hx | hx
        · obtain ⟨d, hd, hxd⟩ := (k3 x).1 hx
          exact ⟨d, List.mem_append_left _ hd, hxd⟩
        · exact ⟨_, List.mem_append_right _ (List.mem_singleton_self _), List.mem_append_right _ hx⟩
      · rintro ⟨d, hd, hx⟩
        rcases List.mem_append.1 hd with hd | hd
        · exact List.mem_append_left _ ((k3 x).2 ⟨d, hd, hx⟩)
        · simp only [List.mem_singleton] at hd
          subst hd
          rcases List.mem_append.1 hx with h | h
          · exact List.mem_append_left _ (hps x h)
          · exact List.mem_append_right _ h

theorem cmoRun_some (hpr : ∀ n F, IsParetoRank (fun i j => Dominates (F i) (F j)) (paretoRank n F)) (c : CmoCfg ι α β m) (hp1 : 1 ≤ c.popSize) (he1 : 1 ≤ c.eliteSize)
    (init : CmoGen ι) (hi : init.infills ≠ []) (hti : TruncOK init.trunc) (gens : List (CmoGen ι)) (htg : ∀ g ∈ gens, TruncOK g.trunc) :
    ∃ s, cmoRun paretoRank c init gens = some s ∧ s.elites ≠ [] := by
  obtain ⟨cfg, hcfg⟩ : ∃ cfg, cmoArchive c = some cfg := ⟨_, rfl⟩
  obtain ⟨hl, -⟩ := mkArchive_limits (some c.popSize) (some c.eliteSize) (some c.near) cfg hcfg (by simp; omega) (by simp; omega)
  have hadd : ∀ trunc, TruncOK trunc → ∀ e sols, e ++ sols ≠ [] → ∃ r, cmoAdd paretoRank c trunc e sols = some r ∧ r ≠ [] := by
    intro trunc ht e sols hne
    obtain ⟨-, a2⟩ := archiveAdd_some cfg c.at' _ (findOptMulti_best paretoRank hpr c.at') trunc ht hl e sols
    obtain ⟨_, res, h1, h2, h3, h4⟩ := a2 hne
    exact ⟨res, by rw [cmoAdd, hcfg, Option.bind_some]; exact h1, by first | exact h2 | exact h3 | exact h4 | exact h4.1⟩
  induction gens using List.reverseRecOn with
  | nil =>
    obtain ⟨r, r1, r2⟩ := hadd init.trunc hti [] init.infills (by simpa using hi)
    exact ⟨⟨init.infills, r⟩, by simp [cmoRun, cmoInit, r1], r2⟩
  | append_singleton gens g ih =>
    obtain ⟨s0, h0, hne⟩ := ih (fun g' hg' => htg g' (by simp [hg']))
    have hsplit : cmoRun paretoRank c init (gens ++ [g]) = (cmoRun paretoRank c init gens).bind fun s => cmoNext paretoRank c s g := by
      unfold cmoRun
      cases cmoInit paretoRank c init with
      | none => rfl
      | some s => simp [List.foldlM_append]
    obtain ⟨r, r1, r2⟩ := hadd g.trunc (htg g (by simp)) s0.elites (s0.pop ++ g.infills) (by simp [hne])
    exact ⟨⟨_, r⟩, by rw [hsplit, h0, Option.bind_some]; simp only [cmoNext, r1]; rfl, r2⟩

/-- **C103** (population and elites of a whole run). Whatever the new particles are, constrained or not: the run never raises; the population keeps `pop_size` different
evaluated individuals; there is at least one elite and there are at most `pop_size`; the elites are evaluated individuals, none of which beats
another (feasible first, then dominance, then violation), and all are feasible as soon as one feasible individual was evaluated. -/
theorem C103_run (hpr : ∀ n F, IsParetoRank (fun i j => Dominates (F i) (F j)) (paretoRank n F)) (c : CmoCfg ι α β m)
    (hsplit : c.split = false → ∀ x, c.at'.feas x = true) (hp1 : 1 ≤ c.popSize) (he1 : 1 ≤ c.eliteSize)
    (init : CmoGen ι) (hi : init.infills.length = c.popSize) (hci : CallOk c.at' init.call) (hti : TruncOK init.trunc) (gens : List (CmoGen ι))
    (hg : ∀ g ∈ gens, CallOk c.at' g.call ∧ TruncOK g.trunc) (hnd : (cmoAll init gens).Nodup) :
    ∃ s, cmoRun paretoRank c init gens = some s ∧ s.pop.length = c.popSize ∧ s.pop.Nodup ∧ (∀ x ∈ s.pop, x ∈ cmoAll init gens) ∧
      s.elites ≠ [] ∧ s.elites.length ≤ c.popSize ∧ (∀ x ∈ s.elites, x ∈ cmoAll init gens) ∧
      (∀ x ∈ s.elites, ∀ y ∈ s.elites, ¬ Beats (c.at'.F y) (c.at'.feas y) (c.at'.cv y) (c.at'.F x) (c.at'.feas x) (c.at'.cv x)) ∧
      ((∃ x ∈ cmoAll init gens, c.at'.feas x = true) → ∀ x ∈ s.elites, c.at'.feas x = true) := by
  have hne : init.infills ≠ [] := by rintro h; rw [h] at hi; simp at hi; omega
  obtain ⟨s, hs, hse⟩ := cmoRun_some paretoRank hpr c hp1 he1 init hne hti gens fun g h => (hg g h).2
  obtain ⟨cfg, hcfg⟩ : ∃ cfg, cmoArchive c = some cfg := ⟨_, rfl⟩
  have hrun : ∀ k ≤ gens.length, _ := fun k (hk : k ≤ gens.length) => C102_run c.at' c.split hsplit c.popSize hp1 false (init.infills, init.call) hi hci (cmoGens (gens.take k))
    (by
      intro g hg'
      obtain ⟨g0, h0, rfl⟩ := List.mem_map.1 hg'
      exact (hg g0 (List.mem_of_mem_take h0)).1)
    (by
      rw [← cmoAll_eq]
      refine hnd.sublist ?_
      unfold cmoAll
      refine List.Sublist.append_left ?_ _
      rw [List.map_take]
      conv_rhs => rw [← List.take_append_drop k (gens.map CmoGen.infills), List.flatten_append]
      exact List.sublist_append_left _ _)
  obtain ⟨q1, calls, q2, q3, q4⟩ := cmoRun_calls paretoRank c cfg hcfg init gens s hs (fun k hk x hx => by
    rw [cmoAll_eq]; exact (hrun k hk).2.2.1 x hx)
  have hfull := hrun gens.length (le_refl _)
  rw [List.take_length, ← q1, ← cmoAll_eq] at hfull
  have htr : ∀ d ∈ calls, TruncOK d.2 := by
    intro d hd
    rcases q3 d hd with h | ⟨g, hgm, h⟩
    · rw [h]; exact hti
    · rw [h]; exact (hg g hgm).2
  obtain ⟨-, z2⟩ := C22_size_limit (α := α) (β := β) (m := m) c.popSize hp1 (some c.eliteSize) (by simp; omega) (some c.near) cfg hcfg calls htr s.elites
  obtain ⟨z3, z4⟩ := z2 paretoRank hpr c.at' q2
  obtain ⟨y1, y2, y3⟩ := C22_multi_objective_consistent paretoRank hpr (some c.popSize) (some c.eliteSize) (by simp; omega) (by simp; omega) (some c.near) cfg hcfg c.at' calls htr s.elites q2
  refine ⟨s, hs, hfull.1, hfull.2.1, hfull.2.2.1, hse, z3, fun x hx => (q4 x).2 (z4 x hx), y2, fun hf => y3 ?_⟩
  obtain ⟨x, hx, hxf⟩ := hf
  obtain ⟨d, hd, hxd⟩ := (q4 x).1 hx
  exact ⟨x, List.mem_flatten.2 ⟨d.1, List.mem_map_of_mem hd, hxd⟩, hxf⟩

/-- **C103** (the population keeps the front while it fits). As long as never more than `pop_size` of the evaluated solutions are feasible and non-dominated, the population of
CMOPSO contains all of them. -/
theorem C103_complete (c : CmoCfg ι α β m) (hsplit : c.split = false → ∀ x, c.at'.feas x = true) (hp1 : 1 ≤ c.popSize)
    (init : CmoGen ι) (hci : CallOk c.at' init.call) (gens : List (CmoGen ι)) (hg : ∀ g ∈ gens, CallOk c.at' g.call) (hnd : (cmoAll init gens).Nodup)
    (hfits : ∀ k ≤ gens.length, ∀ L : List ι, L.Nodup → (∀ x ∈ L, feasibleFront c.at' (cmoAll init (gens.take k)) x) → L.length ≤ c.popSize)
    (s : CmoState ι) (hr : cmoRun paretoRank c init gens = some s) : ∀ x, feasibleFront c.at' (cmoAll init gens) x → x ∈ s.pop := by
  have hpop : ∀ (gens : List (CmoGen ι)) (s : CmoState ι), cmoRun paretoRank c init gens = some s →
      s.pop = geneticRun c.split c.at'.feas c.popSize false (init.infills, init.call) (cmoGens gens) := by
    intro gens
    induction gens using List.reverseRecOn with
    | nil =>
      intro s hr
      simp only [cmoRun, List.foldlM_nil, Option.pure_def] at hr
      obtain ⟨s', hr, h'⟩ := Option.bind_eq_some_iff.1 hr
      obtain ⟨e, h1, rfl⟩ := Option.map_eq_some_iff.1 hr
      simp only [Option.some.injEq] at h'
      subst h'
      simp [geneticRun, geneticInit, cmoGens]
    | append_singleton gens g ih =>
      intro s hr
      have hsp : cmoRun paretoRank c init (gens ++ [g]) = (cmoRun paretoRank c init gens).bind fun s => cmoNext paretoRank c s g := by
        unfold cmoRun
        cases cmoInit paretoRank c init with
        | none => rfl
        | some s => simp [List.foldlM_append]
      rw [hsp] at hr
      obtain ⟨s0, h0, hr⟩ := Option.bind_eq_some_iff.1 hr
      obtain ⟨e, h1, rfl⟩ := Option.map_eq_some_iff.1 hr
      have hp := ih s0 h0
      simp only [geneticRun, cmoGens, List.map_append, List.foldl_append, List.map_cons, List.map_nil, List.foldl_cons, List.foldl_nil]
      change _ = geneticAdvance c.split c.at'.feas c.popSize (geneticRun c.split c.at'.feas c.popSize false (init.infills, init.call) (cmoGens gens)) (some g.infills, g.call)
      rw [← hp]; rfl
  rw [cmoAll_eq] at hnd ⊢
  rw [hpop gens s hr]
  refine (C102_complete c.at' c.split hsplit c.popSize hp1 false (init.infills, init.call) hci (cmoGens gens) ?_ hnd ?_).2.2
  · intro g hg'
    obtain ⟨g0, h0, rfl⟩ := List.mem_map.1 hg'
    exact hg g0 h0
  · intro k hk L hL hx
    refine hfits k (by simpa [cmoGens] using hk) L hL fun x hxL => ?_
    rw [cmoAll_eq, cmoGens, List.map_take]
    exact hx x hxL

end


/-! ### Flight -/

/-- **C103** (the winner). With at least one elite every particle gets a winner: one of the two elites drawn, whose angle to the particle is not larger than that of the
other one. -/
theorem C103_winner {X K : Type*} [LinearOrder K] (angle : X → X → K) (L : List X) (x : X) (i j : ℕ) (hi : i < L.length) (hj : j < L.length) :
    ∃ w, cmoWinner angle L x i j = some w ∧ (w = L[i] ∨ w = L[j]) ∧ w ∈ L ∧ angle w x ≤ angle L[i] x ∧ angle w x ≤ angle L[j] x := by
  unfold cmoWinner
  rw [List.getElem?_eq_getElem hi, List.getElem?_eq_getElem hj]
  simp only [Option.bind_some, Option.map_some]
  split_ifs with h
  · exact ⟨_, rfl, Or.inr rfl, List.getElem_mem _, h.le, le_refl _⟩
  · exact ⟨_, rfl, Or.inl rfl, List.getElem_mem _, le_refl _, not_lt.1 h⟩

example : cmoWinner (fun a x : ℤ => |a - x|) [7, 3, 4] 5 0 2 = some 4 := by decide

section
variable {K : Type*} [Field K] [LinearOrder K] [IsStrictOrderedRing K] {n : ℕ}

/-- **C103** (velocities). For all random numbers the new velocity stays within `max_velocity_rate` times the range of the variable, the particle moves exactly by it (before
mutation and repair), and if the unclipped velocity is within the limit it is not changed. Without inertia (`r1 = 0`) and without clipping a particle
never overshoots the winner. -/
theorem C103_flight (rate : K) (hrate : 0 ≤ rate) (xl xu v x w r1 r2 : Fin n → K) (hb : ∀ j, xl j ≤ xu j) (j : Fin n) :
    let v' := cmoVelocity (mopVmax rate xl xu) v x w r1 r2
    |v' j| ≤ rate * (xu j - xl j) ∧ cmoPosition x v' j - x j = v' j ∧
    (|r1 j * v j + r2 j * (w j - x j)| ≤ rate * (xu j - xl j) → v' j = r1 j * v j + r2 j * (w j - x j)) ∧
    (r1 j = 0 → 0 ≤ r2 j → r2 j ≤ 1 → min (x j) (w j) ≤ cmoPosition x v' j ∧ cmoPosition x v' j ≤ max (x j) (w j)) := by
  intro v'
  have hv : 0 ≤ rate * (xu j - xl j) := mul_nonneg hrate (sub_nonneg.2 (hb j))
  obtain ⟨a1, a2, a3⟩ := mopClamp_mem (-(rate * (xu j - xl j))) (rate * (xu j - xl j)) (r1 j * v j + r2 j * (w j - x j)) (by linarith)
  refine ⟨abs_le.2 ⟨a1, a2⟩, by simp [cmoPosition], fun h => a3 (abs_le.1 h).1 (abs_le.1 h).2, fun h0 h1 h2 => ?_⟩
  have hval : v' j = mopClamp (-(rate * (xu j - xl j))) (rate * (xu j - xl j)) (r2 j * (w j - x j)) := by
    simp [v', cmoVelocity, mopVmax, h0]
  simp only [cmoPosition]
  rw [hval]
  set V := rate * (xu j - xl j)
  unfold mopClamp
  rcases le_total (x j) (w j) with h | h
  · have e1 : 0 ≤ r2 j * (w j - x j) := mul_nonneg h1 (sub_nonneg.2 h)
    have e2 : r2 j * (w j - x j) ≤ w j - x j := mul_le_of_le_one_left (sub_nonneg.2 h) h2
    rw [min_eq_left h, max_eq_right h]
    simp only []
    split_ifs <;> constructor <;> linarith
  · have e1 : r2 j * (w j - x j) ≤ 0 := mul_nonpos_of_nonneg_of_nonpos h1 (sub_nonpos.2 h)
    have e2 : w j - x j ≤ r2 j * (w j - x j) := by nlinarith
    rw [min_eq_right h, max_eq_left h]
    simp only []
    split_ifs <;> constructor <;> linarith

example : cmoVelocity (mopVmax (1 / 5 : ℚ) (fun _ => 0) fun _ => 10) (fun (_ : Fin 1) => 1) (fun _ => 1) (fun _ => 9) (fun _ => 1 / 2) (fun _ => 1 / 8) 0 = 3 / 2 := by
  decide +kernel

/-- **C103** (initial velocities). `"random"` gives velocities between zero and the limit (never negative ones), `"zero"` gives zero, anything else raises. -/
theorem C103_initial (rate : K) (hrate : 0 ≤ rate) (xl xu r : Fin n → K) (hb : ∀ j, xl j ≤ xu j) (hr : ∀ j, 0 ≤ r j ∧ r j < 1) (kind : String) :
    (∀ v, cmoInitV kind (mopVmax rate xl xu) r = some v → ∀ j, 0 ≤ v j ∧ v j ≤ rate * (xu j - xl j)) ∧
    (cmoInitV kind (mopVmax rate xl xu) r = none ↔ kind ≠ "random" ∧ kind ≠ "zero") := by
  have hv : ∀ j, 0 ≤ rate * (xu j - xl j) := fun j => mul_nonneg hrate (sub_nonneg.2 (hb j))
  unfold cmoInitV
  constructor
  · intro v h j
    split_ifs at h with h1 h2
    · simp only [Option.some.injEq] at h
      subst h
      exact ⟨mul_nonneg (hr j).1 (hv j), mul_le_of_le_one_left (hv j) (hr j).2.le⟩
    · simp only [Option.some.injEq] at h
      subst h
      exact ⟨le_refl _, hv j⟩
  · split_ifs with h1 h2
    · simp [h1]
    · simp [h1, h2]
    · simp [h1, h2]

end

/-- Two generations on the digits problem, population of three, at most two elites after a truncation. -/
example : (cmoRun chainRank (⟨exDigits fun _ => true, 3, 2, fun x y => decide (x = y), false⟩ : CmoCfg ℕ ℚ ℚ 2)
      ⟨[44, 13, 55], exSpea fun _ => true, fun l t => l.take t⟩
      [⟨[22, 31], exSpea fun _ => true, fun l t => l.take t⟩, ⟨[40, 17], exSpea fun _ => true, fun l t => l.take t⟩]) = some ⟨[13, 31, 40], [13, 22]⟩ := by
  decide +kernel

end Props
