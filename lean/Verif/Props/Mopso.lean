import Verif.Model.Mopso
import Verif.Props.Optimum
import Verif.Lemmas.ChainRank
import Mathlib.Data.List.Induction
import Mathlib.Tactic.Linarith
import Mathlib.Tactic.Ring

/-!
# C101. MOPSO-CD: archive, optimum, personal bests, flight
-/

set_option linter.unusedSimpArgs false
set_option linter.unusedVariables false
set_option linter.unusedSectionVars false

namespace Props
open Model Spec Lemmas

/-- `choice(remaining, size=min(3, len), replace=False)`: different members, three if there are three. -/
def DrawOk (draw : ℕ → List ℕ → List ℕ) : Prop :=
  ∀ t rem, rem.Nodup → (draw t rem).Nodup ∧ (draw t rem).length = min 3 rem.length ∧ ∀ i ∈ draw t rem, i ∈ rem

/-- **C101** (tournaments). Reducing `n` solutions to `size` by the tournaments: exactly `size` different positions are kept, whatever is drawn, and a solution
whose crowding distance is smaller than that of all others is always dropped. -/
theorem C101_tournament {γ : Type*} [LinearOrder γ] (crowd : ℕ → γ) (draw : ℕ → List ℕ → List ℕ) (hd : DrawOk draw) :
    ∀ (k t : ℕ) (rem : List ℕ), rem.Nodup → k ≤ rem.length → ∃ I, mopTournament crowd draw k t rem = some I ∧ I.length = k ∧ I.Nodup ∧ (∀ i ∈ I, i ∈ rem) ∧
      ∀ w ∈ rem, k < rem.length → (∀ i ∈ rem, i ≠ w → crowd w < crowd i) → w ∉ I := by
  intro k
  induction k with
  | zero => intro t rem _ _; exact ⟨[], rfl, rfl, List.nodup_nil, by simp, by simp⟩
  | succ k ih =>
    intro t rem hn hk
    have hne : rem ≠ [] := by intro h; rw [h] at hk; simp at hk
    obtain ⟨d1, d2, d3⟩ := hd t rem hn
    have hpos : 0 < rem.length := List.length_pos_iff.2 hne
    obtain ⟨a1, a2⟩ := npArgmin_spec (fun i => OrderDual.toDual (crowd i)) (draw t rem)
    cases hb : npArgmin (fun i => OrderDual.toDual (crowd i)) (draw t rem) with
    | none =>
      have := a1.1 hb
      rw [this] at d2
      simp at d2
      omega
    | some b =>
      obtain ⟨b1, b2⟩ := a2 b hb
      have hbm := d3 b b1
      have hlen : (rem.erase b).length = rem.length - 1 := List.length_erase_of_mem hbm
      obtain ⟨I, i1, i2, i3, i4, i5⟩ := ih (t + 1) (rem.erase b) (hn.erase b) (by omega)
      refine ⟨b :: I, by rw [mopTournament, if_neg hne, hb, Option.bind_some, i1]; rfl, by simp [i2], ?_, ?_, ?_⟩
      · rw [List.nodup_cons]
        refine ⟨fun h => ?_, i3⟩
        have := i4 b h
        rw [hn.mem_erase_iff] at this
        exact this.1 rfl
      · intro i hi
        rcases List.mem_cons.1 hi with rfl | hi
        · exact hbm
        · exact List.mem_of_mem_erase (i4 i hi)
      · intro w hw hlt hmin hmem
        have hwb : w ≠ b := by
          rintro rfl
          -- the tournament has another member
          have h2 : 2 ≤ (draw t rem).length := by omega
          have : ∃ i ∈ draw t rem, i ≠ w := by
            by_contra hc
            push Not at hc
            match hdr : draw t rem, h2 with
            | x :: y :: l, _ =>
              rw [hdr] at hc d1
              have := hc x (by simp)
              have := hc y (by simp)
              simp_all
          obtain ⟨i, hi, hiw⟩ := this
          have h3 : crowd i ≤ crowd w := b2 i hi
          exact absurd (hmin i (d3 i hi) hiw) (not_lt.2 h3)
        rcases List.mem_cons.1 hmem with h | h
        · exact hwb h
        · refine i5 w ((List.mem_erase_of_ne hwb).2 hw) (by omega) (fun i hi hne => hmin i (List.mem_of_mem_erase hi) hne) h

/-- Four solutions, two stay; solution 2 has the least crowding distance. -/
example : DrawOk (fun _ rem => rem.take 3) ∧
    mopTournament (fun i => (![5, 9, 1, 4] : Fin 4 → ℕ) ⟨i % 4, by omega⟩) (fun _ rem => rem.take 3) 2 0 [0, 1, 2, 3] = some [1, 0] := by
  exact ⟨fun t rem hn => ⟨hn.sublist (List.take_sublist _ _), by simp, fun i hi => List.mem_of_mem_take hi⟩, by decide⟩

section
variable {ι α β : Type*} {m : ℕ} [Field α] [LinearOrder α] [IsStrictOrderedRing α] [LinearOrder β]
variable (paretoRank : ∀ n, (Fin n → Fin m → α) → Fin n → ℕ)

/-- Below every member of a list there is a non-dominated one. -/
theorem exists_undominated (F : ι → Fin m → α) (S : List ι) (x : ι) (hx : x ∈ S) :
    ∃ y ∈ S, (y = x ∨ Dominates (F y) (F x)) ∧ ∀ z ∈ S, ¬ Dominates (F z) (F y) := by
  obtain ⟨y, h1, h2, h3⟩ := exists_unbeaten (⟨F, fun _ => true, fun _ => (0 : α)⟩ : Attrs ι α α m) S x hx
  refine ⟨y, h1, ?_, fun z hz hd => h3 z hz (Or.inr (Or.inl ⟨rfl, rfl, hd⟩))⟩
  rcases h2 with h2 | h2
  · exact Or.inl h2
  · rcases h2 with ⟨-, h⟩ | ⟨-, -, h⟩ | ⟨h, -⟩
    · cases h
    · exact Or.inr h
    · cases h

/-- **C101** (the archive update). For every archive, new solutions and draws, `_update_archive` returns members of the two, at most `archive_size` of them, none
dominating another; and if it returns fewer than `archive_size`, exactly the non-dominated ones of archive and new solutions. -/
theorem C101_update (hpr : ∀ n F, IsParetoRank (fun i j => Dominates (F i) (F j)) (paretoRank n F)) {γ : Type*} [LinearOrder γ] (F : ι → Fin m → α) (size : ℕ)
    (crowd : List ι → ℕ → γ) (draw : ℕ → List ℕ → List ℕ) (hd : DrawOk draw) (archive pop : List ι) (hp : pop ≠ []) :
    ∃ S, mopUpdate paretoRank F size crowd draw archive pop = some S ∧ S.length ≤ size ∧ (∀ x ∈ S, x ∈ archive ++ pop) ∧
      (∀ x ∈ S, ∀ y ∈ archive ++ pop, ¬ Dominates (F y) (F x)) ∧ (1 ≤ size → S ≠ []) ∧
      (S.length < size → ∀ x, x ∈ S ↔ x ∈ archive ++ pop ∧ ∀ y ∈ archive ++ pop, ¬ Dominates (F y) (F x)) := by
  have h0 : pop.length ≠ 0 := fun h => hp (List.length_eq_zero_iff.1 h)
  have hc : (if archive.length > 0 then archive ++ pop else pop) = archive ++ pop := by
    split_ifs with h
    · rfl
    · have : archive = [] := List.length_eq_zero_iff.1 (by omega)
      rw [this]; rfl
  obtain ⟨nd, n1, -, n3⟩ := ndsPop_mem paretoRank hpr F (archive ++ pop)
  have hne : nd ≠ [] := by
    obtain ⟨x, hx⟩ := List.exists_mem_of_ne_nil pop hp
    obtain ⟨y, hy, -, hu⟩ := exists_undominated F (archive ++ pop) x (List.mem_append_right _ hx)
    exact List.ne_nil_of_mem ((n3 y).2 ⟨hy, hu⟩)
  have hu : mopUpdate paretoRank F size crowd draw archive pop = mopLimit size crowd draw nd := by
    simp only [mopUpdate, if_neg h0]
    rw [hc, n1]
    rfl
  rw [hu]
  unfold mopLimit
  by_cases hlt : nd.length > size
  · rw [if_pos hlt]
    obtain ⟨I, i1, i2, i3, i4, -⟩ := C101_tournament (crowd nd) draw hd size 0 (List.range nd.length) List.nodup_range (by simpa using hlt.le)
    have hI : ∀ i ∈ I, i < nd.length := fun i hi => List.mem_range.1 (i4 i hi)
    have hlen : ∀ J : List ℕ, (∀ i ∈ J, i < nd.length) → (J.filterMap (nd[·]?)).length = J.length := by
      intro J
      induction J with
      | nil => intro _; rfl
      | cons a J ih =>
        intro hJ
        have ha := hJ a (by simp)
        rw [List.filterMap_cons, List.getElem?_eq_getElem ha]
        simp [ih fun i hi => hJ i (by simp [hi])]
    have hsub : ∀ x ∈ I.filterMap (nd[·]?), x ∈ nd := by
      intro x hx
      obtain ⟨i, -, hi⟩ := List.mem_filterMap.1 hx
      exact List.mem_of_getElem? hi
    refine ⟨_, by rw [i1]; rfl, by rw [hlen I hI, i2], fun x hx => ((n3 x).1 (hsub x hx)).1, fun x hx => ((n3 x).1 (hsub x hx)).2, fun h1 => ?_, fun h1 => ?_⟩
    · intro he
      have := hlen I hI
      rw [he] at this
      simp at this
      omega
    · rw [hlen I hI, i2] at h1
      omega
  · rw [if_neg hlt]
    exact ⟨nd, rfl, by omega, fun x hx => ((n3 x).1 hx).1, fun x hx => ((n3 x).1 hx).2, fun _ => hne, fun _ => n3⟩

/-- All individuals that took part in a run. -/
def mopAll (init : List ι × MopRandom ι) (gens : List (List ι × MopRandom ι)) : List ι := init.1 ++ (gens.map Prod.fst).flatten

/-- The random choices of a generation are choices without replacement. -/
def RandomOk (r : MopRandom ι) : Prop := DrawOk r.draw ∧ TruncOK r.trunc

/-- What `Archive.add` of the base class does to the archive. -/
theorem mopBaseAdd_spec (hpr : ∀ n F, IsParetoRank (fun i j => Dominates (F i) (F j)) (paretoRank n F)) (c : MopCfg ι α β m) (hs : 1 ≤ c.size)
    (r : MopRandom ι) (hr : RandomOk r) (archive infills : List ι) (hne : archive ++ infills ≠ []) :
    ∃ opt res, mopBaseAdd paretoRank c r archive infills = some res ∧
      (∀ x, x ∈ opt ↔ x ∈ archive ++ infills ∧ ∀ y ∈ archive ++ infills, ¬ beats c.at' y x) ∧ res ≠ [] ∧ (∀ x ∈ res, x ∈ archDedup (some c.near) opt) ∧
      res.length ≤ c.size ∧ (res.length < min c.size 100 → res = archDedup (some c.near) opt) := by
  have hfo := findOptMulti_best paretoRank hpr c.at'
  have hcat : (if archive.length > 0 then (if infills.length = 0 then archive else archive ++ infills) else infills) = archive ++ infills := by
    split_ifs with h1 h2
    · rw [List.length_eq_zero_iff.1 h2, List.append_nil]
    · rfl
    · rw [List.length_eq_zero_iff.1 (by omega : archive.length = 0), List.nil_append]
  obtain ⟨o, o1, o2⟩ := hfo.spec (archive ++ infills) hne
  have e : mopBaseAdd paretoRank c r archive infills =
      some (if c.size ≠ 0 ∧ (archDedup (some c.near) o).length > c.size then r.trunc (archDedup (some c.near) o) (min c.size 100) else archDedup (some c.near) o) := by
    show archiveAdd (⟨some (c.size, min c.size 100), some c.near⟩ : ArchiveCfg ι) (findOptMulti paretoRank c.at') r.trunc archive infills = _
    unfold archiveAdd
    simp only [hcat, o1, Option.map_some]
    rfl
  have hone : o ≠ [] := by
    obtain ⟨x, hx⟩ := List.exists_mem_of_ne_nil _ hne
    obtain ⟨y, hy, -, hu⟩ := exists_unbeaten c.at' (archive ++ infills) x hx
    exact List.ne_nil_of_mem ((o2 y).2 ⟨hy, hu⟩)
  refine ⟨o, _, e, o2, ?_⟩
  split_ifs with hbig
  · obtain ⟨t1, t2⟩ := hr.2 (archDedup (some c.near) o) (min c.size 100) (by omega)
    refine ⟨?_, t2, by omega, fun h => by omega⟩
    intro h
    rw [h] at t1
    simp at t1
    omega
  · exact ⟨(archDedup_sub (some c.near) o).2 hone, fun x hx => hx, by omega, fun _ => rfl⟩

/-- **C101** (the reported optimum, every run). Whatever is evaluated and drawn, with or without constraints: the run does not raise, and the optimum is not empty,
has at most `archive_size` members, consists of evaluated individuals (of the initial infills and the generations), and none of its members dominates another;
the same holds for the archive. -/
theorem C101_optimum (hpr : ∀ n F, IsParetoRank (fun i j => Dominates (F i) (F j)) (paretoRank n F)) (c : MopCfg ι α β m) (hs : 1 ≤ c.size)
    (init : List ι × MopRandom ι) (hi : init.1 ≠ []) (hri : RandomOk init.2) (gens : List (List ι × MopRandom ι))
    (hg : ∀ g ∈ gens, g.1.length = init.1.length ∧ RandomOk g.2) :
    ∃ s, mopRun paretoRank c init gens = some s ∧ s.opt ≠ [] ∧ s.opt.length ≤ c.size ∧ (∀ x ∈ s.opt, x ∈ mopAll init gens) ∧
      (∀ x ∈ s.opt, ∀ y ∈ s.opt, ¬ Dominates (c.at'.F y) (c.at'.F x)) ∧ s.archive ≠ [] ∧ s.archive.length ≤ c.size ∧ (∀ x ∈ s.archive, x ∈ mopAll init gens) ∧
      s.pop = ((gens.map Prod.fst).getLast?).getD init.1 := by
  induction gens using List.reverseRecOn with
  | nil =>
    obtain ⟨a, a1, a2, a3, a4, a5, -⟩ := C101_update paretoRank hpr c.at'.F c.size c.crowd init.2.draw hri.1 [] init.1 hi
    obtain ⟨opt, res, b1, b2, b3, b4, b5, -⟩ := mopBaseAdd_spec paretoRank hpr c hs init.2 hri a init.1 (by simp [hi])
    refine ⟨⟨init.1, res, a, init.1⟩, by simp [mopRun, mopInit, a1, b1], a5 hs, a2, fun x hx => by simpa [mopAll] using a3 x hx,
      fun x hx y hy => a4 x hx y (a3 y hy), b3, b5, fun x hx => ?_, by simp⟩
    have := (b2 x).1 ((archDedup_sub _ _).1.subset (b4 x hx))
    rcases List.mem_append.1 this.1 with h | h
    · simpa [mopAll] using a3 x h
    · simpa [mopAll] using h
  | append_singleton gens g ih =>
    obtain ⟨s, s1, s2, s3, s4, s5, s6, s7, s8, s9⟩ := ih fun g' hg' => hg g' (by simp [hg'])
    obtain ⟨g1, g2⟩ := hg g (by simp)
    have hgne : g.1 ≠ [] := by
      intro h
      rw [h] at g1
      exact hi (List.length_eq_zero_iff.1 g1.symm)
    have hpop : ∀ x ∈ s.pop, x ∈ mopAll init gens := by
      intro x hx
      rw [s9] at hx
      cases hl : (gens.map Prod.fst).getLast? with
      | none => rw [hl] at hx; exact List.mem_append_left _ hx
      | some l =>
        rw [hl] at hx
        exact List.mem_append_right _ (List.mem_flatten.2 ⟨l, List.mem_of_getLast? hl, hx⟩)
    have hall : ∀ x, x ∈ mopAll init (gens ++ [g]) ↔ x ∈ mopAll init gens ∨ x ∈ g.1 := by
      intro x; simp [mopAll, or_assoc]
    obtain ⟨a, a1, a2, a3, a4, a5, -⟩ := C101_update paretoRank hpr c.at'.F c.size c.crowd g.2.draw g2.1 s.archive (s.pop ++ g.1) (by simp [hgne])
    obtain ⟨opt, res, b1, b2, b3, b4, b5, -⟩ := mopBaseAdd_spec paretoRank hpr c hs g.2 g2 a g.1 (by simp [hgne])
    have ha : ∀ x ∈ a, x ∈ mopAll init (gens ++ [g]) := by
      intro x hx
      rw [hall]
      rcases List.mem_append.1 (a3 x hx) with h | h
      · exact Or.inl (s8 x h)
      · rcases List.mem_append.1 h with h | h
        · exact Or.inl (hpop x h)
        · exact Or.inr h
    refine ⟨⟨g.1, res, a, s.pbest.zipWith (mopPbest c.at'.F c.perms) g.1⟩, ?_, a5 hs, a2, ha, fun x hx y hy => a4 x hx y (a3 y hy), b3, b5, fun x hx => ?_, by simp⟩
    · unfold mopRun at s1 ⊢
      obtain ⟨s0, e1, e2⟩ := Option.bind_eq_some_iff.1 s1
      rw [e1, Option.bind_some, List.foldlM_append, e2]
      simp [mopNext, a1, b1]
    · have := (b2 x).1 ((archDedup_sub _ _).1.subset (b4 x hx))
      rcases List.mem_append.1 this.1 with h | h
      · exact ha x h
      · exact (hall x).2 (Or.inr h)

/-- **C101** (nothing is missed). On an unconstrained problem whose equal solutions have equal objectives, as long as the optimum always had fewer than
`archive_size` members and the archive fewer than `min(archive_size, 100)`: the optimum consists of individuals that no evaluated individual dominates, and
every evaluated individual that is not dominated is represented in it (by one with the same objectives). -/
theorem C101_complete (hpr : ∀ n F, IsParetoRank (fun i j => Dominates (F i) (F j)) (paretoRank n F)) (c : MopCfg ι α β m) (hs : 1 ≤ c.size)
    (hfeas : ∀ x, c.at'.feas x = true) (hnear : ∀ x y, c.near x y = true → c.at'.F x = c.at'.F y)
    (init : List ι × MopRandom ι) (hi : init.1 ≠ []) (hri : RandomOk init.2) (gens : List (List ι × MopRandom ι))
    (hg : ∀ g ∈ gens, g.1.length = init.1.length ∧ RandomOk g.2)
    (hfits : ∀ k ≤ gens.length, ∀ s, mopRun paretoRank c init (gens.take k) = some s → s.opt.length < c.size ∧ s.archive.length < min c.size 100) :
    ∃ s, mopRun paretoRank c init gens = some s ∧
      (∀ x ∈ s.opt, ∀ y ∈ mopAll init gens, ¬ Dominates (c.at'.F y) (c.at'.F x)) ∧
      ∀ x ∈ mopAll init gens, (∀ y ∈ mopAll init gens, ¬ Dominates (c.at'.F y) (c.at'.F x)) → ∃ a ∈ s.opt, c.at'.F a = c.at'.F x := by
  have hbeats : ∀ x y, beats c.at' x y ↔ Dominates (c.at'.F x) (c.at'.F y) := by
    intro x y
    constructor
    · rintro (⟨-, h⟩ | ⟨-, -, h⟩ | ⟨h, -⟩)
      · rw [hfeas] at h; cases h
      · exact h
      · rw [hfeas] at h; cases h
    · exact fun h => Or.inr (Or.inl ⟨hfeas x, hfeas y, h⟩)
  -- a set of solutions covers another one if every member of the latter is weakly dominated
  let Cov : List ι → List ι → Prop := fun A S => ∀ x ∈ S, ∃ a ∈ A, a = x ∨ c.at'.F a = c.at'.F x ∨ Dominates (c.at'.F a) (c.at'.F x)
  have trans : ∀ (A : List ι) (x : ι), (∃ a ∈ A, a = x ∨ c.at'.F a = c.at'.F x ∨ Dominates (c.at'.F a) (c.at'.F x)) ↔
      ∃ a ∈ A, c.at'.F a = c.at'.F x ∨ Dominates (c.at'.F a) (c.at'.F x) := by
    intro A x
    constructor
    · rintro ⟨a, ha, rfl | h | h⟩
      · exact ⟨a, ha, Or.inl rfl⟩
      · exact ⟨a, ha, Or.inl h⟩
      · exact ⟨a, ha, Or.inr h⟩
    · rintro ⟨a, ha, h⟩; exact ⟨a, ha, Or.inr h⟩
  -- covering by the non-dominated members of a list
  have covNd : ∀ (L A : List ι), (∀ x, x ∈ A ↔ x ∈ L ∧ ∀ y ∈ L, ¬ Dominates (c.at'.F y) (c.at'.F x)) → Cov A L := by
    intro L A h x hx
    obtain ⟨y, hy, hyx, hu⟩ := exists_undominated c.at'.F L x hx
    exact ⟨y, (h y).2 ⟨hy, hu⟩, hyx.imp id Or.inr⟩
  have covTrans : ∀ A B C, Cov A B → Cov B C → Cov A C := by
    intro A B C h1 h2 x hx
    obtain ⟨b, hb, hbx⟩ := (trans B x).1 (h2 x hx)
    obtain ⟨a, ha, hab⟩ := (trans A b).1 (h1 b hb)
    refine ⟨a, ha, ?_⟩
    rcases hab with e | d <;> rcases hbx with e' | d'
    · exact Or.inr (Or.inl (e.trans e'))
    · exact Or.inr (Or.inr (e ▸ d'))
    · exact Or.inr (Or.inr (e' ▸ d))
    · exact Or.inr (Or.inr (dominates_strictPO.trans _ _ _ d d'))
  have covAdd : ∀ (opt : List ι) (L : List ι), (∀ x, x ∈ opt ↔ x ∈ L ∧ ∀ y ∈ L, ¬ beats c.at' y x) → Cov (archDedup (some c.near) opt) L := by
    intro opt L h
    refine covTrans _ opt _ ?_ (covNd L opt fun x => by rw [h x]; simp only [hbeats])
    intro x hx
    obtain ⟨y, hy, hk⟩ := archDedup_cover c.at'.F (some c.near) (fun f hf x y hxy => hnear x y (by rw [Option.some.inj hf]; exact hxy)) opt x hx
    exact ⟨y, hy, Or.inr (Or.inl hk)⟩
  have sub : ∀ A B C : List ι, (∀ x ∈ C, x ∈ B) → Cov A B → Cov A C := fun A B C h hc x hx => hc x (h x hx)
  have main : ∀ k ≤ gens.length, ∃ s, mopRun paretoRank c init (gens.take k) = some s ∧ Cov s.opt (mopAll init (gens.take k)) ∧
      Cov s.archive (mopAll init (gens.take k)) ∧ (∀ x ∈ s.opt, x ∈ mopAll init (gens.take k)) ∧ (∀ x ∈ s.archive, x ∈ mopAll init (gens.take k)) ∧
      (∀ x ∈ s.opt, ∀ y ∈ s.opt, ¬ Dominates (c.at'.F y) (c.at'.F x)) := by
    intro k
    induction k with
    | zero =>
      intro _
      obtain ⟨a, a1, a2, a3, a4, a5, a6⟩ := C101_update paretoRank hpr c.at'.F c.size c.crowd init.2.draw hri.1 [] init.1 hi
      obtain ⟨opt, res, b1, b2, b3, b4, b5, b6⟩ := mopBaseAdd_spec paretoRank hpr c hs init.2 hri a init.1 (by simp [hi])
      have hrun : mopRun paretoRank c init (gens.take 0) = some ⟨init.1, res, a, init.1⟩ := by simp [mopRun, mopInit, a1, b1]
      obtain ⟨f1, f2⟩ := hfits 0 (by omega) _ hrun
      have hA : Cov a init.1 := by
        have := covNd _ _ (a6 f1)
        simpa using this
      have hR := covAdd opt _ b2
      rw [← b6 f2] at hR
      have hall : mopAll init (gens.take 0) = init.1 := by simp [mopAll]
      rw [hall]
      refine ⟨_, hrun, hA, sub _ _ _ (fun x hx => List.mem_append_right _ hx) hR, fun x hx => by simpa using a3 x hx, fun x hx => ?_,
        fun x hx y hy => a4 x hx y (a3 y hy)⟩
      have := (b2 x).1 ((archDedup_sub _ _).1.subset (b4 x hx))
      rcases List.mem_append.1 this.1 with h | h
      · simpa using a3 x h
      · exact h
    | succ k ih =>
      intro hk
      obtain ⟨s, s1, s2, s3, s4, s5, s6⟩ := ih (by omega)
      have hgk : gens.take (k + 1) = gens.take k ++ [gens[k]] := List.take_succ_eq_append_getElem (by omega)
      set g := gens[k] with hgdef
      obtain ⟨g1, g2⟩ := hg g (List.getElem_mem _)
      have hgne : g.1 ≠ [] := by
        intro h
        rw [h] at g1
        exact hi (List.length_eq_zero_iff.1 g1.symm)
      obtain ⟨a, a1, a2, a3, a4, a5, a6⟩ := C101_update paretoRank hpr c.at'.F c.size c.crowd g.2.draw g2.1 s.archive (s.pop ++ g.1) (by simp [hgne])
      obtain ⟨opt, res, b1, b2, b3, b4, b5, b6⟩ := mopBaseAdd_spec paretoRank hpr c hs g.2 g2 a g.1 (by simp [hgne])
      have hrun : mopRun paretoRank c init (gens.take (k + 1)) = some ⟨g.1, res, a, s.pbest.zipWith (mopPbest c.at'.F c.perms) g.1⟩ := by
        rw [hgk]
        unfold mopRun at s1 ⊢
        obtain ⟨s0, e1, e2⟩ := Option.bind_eq_some_iff.1 s1
        rw [e1, Option.bind_some, List.foldlM_append, e2]
        simp [mopNext, a1, b1]
      obtain ⟨f1, f2⟩ := hfits (k + 1) hk _ hrun
      have hall : ∀ x, x ∈ mopAll init (gens.take (k + 1)) ↔ x ∈ mopAll init (gens.take k) ∨ x ∈ g.1 := by
        intro x; rw [hgk]; simp [mopAll, or_assoc]
      have hpop : ∀ x ∈ s.pop, x ∈ mopAll init (gens.take k) := by
        obtain ⟨s', t1, -, -, -, -, -, -, -, t9⟩ := C101_optimum paretoRank hpr c hs init hi hri (gens.take k) fun g' hg' => hg g' (List.mem_of_mem_take hg')
        rw [s1] at t1
        obtain rfl := Option.some.inj t1
        intro x hx
        rw [t9] at hx
        cases hl : ((gens.take k).map Prod.fst).getLast? with
        | none => rw [hl] at hx; exact List.mem_append_left _ hx
        | some l =>
          rw [hl] at hx
          exact List.mem_append_right _ (List.mem_flatten.2 ⟨l, List.mem_of_getLast? hl, hx⟩)
      have hA0 : Cov a (s.archive ++ (s.pop ++ g.1)) := covNd _ _ (a6 f1)
      have hA : Cov a (mopAll init (gens.take (k + 1))) := by
        intro x hx
        rcases (hall x).1 hx with h | h
        · have h1 : Cov a s.archive := sub _ _ _ (fun x hx => List.mem_append_left _ hx) hA0
          exact covTrans _ _ _ h1 s3 x h
        · exact hA0 x (by simp [h])
      have hR := covAdd opt _ b2
      rw [← b6 f2] at hR
      have hR' : Cov res (mopAll init (gens.take (k + 1))) := covTrans _ a _ (sub _ _ _ (fun x hx => List.mem_append_left _ hx) hR) hA
      have ha : ∀ x ∈ a, x ∈ mopAll init (gens.take (k + 1)) := by
        intro x hx
        rw [hall]
        rcases List.mem_append.1 (a3 x hx) with h | h
        · exact Or.inl (s5 x h)
        · rcases List.mem_append.1 h with h | h
          · exact Or.inl (hpop x h)
          · exact Or.inr h
      refine ⟨_, hrun, hA, hR', ha, fun x hx => ?_, fun x hx y hy => a4 x hx y (a3 y hy)⟩
      have := (b2 x).1 ((archDedup_sub _ _).1.subset (b4 x hx))
      rcases List.mem_append.1 this.1 with h | h
      · exact ha x h
      · exact (hall x).2 (Or.inr h)
  obtain ⟨s, s1, s2, -, s4, -, s6⟩ := main gens.length le_rfl
  rw [List.take_length] at s1 s2 s4
  refine ⟨s, s1, fun x hx y hy hd => ?_, fun x hx hu => ?_⟩
  · obtain ⟨a, ha, h⟩ := (trans _ y).1 (s2 y hy)
    rcases h with h | h
    · exact s6 x hx a ha (h ▸ hd)
    · exact s6 x hx a ha (dominates_strictPO.trans _ _ _ h hd)
  · obtain ⟨a, ha, h⟩ := (trans _ x).1 (s2 x hx)
    rcases h with h | h
    · exact ⟨a, ha, h⟩
    · exact absurd h (hu a (s4 a ha))

/-- **C101** (personal bests). The personal best of a particle changes exactly if the new position dominates it (two solutions have the same, infinite, crowding
distance, so that the crowding never decides). -/
theorem C101_pbest_step (F : ι → Fin m → α) (I : Fin m → Equiv.Perm (Fin 2)) (old new : ι) :
    mopPbest F I old new = if Dominates (F new) (F old) then new else old := by
  have hdom : ∀ a b, ((List.finRange m).all (fun j => decide (F a j ≤ F b j)) && (List.finRange m).any fun j => decide (F a j < F b j)) = true ↔ Dominates (F a) (F b) := by
    intro a b
    simp [Dominates]
  unfold mopPbest
  simp only [hdom]
  have hc : ¬ crowdingCd I ![F old, F new] 1 > crowdingCd I ![F old, F new] 0 := by simp [crowdingCd]
  rw [if_neg hc]
  split_ifs <;> rfl

/-- **C101** (personal bests, whole run). After any run, the personal best of particle `i` is one of the positions it visited, and none of these positions
dominates it. -/
theorem C101_pbest (hpr : ∀ n F, IsParetoRank (fun i j => Dominates (F i) (F j)) (paretoRank n F)) (c : MopCfg ι α β m) (hs : 1 ≤ c.size)
    (init : List ι × MopRandom ι) (hi : init.1 ≠ []) (hri : RandomOk init.2) (gens : List (List ι × MopRandom ι))
    (hg : ∀ g ∈ gens, g.1.length = init.1.length ∧ RandomOk g.2) (s : MopState ι) (hr : mopRun paretoRank c init gens = some s) :
    s.pbest.length = init.1.length ∧ ∀ (i : ℕ) (b : ι), s.pbest[i]? = some b →
      (init.1[i]? = some b ∨ ∃ g ∈ gens, g.1[i]? = some b) ∧
      (∀ x, init.1[i]? = some x → ¬ Dominates (c.at'.F x) (c.at'.F b)) ∧
      ∀ g ∈ gens, ∀ x, g.1[i]? = some x → ¬ Dominates (c.at'.F x) (c.at'.F b) := by
  have hirr := fun x : ι => (dominates_strictPO (α := α) (m := m)).irrefl (c.at'.F x)
  induction gens using List.reverseRecOn generalizing s with
  | nil =>
    obtain ⟨a, e1, e2⟩ := Option.bind_eq_some_iff.1 hr
    obtain ⟨u, u1, u2⟩ := Option.bind_eq_some_iff.1 e1
    obtain ⟨v, v1, v2⟩ := Option.map_eq_some_iff.1 u2
    simp only [List.foldlM_nil, Option.pure_def, Option.some.injEq] at e2
    subst e2; subst v2
    refine ⟨rfl, fun i b hb => ⟨Or.inl hb, fun x hx => ?_, by simp⟩⟩
    simp only at hb
    rw [hb] at hx
    obtain rfl := Option.some.inj hx
    exact hirr b
  | append_singleton gens g ih =>
    obtain ⟨s0, e1, e2⟩ := Option.bind_eq_some_iff.1 hr
    rw [List.foldlM_append] at e2
    obtain ⟨s1, e3, e4⟩ := Option.bind_eq_some_iff.1 e2
    have hrun : mopRun paretoRank c init gens = some s1 := by unfold mopRun; rw [e1]; exact e3
    obtain ⟨h1, h2⟩ := ih (fun g' hg' => hg g' (by simp [hg'])) s1 hrun
    simp only [List.foldlM_cons, List.foldlM_nil] at e4
    obtain ⟨s2, e5, e6⟩ := Option.bind_eq_some_iff.1 e4
    simp only [Option.pure_def, Option.some.injEq] at e6
    subst e6
    obtain ⟨a, a1, a2⟩ := Option.bind_eq_some_iff.1 e5
    obtain ⟨a', b1, b2⟩ := Option.map_eq_some_iff.1 a2
    subst b2
    obtain ⟨g1, -⟩ := hg g (by simp)
    refine ⟨by simp [h1, g1], fun i b hb => ?_⟩
    simp only [List.getElem?_zipWith] at hb
    cases hold : s1.pbest[i]? with
    | none => rw [hold] at hb; cases hb
    | some old =>
      cases hnew : g.1[i]? with
      | none => rw [hold, hnew] at hb; cases hb
      | some new =>
        rw [hold, hnew] at hb
        simp only [Option.some.injEq] at hb
        rw [C101_pbest_step] at hb
        obtain ⟨o1, o2, o3⟩ := h2 i old hold
        have htr := (dominates_strictPO (α := α) (m := m)).trans
        by_cases hd : Dominates (c.at'.F new) (c.at'.F old)
        · rw [if_pos hd] at hb
          subst hb
          refine ⟨Or.inr ⟨g, by simp, hnew⟩, fun x hx hdx => o2 x hx (htr _ _ _ hdx hd), fun g' hg' x hx hdx => ?_⟩
          rcases List.mem_append.1 hg' with h | h
          · exact o3 g' h x hx (htr _ _ _ hdx hd)
          · obtain rfl := List.mem_singleton.1 h
            rw [hnew] at hx
            obtain rfl := Option.some.inj hx
            exact hirr _ hdx
        · rw [if_neg hd] at hb
          subst hb
          refine ⟨o1.imp id fun ⟨g', hg', h⟩ => ⟨g', by simp [hg'], h⟩, o2, fun g' hg' x hx hdx => ?_⟩
          rcases List.mem_append.1 hg' with h | h
          · exact o3 g' h x hx hdx
          · obtain rfl := List.mem_singleton.1 h
            rw [hnew] at hx
            obtain rfl := Option.some.inj hx
            exact hd hdx

/-- **C101** (wasted evaluations). The evaluations counted exceed the number of individuals that can influence the result by a whole population: the population
evaluated during the setup is discarded. -/
theorem C101_wasted (init : List ι × MopRandom ι) (gens : List (List ι × MopRandom ι)) (hg : ∀ g ∈ gens, g.1.length = init.1.length) :
    mopEvals init.1.length gens.length = (mopAll init gens).length + init.1.length := by
  have : ∀ (gens : List (List ι × MopRandom ι)), (∀ g ∈ gens, g.1.length = init.1.length) → ((gens.map Prod.fst).flatten).length = gens.length * init.1.length := by
    intro gens
    induction gens with
    | nil => intro _; simp
    | cons g gens ih =>
      intro h
      have h1 := h g (by simp)
      have h2 := ih fun g' hg' => h g' (by simp [hg'])
      simp only [List.map_cons, List.flatten_cons, List.length_append, h2, h1, List.length_cons]
      ring
  rw [mopAll, List.length_append, this gens hg, mopEvals]
  ring

end

/-! ### Flight -/

section
variable {K : Type*} [Field K] [LinearOrder K] [IsStrictOrderedRing K] {n : ℕ}

theorem mopClamp_mem (lo hi x : K) (h : lo ≤ hi) : lo ≤ mopClamp lo hi x ∧ mopClamp lo hi x ≤ hi ∧ (lo ≤ x → x ≤ hi → mopClamp lo hi x = x) := by
  unfold mopClamp
  by_cases h1 : x < lo
  · simp only [h1, if_true]
    rw [if_neg (not_lt.2 h)]
    exact ⟨le_rfl, h, fun h2 => absurd h1 (not_lt.2 h2)⟩
  · simp only [h1, if_false]
    by_cases h2 : hi < x
    · rw [if_pos h2]; exact ⟨h, le_rfl, fun _ h3 => absurd h2 (not_lt.2 h3)⟩
    · rw [if_neg h2]; exact ⟨not_lt.1 h1, not_lt.1 h2, fun _ _ => rfl⟩

/-- **C101** (flight). Velocities stay within `±max_velocity_rate · (xu - xl)`, positions within the bounds, for every leader, personal best and all random numbers;
a particle whose velocity equation and sum stay within the limits flies exactly as the equation says. -/
theorem C101_flight (rate w c1 c2 : K) (hrate : 0 ≤ rate) (xl xu v x pbest leader r1 r2 : Fin n → K) (hb : ∀ j, xl j ≤ xu j) (j : Fin n) :
    let vmax := mopVmax rate xl xu
    let v' := mopVelocity w c1 c2 vmax v x pbest leader r1 r2
    (-(rate * (xu j - xl j)) ≤ v' j ∧ v' j ≤ rate * (xu j - xl j)) ∧ (xl j ≤ mopPosition xl xu x v' j ∧ mopPosition xl xu x v' j ≤ xu j) ∧
    (let e := w * v j + c1 * r1 j * (pbest j - x j) + c2 * r2 j * (leader j - x j)
     |e| ≤ rate * (xu j - xl j) → v' j = e) ∧
    (xl j ≤ x j + v' j → x j + v' j ≤ xu j → mopPosition xl xu x v' j = x j + v' j) := by
  have hv : 0 ≤ rate * (xu j - xl j) := mul_nonneg hrate (sub_nonneg.2 (hb j))
  obtain ⟨a1, a2, a3⟩ := mopClamp_mem (-(rate * (xu j - xl j))) (rate * (xu j - xl j)) (w * v j + c1 * r1 j * (pbest j - x j) + c2 * r2 j * (leader j - x j)) (by linarith)
  refine ⟨⟨a1, a2⟩, ?_, fun h => a3 (abs_le.1 h).1 (abs_le.1 h).2, ?_⟩
  · obtain ⟨b1, b2, -⟩ := mopClamp_mem (xl j) (xu j) (x j + mopVelocity w c1 c2 (mopVmax rate xl xu) v x pbest leader r1 r2 j) (hb j)
    exact ⟨b1, b2⟩
  · exact (mopClamp_mem (xl j) (xu j) _ (hb j)).2.2

example : mopVelocity (1 / 2 : ℚ) 2 2 (mopVmax (1 / 2) (fun _ => 0) fun _ => 4) (fun (_ : Fin 1) => 1) (fun _ => 1) (fun _ => 2) (fun _ => 3) (fun _ => 1 / 4) (fun _ => 1 / 8) 0 = 3 / 2 ∧
    mopVelocity (1 / 2 : ℚ) 2 2 (mopVmax (1 / 2) (fun _ => 0) fun _ => 4) (fun (_ : Fin 1) => 1) (fun _ => 1) (fun _ => 2) (fun _ => 3) (fun _ => 1) (fun _ => 1) 0 = 2 := by decide +kernel

end

/-- **C101** (leaders). The leader of a particle is a member of the archive (of the population while the archive is empty) and of the two drawn one with the larger
crowding distance. -/
theorem C101_leader {ι γ : Type*} [LinearOrder γ] (crowd : List ι → ℕ → γ) (archive pop : List ι) (i j : ℕ)
    (hi : i < (if archive.length = 0 then pop else archive).length) (hj : archive ≠ [] → j < archive.length) :
    ∃ x, mopLeader crowd archive pop i j = some x ∧ (archive = [] → x ∈ pop) ∧
      (2 ≤ archive.length → ∃ k, (k = i ∨ k = j) ∧ archive[k]? = some x ∧ crowd archive i ≤ crowd archive k ∧ crowd archive j ≤ crowd archive k) ∧
      (archive ≠ [] → x ∈ archive) := by
  unfold mopLeader
  by_cases h0 : archive.length = 0
  · rw [if_pos h0] at hi
    have he : archive = [] := List.length_eq_zero_iff.1 h0
    rw [if_pos h0]
    exact ⟨pop[i], by simp [hi], fun _ => List.getElem_mem _, fun h => by omega, fun h => absurd he h⟩
  · rw [if_neg h0] at hi ⊢
    have hne : archive ≠ [] := fun h => h0 (by simp [h])
    have hj := hj hne
    by_cases h1 : archive.length = 1
    · rw [if_pos h1]
      exact ⟨archive[0], by simp, fun h => absurd h hne, fun h => by omega, fun _ => List.getElem_mem _⟩
    · rw [if_neg h1]
      by_cases hij : i = j
      · subst hij
        rw [if_pos rfl]
        exact ⟨archive[i], by simp [hi], fun h => absurd h hne, fun _ => ⟨i, Or.inl rfl, by simp [hi], le_rfl, le_rfl⟩, fun _ => List.getElem_mem _⟩
      · rw [if_neg hij]
        by_cases hc : crowd archive j < crowd archive i
        · rw [if_pos hc]
          exact ⟨archive[i], by simp [hi], fun h => absurd h hne, fun _ => ⟨i, Or.inl rfl, by simp [hi], le_rfl, hc.le⟩, fun _ => List.getElem_mem _⟩
        · rw [if_neg hc]
          exact ⟨archive[j], by simp [hj], fun h => absurd h hne, fun _ => ⟨j, Or.inr rfl, by simp [hj], not_lt.1 hc, le_rfl⟩, fun _ => List.getElem_mem _⟩

example : mopLeader (fun _ i => i) [7, 8, 9] [1] 2 0 = some 9 ∧ mopLeader (fun _ i => i) [] [1, 5] 1 0 = some 5 := by decide

/-! ### What does not hold -/

/-- Individuals are numbers; objectives `x / 10` and `x % 10`; those from 50 on are infeasible. -/
def exMop (size : ℕ) : MopCfg ℕ ℚ ℚ 2 :=
  ⟨⟨fun x => ![(x / 10 : ℕ), (x % 10 : ℕ)], fun x => decide (x < 50), fun x => ((x - 49 : ℕ) : ℚ)⟩, size, fun x y => decide (x = y), fun _ _ => ⊤, fun _ => Equiv.refl _⟩

/-- Random choices for the examples: always the first, or always the last. -/
def exFirst : MopRandom ℕ := ⟨fun _ rem => rem.take 3, fun l t => l.take t⟩
def exLast : MopRandom ℕ := ⟨fun _ rem => rem.reverse.take 3, fun l t => l.take t⟩

theorem exRandomOk : RandomOk exFirst ∧ RandomOk exLast := by
  have ht : TruncOK (fun (l : List ℕ) t => l.take t) := fun l t h => ⟨by simpa using h, fun x hx => List.mem_of_mem_take hx⟩
  refine ⟨⟨fun t rem hn => ⟨hn.sublist (List.take_sublist _ _), by simp [exFirst], fun i hi => List.mem_of_mem_take hi⟩, ht⟩,
    ⟨fun t rem hn => ⟨(List.nodup_reverse.2 hn).sublist (List.take_sublist _ _), by simp [exLast], fun i hi => ?_⟩, ht⟩⟩
  exact List.mem_reverse.1 (List.mem_of_mem_take hi)

/-- The hypotheses of `C101_complete` hold for a run of two generations (all individuals feasible), and its conclusion is visible: `21` and `12` are found again, `40` is new. -/
example : let c : MopCfg ℕ ℚ ℚ 2 := ⟨⟨fun x => ![(x / 10 : ℕ), (x % 10 : ℕ)], fun _ => true, fun _ => 0⟩, 200, fun x y => decide (x = y), fun _ _ => ⊤, fun _ => Equiv.refl _⟩
    (∀ x y, c.near x y = true → c.at'.F x = c.at'.F y) ∧ RandomOk exFirst ∧
    (∀ k ≤ 1, ∀ s, mopRun chainRank c ([12, 21], exFirst) ([([40, 44], exFirst)].take k) = some s → s.opt.length < c.size ∧ s.archive.length < min c.size 100) ∧
    (mopRun chainRank c ([12, 21], exFirst) [([40, 44], exFirst)]).map MopState.opt = some [12, 21, 12, 21, 40] := by
  intro c
  refine ⟨fun x y h => by rw [of_decide_eq_true h], exRandomOk.1, fun k hk s hr => ?_, by decide +kernel⟩
  have h0 : mopRun chainRank c ([12, 21], exFirst) ([([40, 44], exFirst)].take 0) = some ⟨[12, 21], [12, 21], [12, 21], [12, 21]⟩ := by decide +kernel
  have h1 : mopRun chainRank c ([12, 21], exFirst) ([([40, 44], exFirst)].take 1) = some ⟨[40, 44], [12, 21, 40], [12, 21, 12, 21, 40], [12, 21]⟩ := by decide +kernel
  have : k = 0 ∨ k = 1 := by omega
  rcases this with rfl | rfl
  · rw [h0] at hr
    obtain rfl := Option.some.inj hr
    decide
  · rw [h1] at hr
    obtain rfl := Option.some.inj hr
    decide

/-- **C101** fails (duplicates). The optimum contains the same individual twice: the current population is merged with the archive it is already in. -/
theorem C101_duplicates_refuted : ∃ s, mopRun chainRank (exMop 200) ([12, 21], exFirst) [([30, 44], exFirst)] = some s ∧ s.opt = [12, 21, 12, 21, 30] := by
  refine ⟨⟨[30, 44], [12, 21, 30], [12, 21, 12, 21, 30], [12, 21]⟩, ?_, rfl⟩
  decide +kernel

/-- **C101** fails (constraints). The archive update does not look at the constraints: here the optimum is a single infeasible solution although feasible ones were
evaluated, and the archive has lost the best feasible solution `21` to `33`, which it dominates. (Objectives are read from the numbers.) -/
theorem C101_infeasible_refuted :
    let c : MopCfg ℕ ℚ ℚ 2 := ⟨⟨fun x => ![(x / 10 : ℕ), (x % 10 : ℕ)], fun x => decide (20 ≤ x), fun x => ((20 - x : ℕ) : ℚ)⟩, 200, fun x y => decide (x = y), fun _ _ => ⊤, fun _ => Equiv.refl _⟩
    ∃ s, mopRun chainRank c ([21, 22], exFirst) [([11, 33], exFirst)] = some s ∧ s.opt = [11] ∧ c.at'.feas 11 = false ∧
      s.archive = [33] ∧ c.at'.feas 21 = true ∧ Dominates (c.at'.F 21) (c.at'.F 33) := by
  intro c
  refine ⟨⟨[11, 33], [33], [11], [11, 22]⟩, by decide +kernel, rfl, rfl, rfl, rfl, ?_, 0, ?_⟩
  · decide +kernel
  · decide +kernel

/-- **C101** fails (dominated members). After a truncation the optimum may consist of solutions dominated by an evaluated one: `12` is dropped in the first generation
by the tournament, and two generations later `13`, which it dominates, is the optimum. -/
theorem C101_dominated_refuted :
    ∃ s, mopRun chainRank (exMop 1) ([12, 21], exLast) [([31, 32], exLast), ([13, 33], exLast), ([13, 33], exLast)] = some s ∧
      s.opt = [13] ∧ Dominates ((exMop 1).at'.F 12) ((exMop 1).at'.F 13) := by
  refine ⟨⟨[13, 33], [13], [13], [12, 21]⟩, ?_, rfl, ?_⟩
  · decide +kernel
  · constructor
    · decide +kernel
    · exact ⟨1, by decide +kernel⟩

end Props
