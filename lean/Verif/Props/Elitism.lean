import Verif.Model.Genetic
import Verif.Props.GDE3
import Verif.Props.FrontSurvivals
import Verif.Props.NSGA3
import Verif.Props.Optimum
import Mathlib.Data.List.Induction

/-!
# C102. Multi-objective genetic algorithms keep the front while it fits

For NSGA-II, NSGA-III, SPEA2, SMS-EMOA and AGE-MOEA, over whole runs.
-/

set_option linter.unusedSimpArgs false
set_option linter.unusedVariables false
set_option linter.unusedSectionVars false

namespace Props
open Model Spec Lemmas

section
variable {ι α β : Type*} {m : ℕ} [LinearOrder α] [AddCommGroup α] [IsOrderedAddMonoid α] [LinearOrder β]

/-- A survival operator is elitist: it returns `k` different members, and a non-dominated individual is dropped only if all survivors are non-dominated. -/
def Elitist (F : ι → Fin m → α) (op : List ι → ℕ → List ι) : Prop :=
  ∀ sub k, sub.Nodup → 1 ≤ k → k ≤ sub.length → (op sub k).length = k ∧ (op sub k).Nodup ∧ (∀ x ∈ op sub k, x ∈ sub) ∧
    ∀ x ∈ sub, (∀ y ∈ sub, ¬ Dominates (F y) (F x)) → x ∉ op sub k → ∀ y ∈ op sub k, ∀ z ∈ sub, ¬ Dominates (F z) (F y)

/-- The feasible members of a list that no feasible member dominates. -/
def feasibleFront (at' : Attrs ι α β m) (all : List ι) (x : ι) : Prop :=
  x ∈ all ∧ at'.feas x = true ∧ ∀ y ∈ all, at'.feas y = true → ¬ Dominates (at'.F y) (at'.F x)

theorem elitist_survival (op : List ι → ℕ → List ι) (at' : Attrs ι α β m) (he : Elitist at'.F op) (split : Bool)
    (hsplit : split = false → ∀ x, at'.feas x = true) (sortCV : (pop : List ι) → List (Fin pop.length) → List (Fin pop.length))
    (hs : SortsCV at' sortCV) (n : ℕ) (hn1 : 1 ≤ n) (pop : List ι) (hn : pop.Nodup) :
    let S := survivalDo split op at'.feas pop (sortCV pop) (some n)
    S.length = min n pop.length ∧ S.Nodup ∧ (∀ x ∈ S, x ∈ pop) ∧
    (∀ x ∈ pop, at'.feas x = true → x ∉ S → ∀ y ∈ S, at'.feas y = true) ∧
    (∀ x ∈ S, at'.feas x = false → ∀ y ∈ pop, at'.feas y = false → y ∉ S → at'.cv x ≤ at'.cv y) ∧
    ∀ x, feasibleFront at' pop x → x ∉ S → ∀ y ∈ S, feasibleFront at' pop y := by
  intro S
  by_cases hp : pop = []
  · subst hp
    have : S = [] := by simp [S, survivalDo]
    rw [this]; simp
  have hp0 : pop.length ≠ 0 := fun h => hp (List.length_eq_zero_iff.1 h)
  have hk1 : 1 ≤ min n pop.length := by omega
  cases split with
  | false =>
    have hf := hsplit rfl
    have e : S = op pop (min n pop.length) := by
      have := C12_unconstrained op at'.feas pop hp (sortCV pop) (some n)
      simpa [S] using this
    obtain ⟨a1, a2, a3, a4⟩ := he pop (min n pop.length) hn hk1 (min_le_right _ _)
    rw [e]
    refine ⟨a1, a2, a3, fun x _ _ _ y _ => hf y, fun x _ h => by (rw [hf] at h; cases h), fun x hx hlost y hy => ⟨a3 y hy, hf y, fun z hz _ => ?_⟩⟩
    exact a4 x hx.1 (fun y hy => hx.2.2 y hy (hf y)) hlost y hy z hz
  | true =>
    set op' : List ι → ℕ → List ι := fun sub k => if k = 0 then [] else op sub k with hop'
    set fi := splitByFeasibility (fun i => at'.feas (pop.get i)) (sortCV pop) id true false with hfi
    have hSe : S = survivalDo true op' at'.feas pop (sortCV pop) (some n) := by
      simp only [S, survivalDo, if_neg hp0, Option.getD_some, if_true, ← hfi]
      by_cases hfl : fi.1.length = 0
      · simp only [if_pos hfl]
      · have : min fi.1.length (min n pop.length) ≠ 0 := by omega
        simp only [if_neg hfl, hop', if_neg this]
    have hbasic : ∀ sub k, sub.Nodup → k ≤ sub.length → (op' sub k).length = k ∧ (op' sub k).Nodup ∧ ∀ x ∈ op' sub k, x ∈ sub := by
      intro sub k hsn hk
      by_cases h0 : k = 0
      · subst h0; simp [hop']
      · obtain ⟨c1, c2, c3, -⟩ := he sub k hsn (by omega) hk
        simp only [hop', if_neg h0]
        exact ⟨c1, c2, c3⟩
    have hfirst0 := C12_feasibility_first op' at'.feas at'.cv pop hn (sortCV pop) (hs pop) hbasic (some n)
    simp only [← hSe, Option.getD_some] at hfirst0
    obtain ⟨b1, b2, b3, b4, b5⟩ := hfirst0
    have hfirst : ∀ x ∈ pop, at'.feas x = true → x ∉ S → ∀ y ∈ S, at'.feas y = true := by
      intro x hx hfx hlost y hy
      by_contra hc
      exact hlost (b4 y hy (by simpa using hc) x hx hfx)
    refine ⟨b1, b2, b3, hfirst, b5, fun x hxx hlost y hy => ?_⟩
    obtain ⟨hx, hfx, hund⟩ := hxx
    have hfy := hfirst x hx hfx hlost y hy
    refine ⟨b3 y hy, hfy, ?_⟩
    have hspl := C12_split (fun i => at'.feas (pop.get i)) (fun i => at'.cv (pop.get i)) (fun i => at'.cv (pop.get i)) (sortCV pop) (sortCV pop)
      (hs pop) (hs pop) true false
    have hfi' : splitByFeasibility (fun i => at'.feas (pop.get i)) (sortCV pop) (sortCV pop) true false = fi := by
      simp [hfi, splitByFeasibility]
    rw [hfi'] at hspl
    obtain ⟨s1, s2, s3, -, -⟩ := hspl
    have hnd12 : (fi.1 ++ fi.2).Nodup := s1.nodup_iff.2 (List.nodup_finRange _)
    have hnd1 : fi.1.Nodup := (List.nodup_append.1 hnd12).1
    have hsubn : (fi.1.map pop.get).Nodup := hnd1.map (List.nodup_iff_injective_get.1 hn)
    have hsub : ∀ z, z ∈ fi.1.map pop.get ↔ z ∈ pop ∧ at'.feas z = true := by
      intro z
      rw [List.mem_map]
      constructor
      · rintro ⟨i, hi, rfl⟩
        exact ⟨List.get_mem _ _, (s2 i).1 hi⟩
      · rintro ⟨hz, hzf⟩
        obtain ⟨i, rfl⟩ := List.get_of_mem hz
        exact ⟨i, (s2 i).2 hzf, rfl⟩
    have hfl : fi.1.length ≠ 0 := fun h0 => by
      have := (hsub x).2 ⟨hx, hfx⟩
      rw [List.length_eq_zero_iff.1 h0] at this
      simp at this
    set k := min fi.1.length (min n pop.length) with hk
    set sv := op (fi.1.map pop.get) k with hsv
    have hS : S = if min n pop.length - sv.length > 0 then sv ++ (fi.2.take (min n pop.length - sv.length)).map pop.get else sv := by
      simp only [S, survivalDo, if_neg hp0, Option.getD_some, if_true, ← hfi, if_neg hfl]
      rfl
    have hin : ∀ z ∈ sv, z ∈ S := by
      intro z hz
      rw [hS]
      split_ifs
      · exact List.mem_append_left _ hz
      · exact hz
    have hyv : y ∈ sv := by
      rw [hS] at hy
      split_ifs at hy
      · rcases List.mem_append.1 hy with hy | hy
        · exact hy
        · obtain ⟨i, hi, rfl⟩ := List.mem_map.1 hy
          have := (s3 i).1 (List.mem_of_mem_take hi)
          rw [this] at hfy
          cases hfy
      · exact hy
    intro z hz hzf
    obtain ⟨-, -, -, d4⟩ := he (fi.1.map pop.get) k hsubn (by omega) (by rw [List.length_map]; exact min_le_left _ _)
    refine d4 x ((hsub x).2 ⟨hx, hfx⟩) ?_ (fun hm => hlost (hin x hm)) y hyv z ((hsub z).2 ⟨hz, hzf⟩)
    intro w hw
    exact hund w ((hsub w).1 hw).1 ((hsub w).1 hw).2

/-- A call of the survival is a correct one: its operator is elitist and its sort of the violations is a sort. -/
def CallOk (at' : Attrs ι α β m) (c : SurvCall ι) : Prop := Elitist at'.F c.op ∧ SortsCV at' c.sortCV

/-- Everything evaluated so far. -/
def genAll (init : List ι × SurvCall ι) (gens : List (Option (List ι) × SurvCall ι)) : List ι := init.1 ++ (gens.map fun g => g.1.getD []).flatten

theorem front_below (at' : Attrs ι α β m) (all : List ι) (x : ι) (hx : x ∈ all) (hf : at'.feas x = true) :
    ∃ y, feasibleFront at' all y ∧ (y = x ∨ Dominates (at'.F y) (at'.F x)) := by
  obtain ⟨y, h1, h2, h3⟩ := exists_unbeaten at' all x hx
  have hyf : at'.feas y = true := by
    rcases h2 with rfl | ⟨h, -⟩ | ⟨h, -⟩ | ⟨-, h, -⟩
    · exact hf
    · exact h
    · exact h
    · rw [hf] at h; cases h
  refine ⟨y, ⟨h1, hyf, fun z hz hzf hd => h3 z hz (Or.inr (Or.inl ⟨hzf, hyf, hd⟩))⟩, ?_⟩
  rcases h2 with rfl | ⟨-, h⟩ | ⟨-, -, h⟩ | ⟨-, h, -⟩
  · exact Or.inl rfl
  · rw [hf] at h; cases h
  · exact Or.inr h
  · rw [hf] at h; cases h

/-- **C102** (size, provenance, feasibility). For any survival with the elitist property, any offspring and any number of generations, constrained or not: the
population consists of different evaluated individuals, it has at most `pop_size` members (after the first generation) and exactly `pop_size` if that
many have been evaluated, and the number of its feasible members is the smaller of its size and the number of feasible individuals it was chosen from;
in particular it never decreases, and an infeasible individual is kept only if no feasible one was dropped. -/
theorem C102_population (at' : Attrs ι α β m) (split : Bool) (hsplit : split = false → ∀ x, at'.feas x = true) (popSize : ℕ) (hn1 : 1 ≤ popSize)
    (pop off : List ι) (c : SurvCall ι) (hc : CallOk at' c) (hnd : (pop ++ off).Nodup) :
    let S := geneticAdvance split at'.feas popSize pop (some off, c)
    S.length = min popSize (pop ++ off).length ∧ S.Nodup ∧ (∀ x ∈ S, x ∈ pop ∨ x ∈ off) ∧
      S.countP at'.feas = min S.length ((pop ++ off).countP at'.feas) ∧
      (pop.length ≤ popSize → pop.countP at'.feas ≤ S.countP at'.feas) := by
  intro S
  obtain ⟨e1, e2, e3, e4, -, -⟩ := elitist_survival c.op at' hc.1 split hsplit c.sortCV hc.2 popSize hn1 (pop ++ off) hnd
  change S.length = _ at e1
  change S.Nodup at e2
  change ∀ x ∈ S, x ∈ _ at e3
  change ∀ x ∈ pop ++ off, at'.feas x = true → x ∉ S → _ at e4
  have hcount : S.countP at'.feas = min S.length ((pop ++ off).countP at'.feas) := by
    have hle : S.countP at'.feas ≤ (pop ++ off).countP at'.feas := (List.subperm_of_subset e2 e3).countP_le _
    have hle2 : S.countP at'.feas ≤ S.length := List.countP_le_length
    by_cases h : ∃ x ∈ pop ++ off, at'.feas x = true ∧ x ∉ S
    · obtain ⟨x, hx, hxf, hxs⟩ := h
      have : S.countP at'.feas = S.length := List.countP_eq_length.2 (e4 x hx hxf hxs)
      omega
    · push Not at h
      have hge : (pop ++ off).countP at'.feas ≤ S.countP at'.feas := by
        rw [List.countP_eq_length_filter, List.countP_eq_length_filter]
        refine (List.subperm_of_subset (hnd.filter _) fun x hx => ?_).length_le
        obtain ⟨h1, h2⟩ := List.mem_filter.1 hx
        exact List.mem_filter.2 ⟨h x h1 h2, h2⟩
      omega
  refine ⟨e1, e2, fun x hx => List.mem_append.1 (e3 x hx), hcount, fun hp => ?_⟩
  have h1 : pop.countP at'.feas ≤ pop.length := List.countP_le_length
  have h2 : (pop ++ off).countP at'.feas = pop.countP at'.feas + off.countP at'.feas := List.countP_append
  have h3 : (pop ++ off).length = pop.length + off.length := List.length_append
  rw [hcount, e1]
  omega

/-- **C102** (whole runs). If the initial population has `pop_size` members, then after any number of generations the population consists of `pop_size` different evaluated
individuals, and it never has fewer feasible members than the population of any earlier generation. -/
theorem C102_run (at' : Attrs ι α β m) (split : Bool) (hsplit : split = false → ∀ x, at'.feas x = true) (popSize : ℕ) (hn1 : 1 ≤ popSize) (adv : Bool)
    (init : List ι × SurvCall ι) (hinit : init.1.length = popSize) (hi : CallOk at' init.2) (gens : List (Option (List ι) × SurvCall ι)) (hg : ∀ g ∈ gens, CallOk at' g.2)
    (hnd : (genAll init gens).Nodup) :
    let S := geneticRun split at'.feas popSize adv init gens
    S.length = popSize ∧ S.Nodup ∧ (∀ x ∈ S, x ∈ genAll init gens) ∧
      ∀ k ≤ gens.length, (geneticRun split at'.feas popSize adv init (gens.take k)).countP at'.feas ≤ S.countP at'.feas := by
  induction gens using List.reverseRecOn with
  | nil =>
    have hall : genAll init [] = init.1 := by simp [genAll]
    rw [hall] at hnd ⊢
    intro S
    suffices h : S.length = popSize ∧ S.Nodup ∧ ∀ x ∈ S, x ∈ init.1 from ⟨h.1, h.2.1, h.2.2, fun k hk => by simp [S]⟩
    cases adv with
    | false => exact ⟨hinit, hnd, fun x hx => hx⟩
    | true =>
      obtain ⟨e1, e2, e3, -⟩ := elitist_survival init.2.op at' hi.1 split hsplit init.2.sortCV hi.2 init.1.length (by omega) init.1 hnd
      exact ⟨e1.trans (by simpa using hinit), e2, e3⟩
  | append_singleton gens g ih =>
    have hall : genAll init (gens ++ [g]) = genAll init gens ++ g.1.getD [] := by simp [genAll]
    rw [hall] at hnd ⊢
    obtain ⟨p1, p2, p3, p4⟩ := ih (fun g' hg' => hg g' (by simp [hg'])) (List.nodup_append.1 hnd).1
    set P := geneticRun split at'.feas popSize adv init gens with hP
    set off := g.1.getD [] with hoff
    intro S
    have hSeq : S = geneticAdvance split at'.feas popSize P (some off, g.2) := by
      simp only [S, geneticRun, List.foldl_append, List.foldl_cons, List.foldl_nil]
      change geneticAdvance split at'.feas popSize P g = _
      cases hg1 : g.1 with
      | none => simp [geneticAdvance, hoff, hg1]
      | some o => simp [geneticAdvance, hoff, hg1]
    have hmn : (P ++ off).Nodup := by
      rw [List.nodup_append] at hnd ⊢
      exact ⟨p2, hnd.2.1, fun a ha b hb => hnd.2.2 a (p3 a ha) b hb⟩
    obtain ⟨q1, q2, q3, -, q5⟩ := C102_population at' split hsplit popSize hn1 P off g.2 (hg g (by simp)) hmn
    rw [← hSeq] at q1 q2 q3 q5
    refine ⟨by rw [q1, List.length_append]; omega, q2, fun x hx => ?_, fun k hk => ?_⟩
    · rcases q3 x hx with h | h
      · exact List.mem_append_left _ (p3 x h)
      · exact List.mem_append_right _ h
    · rcases Nat.lt_or_ge gens.length k with h | h
      · rw [List.take_of_length_le (by simp; omega)]
      · rw [List.take_append_of_le_length h]
        exact (p4 k h).trans (q5 (by omega))

/-- **C102** (nothing is lost while it fits). Whatever the offspring are, as long as in no generation more than `pop_size` of the solutions evaluated so far are
feasible and non-dominated, the population contains every feasible solution evaluated so far that no feasible solution evaluated so far dominates. -/
theorem C102_complete (at' : Attrs ι α β m) (split : Bool) (hsplit : split = false → ∀ x, at'.feas x = true) (popSize : ℕ) (hn1 : 1 ≤ popSize) (adv : Bool)
    (init : List ι × SurvCall ι) (hi : CallOk at' init.2) (gens : List (Option (List ι) × SurvCall ι)) (hg : ∀ g ∈ gens, CallOk at' g.2)
    (hnd : (genAll init gens).Nodup)
    (hfits : ∀ k ≤ gens.length, ∀ L : List ι, L.Nodup → (∀ x ∈ L, feasibleFront at' (genAll init (gens.take k)) x) → L.length ≤ popSize) :
    let S := geneticRun split at'.feas popSize adv init gens
    S.Nodup ∧ (∀ x ∈ S, x ∈ genAll init gens) ∧ ∀ x, feasibleFront at' (genAll init gens) x → x ∈ S := by
  induction gens using List.reverseRecOn with
  | nil =>
    have hall : genAll init [] = init.1 := by simp [genAll]
    rw [hall] at hnd ⊢
    intro S
    cases adv with
    | false => exact ⟨hnd, fun x hx => hx, fun x hx => hx.1⟩
    | true =>
      by_cases he : init.1 = []
      · have : S = [] := by simp [S, geneticRun, geneticInit, SurvCall.apply, survivalDo, he]
        rw [this, he]; simp [feasibleFront]
      have hl : 1 ≤ init.1.length := List.length_pos_iff.2 he
      obtain ⟨e1, e2, e3, -, -, -⟩ := elitist_survival init.2.op at' hi.1 split hsplit init.2.sortCV hi.2 init.1.length hl init.1 hnd
      refine ⟨e2, e3, fun x hx => ?_⟩
      exact ((List.subperm_of_subset e2 e3).perm_of_length_le (by rw [e1]; simp)).mem_iff.2 hx.1
  | append_singleton gens g ih =>
    have hall : genAll init (gens ++ [g]) = genAll init gens ++ g.1.getD [] := by simp [genAll]
    have hnd' := hnd
    rw [hall] at hnd'
    obtain ⟨p1, p2, p3⟩ := ih (fun g' hg' => hg g' (by simp [hg'])) (List.nodup_append.1 hnd').1 (fun k hk => by
      have := hfits k (by simp; omega)
      rwa [List.take_append_of_le_length hk] at this)
    set P := geneticRun split at'.feas popSize adv init gens with hP
    set off := g.1.getD [] with hoff
    intro S
    have hSeq : S = g.2.apply split at'.feas popSize (P ++ off) := by
      simp only [S, geneticRun, List.foldl_append, List.foldl_cons, List.foldl_nil, geneticAdvance]
      change g.2.apply split at'.feas popSize (g.1.elim P (P ++ ·)) = _
      cases hg1 : g.1 with
      | none => simp [hoff, hg1]
      | some o => simp [hoff, hg1]
    have hmn : (P ++ off).Nodup := by
      rw [List.nodup_append] at hnd' ⊢
      exact ⟨p1, hnd'.2.1, fun a ha b hb => hnd'.2.2 a (p2 a ha) b hb⟩
    obtain ⟨e1, e2, e3, e4, -, e6⟩ := elitist_survival g.2.op at' (hg g (by simp)).1 split hsplit g.2.sortCV (hg g (by simp)).2 popSize hn1 (P ++ off) hmn
    change (g.2.apply split at'.feas popSize (P ++ off)).length = _ at e1
    rw [← hSeq] at e1
    change (g.2.apply split at'.feas popSize (P ++ off)).Nodup at e2
    rw [← hSeq] at e2
    change ∀ x ∈ g.2.apply split at'.feas popSize (P ++ off), _ at e3
    rw [← hSeq] at e3
    change ∀ x, feasibleFront at' (P ++ off) x → x ∉ g.2.apply split at'.feas popSize (P ++ off) → ∀ y ∈ g.2.apply split at'.feas popSize (P ++ off), _ at e6
    rw [← hSeq] at e6
    rw [hall]
    have hsub : ∀ x ∈ P ++ off, x ∈ genAll init gens ++ off := fun x hx => by
      rcases List.mem_append.1 hx with h | h
      · exact List.mem_append_left _ (p2 x h)
      · exact List.mem_append_right _ h
    -- the front of everything is the front of the merged population
    have hfront : ∀ x, feasibleFront at' (genAll init gens ++ off) x → x ∈ P ++ off := by
      rintro x ⟨hx, hxf, hxu⟩
      rcases List.mem_append.1 hx with h | h
      · exact List.mem_append_left _ (p3 x ⟨h, hxf, fun y hy => hxu y (List.mem_append_left _ hy)⟩)
      · exact List.mem_append_right _ h
    have hback : ∀ x, feasibleFront at' (P ++ off) x → feasibleFront at' (genAll init gens ++ off) x := by
      rintro x ⟨hx, hxf, hxu⟩
      refine ⟨hsub x hx, hxf, fun y hy hyf hd => ?_⟩
      obtain ⟨z, hz, hzy⟩ := front_below at' _ y hy hyf
      refine hxu z (hfront z hz) hz.2.1 ?_
      rcases hzy with rfl | h
      · exact hd
      · exact dominates_strictPO.trans _ _ _ h hd
    refine ⟨e2, fun x hx => hsub x (e3 x hx), fun x hx => ?_⟩
    by_contra hlost
    have hxm : feasibleFront at' (P ++ off) x := ⟨hfront x hx, hx.2.1, fun y hy => hx.2.2 y (hsub y hy)⟩
    have hSall := e6 x hxm hlost
    have hcard : S.length = popSize := by
      rw [e1]
      refine min_eq_left ?_
      by_contra hlt
      have : S.length = (P ++ off).length := by rw [e1]; omega
      exact hlost (((List.subperm_of_subset e2 e3).perm_of_length_le (by omega)).mem_iff.2 hxm.1)
    have := hfits (gens.length + 1) (by simp) (x :: S) (List.nodup_cons.2 ⟨hlost, e2⟩) (by
      rw [List.take_of_length_le (by simp), hall]
      intro y hy
      rcases List.mem_cons.1 hy with rfl | hy
      · exact hx
      · exact hback y (hSall y hy))
    simp only [List.length_cons] at this
    omega

end

/-- **C102** (the reported optimum). Under the same conditions, with at least two objectives and a feasible solution evaluated, the reported optimum consists of exactly
the feasible non-dominated solutions among all evaluated ones, each once. -/
theorem C102_optimum {ι α β : Type*} {m : ℕ} [LinearOrder α] [AddCommGroup α] [IsOrderedAddMonoid α] [LinearOrder β]
    (paretoRank : ∀ n, (Fin n → Fin m → α) → Fin n → ℕ) (hpr : ∀ n F, IsParetoRank (fun i j => Dominates (F i) (F j)) (paretoRank n F)) (hm : 1 < m)
    (at' : Attrs ι α β m) (split : Bool) (hsplit : split = false → ∀ x, at'.feas x = true) (popSize : ℕ) (hn1 : 1 ≤ popSize) (adv : Bool)
    (init : List ι × SurvCall ι) (hi : CallOk at' init.2) (gens : List (Option (List ι) × SurvCall ι)) (hg : ∀ g ∈ gens, CallOk at' g.2)
    (hnd : (genAll init gens).Nodup)
    (hfits : ∀ k ≤ gens.length, ∀ L : List ι, L.Nodup → (∀ x ∈ L, feasibleFront at' (genAll init (gens.take k)) x) → L.length ≤ popSize)
    (hf : ∃ x ∈ genAll init gens, at'.feas x = true) (least : Bool) :
    ∃ opt, filterOptimum paretoRank at' least (some (geneticRun split at'.feas popSize adv init gens)) = some (some opt) ∧ opt.Nodup ∧
      ∀ x, x ∈ opt ↔ feasibleFront at' (genAll init gens) x := by
  obtain ⟨c1, c2, c3⟩ := C102_complete at' split hsplit popSize hn1 adv init hi gens hg hnd hfits
  obtain ⟨x, hx, hxf⟩ := hf
  obtain ⟨y, hy, -⟩ := front_below at' _ x hx hxf
  obtain ⟨res, r1, -, r3, r4⟩ := C21_multi_objective paretoRank hpr at' least hm (geneticRun split at'.feas popSize adv init gens) ⟨y, c3 y hy, hy.2.1⟩
  refine ⟨res, r1, r3 c1, fun z => ?_⟩
  rw [r4 z]
  constructor
  · rintro ⟨⟨z1, z2⟩, z3⟩
    refine ⟨c2 z z1, z2, fun w hw hwf hd => ?_⟩
    obtain ⟨v, hv, hvw⟩ := front_below at' _ w hw hwf
    refine z3 v (c3 v hv) hv.2.1 ?_
    rcases hvw with rfl | h
    · exact hd
    · exact dominates_strictPO.trans _ _ _ h hd
  · intro hz
    exact ⟨⟨c3 z hz, hz.2.1⟩, fun w hw hwf => hz.2.2 w (c2 w hw) hwf⟩


/-! ### The survival operators of pymoo are elitist -/

section
variable {ι α : Type*} {m : ℕ} [LinearOrder α]

theorem front_of_levels {N : ℕ} {dom : Fin N → Fin N → Prop} {all : List (List (Fin N))} (h2 : CanonicalFronts dom all) {S : List (Fin N)}
    (h5 : ∀ k l (hk : k < all.length) (hl : l < all.length), k < l → ∀ i ∈ all[l], i ∈ S → ∀ j ∈ all[k], j ∈ S) (i : Fin N) (hund : ∀ j, ¬ dom j i)
    (hlost : i ∉ S) : ∀ j ∈ S, ∀ l, ¬ dom l j := by
  have hall : 0 < all.length := by
    rcases Nat.eq_zero_or_pos all.length with h0 | h0
    · have := h2.complete i
      rw [List.length_eq_zero_iff.1 h0] at this
      simp at this
    · exact h0
  have hi0 : i ∈ all[0] := by
    rw [h2.level 0 hall i]
    exact ⟨by simp, fun j hj => absurd hj (hund j)⟩
  intro j hj l hdom
  obtain ⟨f, hf, hjf⟩ := List.mem_flatten.1 (h2.complete j)
  obtain ⟨q, hq, rfl⟩ := List.mem_iff_getElem.1 hf
  rcases Nat.eq_zero_or_pos q with h0 | h0
  · subst h0
    rw [h2.level 0 hall j] at hjf
    simpa using hjf.2 l hdom
  · exact hlost (h5 0 q hall hq h0 j hjf hj i hi0)

theorem liftSel_elitist (F : ι → Fin m → α) (sel : (l : ℕ) → (Fin l → ι) → ℕ → Option (List (Fin l)))
    (h : ∀ l (g : Fin l → ι) k, 1 ≤ k → k ≤ l → ∃ S, sel l g k = some S ∧ S.length = k ∧ S.Nodup ∧
      ∀ i, (∀ j, ¬ Dominates (F (g j)) (F (g i))) → i ∉ S → ∀ j ∈ S, ∀ q, ¬ Dominates (F (g q)) (F (g j))) :
    Elitist F (liftSel sel) := by
  intro sub k hs hk1 hk
  obtain ⟨S, s1, s2, s3, s4⟩ := h sub.length sub.get k hk1 hk
  unfold liftSel
  rw [s1, Option.getD_some]
  refine ⟨by rw [List.length_map, s2], s3.map (List.nodup_iff_injective_get.1 hs), ?_, ?_⟩
  · intro x hx
    obtain ⟨i, -, rfl⟩ := List.mem_map.1 hx
    exact List.get_mem _ _
  · intro x hx hund hlost y hy z hz
    obtain ⟨i, rfl⟩ := List.get_of_mem hx
    obtain ⟨j, hj, rfl⟩ := List.mem_map.1 hy
    obtain ⟨q, rfl⟩ := List.get_of_mem hz
    exact s4 i (fun j => hund _ (List.get_mem _ _)) (fun hm => hlost (List.mem_map_of_mem hm)) j hj q

/-- **C102** (NSGA-II). Survival by rank and crowding is elitist. -/
theorem C102_nsga2 [AddCommGroup α] [IsOrderedAddMonoid α] {γ : Type*} [LinearOrder γ] {paretoRank : (N : ℕ) → (Fin N → Fin m → α) → Fin N → ℕ} {argsort : (l : ℕ) → (Fin l → γ) → List (Fin l)}
    {P : ℕ → (l : ℕ) → Fin l → Fin l} (crowd : (l : ℕ) → (Fin l → Fin m → α) → ℕ → Fin l → γ) (h : RcOk paretoRank argsort P) (F : ι → Fin m → α) :
    Elitist F (rcOperator paretoRank F crowd argsort P) := by
  intro sub k hs hk1 hk
  obtain ⟨a1, a2, a3⟩ := rcOperator_basic crowd h F sub k hs hk
  exact ⟨a1, a2, a3, fun x hx hund hlost => rcOperator_front crowd h F sub k hs hk x hx hund hlost⟩

/-- The operator of NSGA-III (`nsga3.py:124-209`): `D` gives the distances to the reference lines after the normalisation of this population. -/
def nsga3Operator [Sub α] (paretoRank : (l : ℕ) → (Fin l → Fin m → α) → Fin l → ℕ) (F : ι → Fin m → α) (D : (l : ℕ) → (Fin l → ι) → Fin l → List ℚ)
    (shuffle : ℕ → List ℕ → List ℕ) : List ι → ℕ → List ι :=
  liftSel fun l g k => (ndsFronts (paretoRank l) none none 0 (fun i => F (g i)) none (some k)).bind fun fronts =>
    (nsga3Survive fronts (D l g) shuffle k k).map Prod.fst

/-- **C102** (NSGA-III). Survival by reference directions is elitist, for any distances and shuffles. -/
theorem C102_nsga3 [AddCommGroup α] [IsOrderedAddMonoid α] {paretoRank : (l : ℕ) → (Fin l → Fin m → α) → Fin l → ℕ}
    (hpr : ∀ l F, IsParetoRank (fun i j => Dominates (F i) (F j)) (paretoRank l F)) (F : ι → Fin m → α) (D : (l : ℕ) → (Fin l → ι) → Fin l → List ℚ)
    (shuffle : ℕ → List ℕ → List ℕ) (hsh : ∀ t l, (shuffle t l).Perm l) : Elitist F (nsga3Operator paretoRank F D shuffle) := by
  refine liftSel_elitist F _ fun l g k hk1 hk => ?_
  obtain ⟨all, fronts, h1, h2, h3, -, h5⟩ := C10_native (paretoRank l) (hpr l) none 0 (fun i => F (g i)) none (some k)
  have h5 := h5 k rfl
  rw [show leading none all = all from rfl] at h5
  obtain ⟨surv, opt, s1, s2, s3, s4, -⟩ := C34_survival _ all fronts h2 k hk hk1 h5 (D l g) shuffle hsh k (le_refl _)
  refine ⟨surv, by rw [h3, Option.bind_some, s1]; rfl, s2, s3, fun i hund hlost => ?_⟩
  exact front_of_levels h2 s4 i hund hlost

variable {K : Type*} [Field K] [LinearOrder K] [IsStrictOrderedRing K]

/-- **C102** (SPEA2). The survival of SPEA2 is elitist. -/
theorem C102_spea2 (F : ι → Fin m → K) (dist : ι → ι → K) (hd : ∀ i j, 0 ≤ dist i j) (argsort : (l : ℕ) → (Fin l → K) → List (Fin l) → List (Fin l))
    (hsort : ∀ l v L, (argsort l v L).Perm L ∧ (argsort l v L).Pairwise fun a b => v a ≤ v b) :
    Elitist F (liftSel fun l g k => speaSurvival (domM fun i => F (g i)) (fun i j => dist (g i) (g j)) (argsort l) k) := by
  refine liftSel_elitist F _ fun l g k hk1 hk => ?_
  obtain ⟨S, h1, h2, h3, h4, h5, -⟩ := C76_survival (fun i => F (g i)) (fun i j => dist (g i) (g j)) (fun i j => hd _ _) (argsort l) (hsort l) k hk
  refine ⟨S, h1, h2, h3, fun i hund hlost => ?_⟩
  have hmemU : ∀ i, i ∈ undominated (fun i => F (g i)) ↔ ∀ j, ¬ Dominates (F (g j)) (F (g i)) := by
    intro i
    unfold undominated
    rw [List.mem_filter, decide_eq_true_iff]
    simp
  rcases le_total (undominated fun i => F (g i)).length k with hle | hle
  · exact absurd ((h4 hle).1 i ((hmemU i).2 hund)) hlost
  · exact fun j hj => (hmemU j).1 ((h5 hle).1 j hj)

/-- **C102** (SMS-EMOA). The survival of SMS-EMOA is elitist. -/
theorem C102_smsemoa (paretoRank : (l : ℕ) → (Fin l → Fin m → K) → Fin l → ℕ) (hpr : ∀ l F, IsParetoRank (fun i j => Dominates (F i) (F j)) (paretoRank l F))
    (hvc : (Fin m → K) → List (Fin m → K) → List K) (vol : (Fin m → K) → List (Fin m → K) → K) (hc : ContributionContract hvc vol) (eps : K) (F : ι → Fin m → K)
    (bounds : (Fin m → K) × (Fin m → K)) :
    Elitist F (liftSel fun l g k => (smsSurvival (paretoRank l) hvc eps (fun i => F (g i)) (some bounds) k).map fun o => o.map Prod.fst) := by
  refine liftSel_elitist F _ fun l g k hk1 hk => ?_
  obtain ⟨out, all, p, last, rest, kept, h1, h2, h3, h4, h5, -, h7, h8, -⟩ := C75_survival (paretoRank l) (hpr l) hvc vol hc eps (fun i => F (g i)) bounds.1 bounds.2 k hk (by omega)
  refine ⟨out.map Prod.fst, by rw [h1]; rfl, by rw [List.length_map, h7], h8, fun i hund hlost => ?_⟩
  rw [h4] at hlost h8 ⊢
  obtain ⟨-, f2, -⟩ := split_facts h2 h3 (List.nodup_append.1 h8).2.1 fun i hi => h5.subset hi
  exact front_of_levels h2 f2 i hund hlost

/-- **C102** (AGE-MOEA). The survival of AGE-MOEA is elitist. -/
theorem C102_agemoea (paretoRank : (l : ℕ) → (Fin l → Fin m → K) → Fin l → ℕ) (hpr : ∀ l F, IsParetoRank (fun i j => Dominates (F i) (F j)) (paretoRank l F))
    (F : ι → Fin m → K) (score prox : (l : ℕ) → (Fin l → ι) → List (List (Fin l)) → Fin l → K) (argsort : (l : ℕ) → (Fin l → K) → List (Fin l) → List (Fin l))
    (hsort : ∀ l v L, (argsort l v L).Perm L ∧ (argsort l v L).Pairwise fun a b => v a ≤ v b) :
    Elitist F (liftSel fun l g k => ageSurvival (paretoRank l) (fun i => F (g i)) (score l g) (prox l g) (argsort l) k) := by
  refine liftSel_elitist F _ fun l g k hk1 hk => ?_
  obtain ⟨S, all, h1, h2, h3, h4, h5, -⟩ := C78_survival (paretoRank l) (hpr l) (fun i => F (g i)) (score l g) (prox l g) (argsort l) (hsort l) k hk (by omega)
  exact ⟨S, h1, h3, h4, fun i hund hlost => front_of_levels h2 h5 i hund hlost⟩

end


/-! ### Examples -/

/-- Individuals are numbers `10 a + b`, with the objectives `a` and `b`. -/
def exDigits (feasible : ℕ → Bool) : Attrs ℕ ℚ ℚ 2 := ⟨fun x => ![(x / 10 : ℕ), (x % 10 : ℕ)], feasible, fun x => if feasible x then 0 else x⟩

/-- SPEA2's survival with the distance of the numbers. -/
def exSpea (feasible : ℕ → Bool) : SurvCall ℕ :=
  ⟨liftSel fun l g k => speaSurvival (K := ℚ) (domM fun i => (exDigits feasible).F (g i)) (fun i j => |((g i : ℕ) : ℚ) - (g j : ℕ)|) (fun v L => L.insertionSort fun a b => v a ≤ v b) k,
    fun pop l => l.insertionSort fun a b => (exDigits feasible).cv (pop.get a) ≤ (exDigits feasible).cv (pop.get b)⟩

theorem sortBy_ok {A : Type*} (v : A → ℚ) (L : List A) :
    (L.insertionSort fun a b => v a ≤ v b).Perm L ∧ (L.insertionSort fun a b => v a ≤ v b).Pairwise fun a b => v a ≤ v b := by
  have : Std.Total (α := A) (fun a b => v a ≤ v b) := ⟨fun a b => le_total _ _⟩
  have : IsTrans A (fun a b => v a ≤ v b) := ⟨fun a b c => le_trans⟩
  exact ⟨List.perm_insertionSort _ _, List.pairwise_insertionSort _ L⟩

theorem exSpea_ok (feasible : ℕ → Bool) : CallOk (exDigits feasible) (exSpea feasible) :=
  ⟨C102_spea2 _ (fun i j : ℕ => |(i : ℚ) - j|) (fun _ _ => abs_nonneg _) (fun l v L => L.insertionSort fun a b => v a ≤ v b) fun l v L => sortBy_ok v L,
    fun pop l => sortBy_ok (fun a => (exDigits feasible).cv (pop.get a)) l⟩

/-- A constrained run of two generations; `11`, `12` and `21` are infeasible, the front at the end is `14`, `32`. -/
example : let feasible := fun x => decide (13 < x ∧ x ≠ 21)
    geneticRun true feasible 3 true ([55, 11, 33], exSpea feasible) [(some [12, 14], exSpea feasible), (some [32, 21], exSpea feasible)] = [14, 32, 33] ∧
    CallOk (exDigits feasible) (exSpea feasible) ∧ (genAll ([55, 11, 33], exSpea feasible) [(some [12, 14], exSpea feasible), (some [32, 21], exSpea feasible)]).Nodup := by
  intro feasible
  exact ⟨by decide +kernel, exSpea_ok _, by decide⟩

/-- **C102** fails when the front does not fit. With `pop_size = 1` the population ends as `13`, which the evaluated `12` dominates. -/
theorem C102_deteriorates_refuted :
    let feasible := fun _ : ℕ => true
    CallOk (exDigits feasible) (exSpea feasible) ∧
    geneticRun false feasible 1 true ([12], exSpea feasible) [(some [21], exSpea feasible), (some [13], exSpea feasible)] = [13] ∧
    Dominates ((exDigits feasible).F 12) ((exDigits feasible).F 13) := by
  intro feasible
  refine ⟨exSpea_ok _, by decide +kernel, by decide +kernel, 1, by decide +kernel⟩

end Props
