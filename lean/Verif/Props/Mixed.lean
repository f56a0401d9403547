import Verif.Model.Sampling
import Mathlib.Data.List.Perm.Basic
import Mathlib.Data.List.Nodup
import Mathlib.Tactic.Ring

/-!
# C58: mixed variables
-/

set_option linter.unusedSimpArgs false
set_option linter.unusedVariables false
set_option linter.unusedSectionVars false

namespace Props

open Model

section
variable {N A : Type*}

theorem mapM_forall {α β : Type*} (f : α → Option β) (l : List α) (r : List β) (h : l.mapM f = some r) :
    List.Forall₂ (fun a b => f a = some b) l r := by
  induction l generalizing r with
  | nil =>
    simp only [List.mapM_nil] at h
    obtain rfl : r = [] := (Option.some.inj h).symm
    exact List.Forall₂.nil
  | cons a l ih =>
    simp only [List.mapM_cons, Option.bind_eq_bind, Option.bind_eq_some_iff] at h
    obtain ⟨b, hb, r', hr', h⟩ := h
    obtain rfl := Option.some.inj h
    exact List.Forall₂.cons hb (ih r' hr')

theorem forall_right {α β : Type*} (R : α → β → Prop) (l : List α) (r : List β) (h : List.Forall₂ R l r) (b : β) (hb : b ∈ r) :
    ∃ a ∈ l, R a b := by
  induction h with
  | nil => simp at hb
  | cons hab _ ih =>
    rcases List.mem_cons.1 hb with rfl | hb
    · exact ⟨_, List.mem_cons_self .., hab⟩
    · obtain ⟨a, ha, hR⟩ := ih hb
      exact ⟨a, List.mem_cons_of_mem _ ha, hR⟩

theorem addToGroup_perm (g : List (VarClass × List N)) (c : VarClass) (k : N) :
    ((addToGroup g c k).flatMap fun e => e.2.map fun x => (x, e.1)).Perm ((g.flatMap fun e => e.2.map fun x => (x, e.1)) ++ [(k, c)]) := by
  induction g with
  | nil => simp [addToGroup]
  | cons e g ih =>
    obtain ⟨c', l⟩ := e
    by_cases h : c' = c
    · subst h
      simp only [addToGroup, if_true, List.flatMap_cons, List.map_append, List.map_cons, List.map_nil, List.append_assoc]
      exact List.Perm.append_left _ List.perm_append_comm
    · simp only [addToGroup, if_neg h, List.flatMap_cons, List.append_assoc]
      exact List.Perm.append_left _ ih

theorem varsByType_perm (vars : List (N × VarClass)) : ((varsByType vars).flatMap fun e => e.2.map fun x => (x, e.1)).Perm vars := by
  have gen : ∀ (vars : List (N × VarClass)) (g : List (VarClass × List N)),
      ((vars.foldl (fun g v => addToGroup g v.2 v.1) g).flatMap fun e => e.2.map fun x => (x, e.1)).Perm
        ((g.flatMap fun e => e.2.map fun x => (x, e.1)) ++ vars) := by
    intro vars
    induction vars with
    | nil => intro g; simp
    | cons v vars ih =>
      intro g
      rw [List.foldl_cons]
      refine (ih _).trans ?_
      refine ((addToGroup_perm g v.2 v.1).append_right vars).trans ?_
      simp
  simpa [varsByType] using gen vars []

theorem addToGroup_classes (g : List (VarClass × List N)) (c : VarClass) (k : N) (h : (g.map Prod.fst).Nodup) :
    ((addToGroup g c k).map Prod.fst).Nodup ∧ ∀ d, d ∈ (addToGroup g c k).map Prod.fst → d ∈ g.map Prod.fst ∨ d = c := by
  induction g with
  | nil => simp [addToGroup]
  | cons e g ih =>
    obtain ⟨c', l⟩ := e
    simp only [List.map_cons, List.nodup_cons] at h
    obtain ⟨h1, h2⟩ := ih h.2
    by_cases hc : c' = c
    · simp only [addToGroup, hc, if_true, List.map_cons, List.nodup_cons]
      rw [← hc]
      exact ⟨h, fun d hd => Or.inl hd⟩
    · simp only [addToGroup, if_neg hc, List.map_cons, List.nodup_cons]
      refine ⟨⟨?_, h1⟩, ?_⟩
      · intro hm
        rcases h2 c' hm with h' | h'
        · exact h.1 h'
        · exact hc h'
      · intro d hd
        rcases List.mem_cons.1 hd with rfl | hd
        · exact Or.inl (List.mem_cons_self ..)
        · rcases h2 d hd with h' | h'
          · exact Or.inl (List.mem_cons_of_mem _ h')
          · exact Or.inr h'

theorem varsByType_classes (vars : List (N × VarClass)) : ((varsByType vars).map Prod.fst).Nodup := by
  have gen : ∀ (vars : List (N × VarClass)) (g : List (VarClass × List N)), (g.map Prod.fst).Nodup →
      ((vars.foldl (fun g v => addToGroup g v.2 v.1) g).map Prod.fst).Nodup := by
    intro vars
    induction vars with
    | nil => intro g h; exact h
    | cons v vars ih => intro g h; exact ih _ (addToGroup_classes g v.2 v.1 h).1
  exact gen vars [] (by simp)

/-- **C58** (groups). The operators are applied to every variable exactly once, as a variable of its own type: the groups with their
types list the variables of the problem, each once; all variables of a type other than choice are in one group, every choice
variable is alone in its group. -/
theorem C58_groups (vars : List (N × VarClass)) :
    ((recombGroups vars).flatMap fun g => g.2.map fun x => (x, g.1)).Perm vars ∧
    (∀ g ∈ recombGroups vars, g.1 = .choice → g.2.length = 1) ∧
    ∀ c, c ≠ .choice → ((recombGroups vars).filter fun g => g.1 = c).length ≤ 1 := by
  refine ⟨?_, ?_, ?_⟩
  · refine List.Perm.trans (List.Perm.of_eq ?_) (varsByType_perm vars)
    simp only [recombGroups, List.flatMap_assoc]
    apply List.flatMap_congr
    intro g _
    by_cases h : g.1 = .choice
    · simp only [if_pos h, List.flatMap_map]
      rw [h]
      induction g.2 with
      | nil => rfl
      | cons a l ih => simpa [List.flatMap_cons] using ih
    · simp [if_neg h]
  · intro g hg hc
    simp only [recombGroups, List.mem_flatMap] at hg
    obtain ⟨e, -, he⟩ := hg
    by_cases h : e.1 = .choice
    · rw [if_pos h] at he
      obtain ⟨x, -, rfl⟩ := List.mem_map.1 he
      rfl
    · rw [if_neg h, List.mem_singleton] at he
      subst he
      exact absurd hc h
  · intro c hc
    have hnd := varsByType_classes vars
    have gen : ∀ l : List (VarClass × List N), (l.map Prod.fst).Nodup →
        ((l.flatMap fun g => if g.1 = .choice then g.2.map fun e => (VarClass.choice, [e]) else [g]).filter fun g => g.1 = c).length ≤ 1 ∧
        (c ∉ l.map Prod.fst → (l.flatMap fun g => if g.1 = .choice then g.2.map fun e => (VarClass.choice, [e]) else [g]).filter
          (fun g => g.1 = c) = []) := by
      intro l
      induction l with
      | nil => simp
      | cons e l ih =>
        intro h
        simp only [List.map_cons, List.nodup_cons] at h
        obtain ⟨h1, h2⟩ := ih h.2
        rw [List.flatMap_cons, List.filter_append]
        by_cases hch : e.1 = .choice
        · have : (if e.1 = .choice then e.2.map fun x => (VarClass.choice, [x]) else [e]).filter (fun g => g.1 = c) = [] := by
            rw [if_pos hch, List.filter_eq_nil_iff]
            intro g hg
            obtain ⟨x, -, rfl⟩ := List.mem_map.1 hg
            simpa using Ne.symm hc
          rw [this, List.nil_append]
          refine ⟨h1, fun hn => h2 fun hm => hn (List.mem_cons_of_mem _ hm)⟩
        · rw [if_neg hch]
          by_cases hec : e.1 = c
          · have hn : c ∉ l.map Prod.fst := hec ▸ h.1
            rw [h2 hn]
            refine ⟨by simp [hec], fun hn' => ?_⟩
            exact absurd (by simp [hec]) hn'
          · refine ⟨by simpa [hec] using h1, fun hn => ?_⟩
            rw [h2 fun hm => hn (List.mem_cons_of_mem _ hm)]
            simp [hec]
    exact (gen _ hnd).1

variable [DecidableEq N]

theorem mGet_mSet (d : MixedX N A) (k k' : N) (v : A) : mGet (mSet d k v) k' = if k = k' then some v else mGet d k' := by
  induction d with
  | nil => simp [mSet, mGet]
  | cons e d ih =>
    obtain ⟨a, w⟩ := e
    by_cases h : a = k
    · subst h
      simp only [mSet, if_true, mGet]
      by_cases h' : a = k'
      · simp [h']
      · simp [h']
    · simp only [mSet, if_neg h, mGet, ih]
      by_cases h' : a = k'
      · subst h'
        simp [Ne.symm h]
      · simp [h']

theorem mSet_names (d : MixedX N A) (k : N) (v : A) :
    (mSet d k v).map Prod.fst = if k ∈ d.map Prod.fst then d.map Prod.fst else d.map Prod.fst ++ [k] := by
  induction d with
  | nil => simp [mSet]
  | cons e d ih =>
    obtain ⟨a, w⟩ := e
    by_cases h : a = k
    · simp [mSet, h]
    · simp only [mSet, if_neg h, List.map_cons, ih, List.mem_cons, Ne.symm h, false_or]
      by_cases hm : k ∈ d.map Prod.fst
      · simp [hm]
      · simp [hm]

/-- Writing the values of new names. -/
theorem writeGroup_spec (x : MixedX N A) (names : List N) (vals : List A) (hlen : vals.length = names.length) (hn : names.Nodup)
    (hd : ∀ k ∈ names, k ∉ x.map Prod.fst) :
    (writeGroup x names vals).map Prod.fst = x.map Prod.fst ++ names ∧
    (∀ k, k ∉ names → mGet (writeGroup x names vals) k = mGet x k) ∧
    ∀ (i : ℕ) k, names[i]? = some k → mGet (writeGroup x names vals) k = vals[i]? := by
  induction names generalizing x vals with
  | nil =>
    refine ⟨by simp [writeGroup], fun k _ => by simp [writeGroup], fun i k h => by simp at h⟩
  | cons a names ih =>
    cases vals with
    | nil => simp at hlen
    | cons v vals =>
      rw [List.nodup_cons] at hn
      have hx : (mSet x a v).map Prod.fst = x.map Prod.fst ++ [a] := by
        rw [mSet_names, if_neg (hd a (List.mem_cons_self ..))]
      obtain ⟨h1, h2, h3⟩ := ih (mSet x a v) vals (by simpa using hlen) hn.2 (by
        intro k hk
        rw [hx, List.mem_append, not_or]
        refine ⟨hd k (List.mem_cons_of_mem _ hk), ?_⟩
        rw [List.mem_singleton]
        rintro rfl
        exact hn.1 hk)
      have e : writeGroup x (a :: names) (v :: vals) = writeGroup (mSet x a v) names vals := rfl
      rw [e]
      refine ⟨by rw [h1, hx]; simp, ?_, ?_⟩
      · intro k hk
        rw [List.mem_cons, not_or] at hk
        rw [h2 k hk.2, mGet_mSet, if_neg (Ne.symm hk.1)]
      · intro i k hi
        cases i with
        | zero =>
          simp only [List.getElem?_cons_zero, Option.some.injEq] at hi
          subst hi
          rw [h2 a hn.1, mGet_mSet, if_pos rfl]
          rfl
        | succ i => simpa using h3 i k (by simpa using hi)

/-- **C58** (offspring). If `MixedVariableMating` returns, there are `n_offsprings` offspring; each has a value for exactly the variables
of the problem, and for every group the values of offspring `k` are row `k` of the result of the operators of the group's type,
which were applied to the values of the group's variables in the selected parents. -/
theorem C58_offspring (op : VarClass → List N → List (List (List A)) → Option (List (List A))) (vars : List (N × VarClass))
    (parents : List (List (MixedX N A))) (nOff : ℕ) (hvars : (vars.map Prod.fst).Nodup)
    (hop : ∀ c names P res, op c names P = some res → ∀ r ∈ res, r.length = names.length)
    (off : List (MixedX N A)) (h : mixedMating op vars parents nOff = some off) :
    off.length = nOff ∧
    (∀ x ∈ off, (x.map Prod.fst).Perm (vars.map Prod.fst)) ∧
    ∀ g ∈ recombGroups vars, ∃ P res, subVectors g.2 parents = some P ∧ op g.1 g.2 P = some res ∧ nOff ≤ res.length ∧
      ∀ (k : ℕ) x r, off[k]? = some x → res[k]? = some r → ∀ (i : ℕ) name, g.2[i]? = some name → mGet x name = r[i]? := by
  have hperm := (C58_groups vars).1
  have hnames : ((recombGroups vars).flatMap fun g => g.2).Perm (vars.map Prod.fst) := by
    have := hperm.map Prod.fst
    rw [List.map_flatMap] at this
    simpa [Function.comp_def] using this
  have hnd : ((recombGroups vars).flatMap fun g => g.2).Nodup := hnames.nodup_iff.2 hvars
  have gen : ∀ (gs : List (VarClass × List N)) (off0 off : List (MixedX N A)) (pre : List N), off0.length = nOff →
      (∀ x ∈ off0, x.map Prod.fst = pre) → (pre ++ gs.flatMap fun g => g.2).Nodup →
      mixedLoop op parents nOff gs off0 = some off →
      off.length = nOff ∧ (∀ x ∈ off, x.map Prod.fst = pre ++ gs.flatMap fun g => g.2) ∧
      (∀ (k : ℕ) x0 x, off0[k]? = some x0 → off[k]? = some x → ∀ name ∈ pre, mGet x name = mGet x0 name) ∧
      ∀ g ∈ gs, ∃ P res, subVectors g.2 parents = some P ∧ op g.1 g.2 P = some res ∧ nOff ≤ res.length ∧
        ∀ (k : ℕ) x r, off[k]? = some x → res[k]? = some r → ∀ (i : ℕ) name, g.2[i]? = some name → mGet x name = r[i]? := by
    intro gs
    induction gs with
    | nil =>
      intro off0 off pre hlen hpre _ hrun
      simp only [mixedLoop, Option.some.injEq] at hrun
      subst hrun
      refine ⟨hlen, by simpa using hpre, ?_, by simp⟩
      intro k x0 x h1 h2 name _
      rw [h1] at h2
      obtain rfl := Option.some.inj h2
      rfl
    | cons g gs ih =>
      intro off0 off pre hlen hpre hnod hrun
      simp only [mixedLoop, Option.bind_eq_some_iff] at hrun
      obtain ⟨P, hP, res, hres, hrun⟩ := hrun
      split at hrun
      · simp at hrun
      rename_i hge
      rw [List.flatMap_cons, ← List.append_assoc] at hnod
      have hnod1 : (pre ++ g.2).Nodup := (List.nodup_append.1 hnod).1
      have hg : g.2.Nodup := (List.nodup_append.1 hnod1).2.1
      have hdis : ∀ k ∈ g.2, k ∉ pre := by
        intro k hk hp
        exact (List.nodup_append.1 hnod1).2.2 k hp k hk rfl
      have hrow : ∀ (k : ℕ) x0 r, off0[k]? = some x0 → res[k]? = some r →
          (writeGroup x0 g.2 r).map Prod.fst = pre ++ g.2 ∧ (∀ name, name ∉ g.2 → mGet (writeGroup x0 g.2 r) name = mGet x0 name) ∧
          ∀ (i : ℕ) name, g.2[i]? = some name → mGet (writeGroup x0 g.2 r) name = r[i]? := by
        intro k x0 r h0 hr
        have e0 := hpre x0 (List.mem_of_getElem? h0)
        have := writeGroup_spec x0 g.2 r (hop _ _ _ _ hres r (List.mem_of_getElem? hr)) hg (by rw [e0]; exact hdis)
        rwa [e0] at this
      obtain ⟨i1, i2, i3, i4⟩ := ih (List.zipWith (fun x vals => writeGroup x g.2 vals) off0 res) off (pre ++ g.2)
        (by simp; omega)
        (by
          intro x hx
          obtain ⟨k, hk, e⟩ := List.getElem_of_mem hx
          simp only [List.length_zipWith] at hk
          rw [List.getElem_zipWith] at e
          rw [← e]
          exact (hrow k _ _ (List.getElem?_eq_getElem (by omega)) (List.getElem?_eq_getElem (by omega))).1)
        hnod hrun
      refine ⟨i1, ?_, ?_, ?_⟩
      · intro x hx
        rw [i2 x hx, List.flatMap_cons, List.append_assoc]
      · intro k x0 x h1 h2 name hname
        have hk : k < nOff := by
          rw [← hlen]
          exact (List.getElem?_eq_some_iff.1 h1).1
        have hr : res[k]? = some res[k] := List.getElem?_eq_getElem (by omega)
        have hz : (List.zipWith (fun x vals => writeGroup x g.2 vals) off0 res)[k]? = some (writeGroup x0 g.2 res[k]) := by
          simp [List.getElem?_zipWith, h1, hr]
        rw [i3 k _ x hz h2 name (List.mem_append_left _ hname)]
        exact (hrow k x0 _ h1 hr).2.1 name fun hm => hdis name hm hname
      · intro g' hg'
        rcases List.mem_cons.1 hg' with rfl | hg'
        · refine ⟨P, res, hP, hres, by omega, ?_⟩
          intro k x r hx hr i name hi
          have hk : k < nOff := by
            rw [← i1]
            exact (List.getElem?_eq_some_iff.1 hx).1
          have h0 : off0[k]? = some off0[k] := List.getElem?_eq_getElem (by omega)
          have hz : (List.zipWith (fun x vals => writeGroup x g'.2 vals) off0 res)[k]? = some (writeGroup off0[k] g'.2 r) := by
            simp [List.getElem?_zipWith, h0, hr]
          rw [i3 k _ x hz hx name (List.mem_append_right _ (List.mem_of_getElem? hi))]
          exact (hrow k _ r h0 hr).2.2 i name hi
        · exact i4 g' hg'
  obtain ⟨g1, g2, -, g4⟩ := gen (recombGroups vars) (List.replicate nOff []) off [] (by simp) (by
    intro x hx
    rw [List.eq_of_mem_replicate hx]
    rfl) (by simpa using hnd) h
  refine ⟨g1, ?_, g4⟩
  intro x hx
  rw [g2 x hx]
  simpa using hnames

/-- **C58** (domains). If the operators of each type keep values in the domain of their variables and the parents have all their values in
the domains, every value of every offspring is in the domain of its variable. -/
theorem C58_domains (op : VarClass → List N → List (List (List A)) → Option (List (List A))) (vars : List (N × VarClass))
    (parents : List (List (MixedX N A))) (nOff : ℕ) (hvars : (vars.map Prod.fst).Nodup) (Dom : N → A → Prop)
    (hlen : ∀ c names P res, op c names P = some res → ∀ r ∈ res, r.length = names.length)
    (hop : ∀ c names P res, (c, names) ∈ recombGroups vars → op c names P = some res →
      (∀ ps ∈ P, ∀ p ∈ ps, List.Forall₂ Dom names p) → ∀ r ∈ res, List.Forall₂ Dom names r)
    (hpar : ∀ ps ∈ parents, ∀ p ∈ ps, ∀ name a, mGet p name = some a → Dom name a)
    (off : List (MixedX N A)) (h : mixedMating op vars parents nOff = some off) :
    ∀ x ∈ off, ∀ v ∈ vars, ∃ a, mGet x v.1 = some a ∧ Dom v.1 a := by
  obtain ⟨h1, h2, h3⟩ := C58_offspring op vars parents nOff hvars hlen off h
  intro x hx v hv
  have hmem : v ∈ (recombGroups vars).flatMap fun g => g.2.map fun y => (y, g.1) := (C58_groups vars).1.mem_iff.2 hv
  obtain ⟨g, hg, hvg⟩ := List.mem_flatMap.1 hmem
  obtain ⟨y, hy, rfl⟩ := List.mem_map.1 hvg
  obtain ⟨P, res, hP, hres, hle, hval⟩ := h3 g hg
  obtain ⟨k, hk, hxk⟩ := List.getElem_of_mem hx
  obtain ⟨i, hi, hyi⟩ := List.getElem_of_mem hy
  have hr : res[k]? = some res[k] := List.getElem?_eq_getElem (by omega)
  have hP' : ∀ ps ∈ P, ∀ p ∈ ps, List.Forall₂ Dom g.2 p := by
    intro ps hps p hp
    simp only [subVectors] at hP
    obtain ⟨q, hq, hq2⟩ := forall_right _ _ _ (mapM_forall _ _ _ hP) ps hps
    obtain ⟨z, hz, hz2⟩ := forall_right _ _ _ (mapM_forall _ _ _ hq2) p hp
    exact (mapM_forall _ _ _ hz2).imp fun name a ha => hpar q hq z hz name a ha
  have hdom := hop g.1 g.2 P res hg hres hP' res[k] (List.getElem_mem _)
  have := hval k x res[k] (by rw [← hxk]; exact List.getElem?_eq_getElem hk) hr i y (by rw [← hyi]; exact List.getElem?_eq_getElem hi)
  have hl := hdom.length_eq
  refine ⟨res[k][i], by rw [this]; exact List.getElem?_eq_getElem (by omega), ?_⟩
  have := (List.forall₂_iff_get.1 hdom).2 i hi (by omega)
  simpa [← hyi] using this

/-- Two matings of one pair each (`a` real, `b`, `c` choices, `d` real) with an operator that reverses the parents of each mating: the
groups are `a, d` together and `b`, `c` alone. -/
example : recombGroups [('a', .real), ('b', .choice), ('c', .choice), ('d', .real)] =
      [(.real, ['a', 'd']), (.choice, ['b']), (.choice, ['c'])] ∧
    mixedMating (N := Char) (A := ℕ) (fun _ _ P => some (P.flatMap List.reverse)) [('a', .real), ('b', .choice), ('c', .choice), ('d', .real)]
      [[[('a', 1), ('b', 2), ('c', 3), ('d', 4)], [('a', 5), ('b', 6), ('c', 7), ('d', 8)]]] 2 =
    some [[('a', 5), ('d', 8), ('b', 6), ('c', 7)], [('a', 1), ('d', 4), ('b', 2), ('c', 3)]] := by decide

/-- **C58** (sampling). Every sampled solution has exactly the variables of the problem, and value `k` of each variable's sample is in
solution `k`. -/
theorem C58_sampling (vars : List (N × VarClass)) (hvars : (vars.map Prod.fst).Nodup) (sample : N → List A) (n : ℕ)
    (hs : ∀ v ∈ vars, n ≤ (sample v.1).length) :
    ∃ X, mixedSampling vars sample n = some X ∧ X.length = n ∧ ∀ (k : ℕ) x, X[k]? = some x →
      x.map Prod.fst = vars.map Prod.fst ∧ ∀ v ∈ vars, mGet x v.1 = (sample v.1)[k]? := by
  have row : ∀ k, k < n → ∀ vs : List (N × VarClass), (∀ v ∈ vs, v ∈ vars) → (vs.map Prod.fst).Nodup →
      ∃ x : MixedX N A, vs.mapM (fun v => ((sample v.1)[k]?).map fun a => (v.1, a)) = some x ∧
        x.map Prod.fst = vs.map Prod.fst ∧ ∀ v ∈ vs, mGet x v.1 = (sample v.1)[k]? := by
    intro k hk vs
    induction vs with
    | nil => intro _ _; exact ⟨[], by simp [List.mapM_nil], rfl, by simp⟩
    | cons v vs ih =>
      intro hm hn
      simp only [List.map_cons, List.nodup_cons] at hn
      obtain ⟨x, h1, h2, h3⟩ := ih (fun w hw => hm w (List.mem_cons_of_mem _ hw)) hn.2
      have hl := hs v (hm v (List.mem_cons_self ..))
      refine ⟨(v.1, (sample v.1)[k]) :: x, ?_, by simp [h2], ?_⟩
      · simp only [List.mapM_cons]
        rw [h1, List.getElem?_eq_getElem (by omega)]
        rfl
      · intro w hw
        rcases List.mem_cons.1 hw with rfl | hw
        · simp only [mGet, if_true]
          rw [List.getElem?_eq_getElem (by omega)]
        · have : v.1 ≠ w.1 := by
            intro e
            exact hn.1 (e ▸ List.mem_map_of_mem hw)
          simp only [mGet, if_neg this]
          exact h3 w hw
  have rows : ∀ ks : List ℕ, (∀ k ∈ ks, k < n) → ∃ X : List (MixedX N A),
      ks.mapM (fun k => vars.mapM fun v => ((sample v.1)[k]?).map fun a => (v.1, a)) = some X ∧ X.length = ks.length ∧
      ∀ (i : ℕ) k x, ks[i]? = some k → X[i]? = some x → x.map Prod.fst = vars.map Prod.fst ∧ ∀ v ∈ vars, mGet x v.1 = (sample v.1)[k]? := by
    intro ks
    induction ks with
    | nil => intro _; exact ⟨[], by simp [List.mapM_nil], rfl, by simp⟩
    | cons k ks ih =>
      intro hk
      obtain ⟨X, h1, h2, h3⟩ := ih fun j hj => hk j (List.mem_cons_of_mem _ hj)
      obtain ⟨x, e1, e2, e3⟩ := row k (hk k (List.mem_cons_self ..)) vars (fun _ h => h) hvars
      refine ⟨x :: X, ?_, by simp [h2], ?_⟩
      · simp only [List.mapM_cons]
        rw [h1, e1]
        rfl
      · intro i k' x' hi hx'
        cases i with
        | zero =>
          simp only [List.getElem?_cons_zero, Option.some.injEq] at hi hx'
          subst hi hx'
          exact ⟨e2, e3⟩
        | succ i => exact h3 i k' x' (by simpa using hi) (by simpa using hx')
  obtain ⟨X, h1, h2, h3⟩ := rows (List.range n) (by simp)
  refine ⟨X, h1, by simpa using h2, ?_⟩
  intro k x hx
  have hk : k < n := by
    have := (List.getElem?_eq_some_iff.1 hx).1
    simp at h2; omega
  exact h3 k k x (by simp [hk]) hx

variable [DecidableEq A]

/-- **C58** (duplicates). For two solutions with the same variables, the comparison used for duplicate elimination holds exactly if
all values are equal; it is not symmetric for solutions with different variables. -/
theorem C58_equal (a b : MixedX N A) (ha : (a.map Prod.fst).Nodup) (hab : ∀ k, k ∈ a.map Prod.fst ↔ k ∈ b.map Prod.fst) :
    (mixedEqual a b = true ↔ ∀ k, mGet a k = mGet b k) := by
  have hin : ∀ (l : MixedX N A), (l.map Prod.fst).Nodup → ∀ e ∈ l, mGet l e.1 = some e.2 := by
    intro l
    induction l with
    | nil => simp
    | cons e l ih =>
      intro hn e' he'
      obtain ⟨k, v⟩ := e
      simp only [List.map_cons, List.nodup_cons] at hn
      rcases List.mem_cons.1 he' with rfl | hel
      · simp [mGet]
      · have : k ≠ e'.1 := by
          intro hk
          exact hn.1 (hk ▸ List.mem_map_of_mem hel)
        simp only [mGet, if_neg this]
        exact ih hn.2 e' hel
  have hnone : ∀ (l : MixedX N A) k, k ∉ l.map Prod.fst → mGet l k = none := by
    intro l
    induction l with
    | nil => simp [mGet]
    | cons e l ih =>
      intro k hk
      obtain ⟨k', v⟩ := e
      simp only [List.map_cons, List.mem_cons, not_or] at hk
      simp only [mGet, if_neg (Ne.symm hk.1)]
      exact ih k hk.2
  simp only [mixedEqual, List.all_eq_true, beq_iff_eq]
  constructor
  · intro h k
    by_cases hk : k ∈ a.map Prod.fst
    · obtain ⟨e, he, rfl⟩ := List.mem_map.1 hk
      rw [h e he, hin a ha e he]
    · rw [hnone a k hk, hnone b k (fun hb => hk ((hab k).2 hb))]
  · intro h e he
    rw [← h e.1, hin a ha e he]

example : mixedEqual (N := Char) [('a', 1)] [('a', 1), ('b', 2)] = true ∧ mixedEqual (N := Char) [('a', 1), ('b', 2)] [('a', 1)] = false := by
  decide

end

end Props
