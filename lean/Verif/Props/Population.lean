import Verif.Model.Population
import Mathlib.Data.List.Nodup
import Mathlib.Data.List.Perm.Basic
import Mathlib.Data.List.Range

/-! # C35 (populations) -/

set_option linter.unusedSectionVars false
set_option linter.unusedSimpArgs false

namespace Props
open Model

variable {κ V A : Type*} [DecidableEq κ] [DecidableEq A]

theorem indSet_apply (h : ℕ → κ → Option V) (i : ℕ) (key : κ) (v : V) (j : ℕ) (k : κ) :
    indSet h i key v j k = if j = i ∧ k = key then some v else h j k := by
  unfold indSet
  by_cases h1 : j = i
  · subst h1
    by_cases h2 : k = key
    · subst h2; simp
    · simp [h2, Function.update_of_ne h2]
  · simp [h1, Function.update_of_ne h1]

theorem setColumnP_other (key : κ) (k : κ) (j : ℕ) : ∀ (ids : List ℕ) (vs : List V) (h : ℕ → κ → Option V),
    (j ∉ ids ∨ k ≠ key) → setColumnP key ids vs h j k = h j k := by
  intro ids
  induction ids with
  | nil => intro vs h _; simp [setColumnP]
  | cons i ids ih =>
    intro vs h hj
    cases vs with
    | nil => simp [setColumnP]
    | cons v vs =>
      rw [setColumnP, ih vs _ (by rcases hj with hj | hj
                                  · exact Or.inl fun h => hj (List.mem_cons_of_mem _ h)
                                  · exact Or.inr hj), indSet_apply, if_neg]
      rintro ⟨rfl, rfl⟩
      rcases hj with hj | hj
      · exact hj (List.mem_cons_self ..)
      · exact hj rfl

theorem setColumnP_last (key : κ) : ∀ (ids : List ℕ) (vs : List V) (h : ℕ → κ → Option V) (_ : vs.length = ids.length)
    (p : ℕ) (hp : p < ids.length) (hp' : p < vs.length), (∀ q (hq : q < ids.length), p < q → ids[q] ≠ ids[p]) →
    setColumnP key ids vs h ids[p] key = some vs[p] := by
  intro ids
  induction ids with
  | nil => intro vs h _ p hp; simp at hp
  | cons i ids ih =>
    intro vs h hl p hp hp' hlast
    cases vs with
    | nil => simp at hp'
    | cons v vs =>
      rw [setColumnP]
      cases p with
      | zero =>
        rw [setColumnP_other, indSet_apply]
        · simp
        · left
          intro hm
          obtain ⟨q, hq, he⟩ := List.getElem_of_mem hm
          exact hlast (q + 1) (by simpa using hq) (by omega) (by simpa using he)
      | succ p =>
        simp only [List.getElem_cons_succ]
        refine ih vs _ (by simpa using hl) p (by simpa using hp) (by simpa using hp') ?_
        intro q hq hpq
        have := hlast (q + 1) (by simpa using hq) (by omega)
        simpa using this

theorem setScalarP_spec (key : κ) (v : V) : ∀ (ids : List ℕ) (h : ℕ → κ → Option V) (j : ℕ) (k : κ),
    setScalarP key v ids h j k = if j ∈ ids ∧ k = key then some v else h j k := by
  intro ids
  induction ids with
  | nil => intro h j k; simp [setScalarP]
  | cons i ids ih =>
    intro h j k
    rw [setScalarP, ih, indSet_apply]
    by_cases h1 : j ∈ ids <;> by_cases h2 : k = key <;> by_cases h3 : j = i <;> simp [h1, h2, h3]

/-- The value intended for position `p`. -/
def PVal.at? {V : Type*} : PVal V → ℕ → Option V
  | .scalar v, _ => some v
  | .column vs, p => vs[p]?

/-- The value fits the population: scalar, or one value for each individual. -/
def PVal.Fits {V : Type*} (size : ℕ) : PVal V → Prop
  | .scalar _ => True
  | .column vs => vs.length = size

theorem setItems_spec (pop : List ℕ) : ∀ (kwargs : List (κ × PVal V)) (h : ℕ → κ → Option V),
    (∀ e ∈ kwargs, PVal.Fits pop.length e.2) → (kwargs.map Prod.fst).Nodup →
    (setItems pop kwargs h).2 = true ∧
    (∀ e ∈ kwargs, ∀ p (hp : p < pop.length), (∀ q (hq : q < pop.length), p < q → pop[q] ≠ pop[p]) →
      (setItems pop kwargs h).1 pop[p] e.1 = PVal.at? e.2 p) ∧
    (∀ i k, (i ∉ pop ∨ k ∉ kwargs.map Prod.fst) → (setItems pop kwargs h).1 i k = h i k) := by
  intro kwargs
  induction kwargs with
  | nil => intro h _ _; simp [setItems]
  | cons e rest ih =>
    intro h hfit hnd
    rw [List.map_cons, List.nodup_cons] at hnd
    obtain ⟨key, val⟩ := e
    have hstep : ∃ h', setItems pop ((key, val) :: rest) h = setItems pop rest h' ∧
        (∀ p (hp : p < pop.length), (∀ q (hq : q < pop.length), p < q → pop[q] ≠ pop[p]) →
          h' pop[p] key = PVal.at? val p) ∧
        (∀ i k, (i ∉ pop ∨ k ≠ key) → h' i k = h i k) := by
      cases val with
      | scalar v =>
        refine ⟨_, rfl, ?_, ?_⟩
        · intro p hp _
          rw [setScalarP_spec, if_pos ⟨List.getElem_mem hp, rfl⟩]; rfl
        · intro i k hik
          rw [setScalarP_spec, if_neg]; tauto
      | column vs =>
        have hl : vs.length = pop.length := hfit (key, .column vs) (List.mem_cons_self ..)
        refine ⟨setColumnP key pop vs h, by simp [setItems, hl], ?_, ?_⟩
        · intro p hp hlast
          rw [setColumnP_last key pop vs h hl p hp (by omega) hlast]
          simp [PVal.at?, hl ▸ hp]
        · intro i k hik
          exact setColumnP_other key k i pop vs h hik
    obtain ⟨h', he, h1, h2⟩ := hstep
    obtain ⟨i1, i2, i3⟩ := ih h' (fun e he => hfit e (List.mem_cons_of_mem _ he)) hnd.2
    rw [he]
    refine ⟨i1, ?_, ?_⟩
    · intro e hmem p hp hlast
      rcases List.mem_cons.1 hmem with rfl | hmem
      · rw [i3 _ _ (Or.inr hnd.1)]
        exact h1 p hp hlast
      · exact i2 e hmem p hp hlast
    · intro i k hik
      rw [i3 i k (by rcases hik with h | h
                     · exact Or.inl h
                     · exact Or.inr fun h' => h (List.mem_cons_of_mem _ h')), h2 i k]
      rcases hik with h | h
      · exact Or.inl h
      · exact Or.inr fun h' => h (h' ▸ List.mem_cons_self ..)

/-- C35. `set` with fitting values on a population: no exception; at every position that holds the last occurrence of its
individual the attribute is the value given for this position; attributes not named, and individuals outside the
population, are unchanged. -/
theorem C35_set (pop : List ℕ) (kwargs : List (κ × PVal V)) (h : ℕ → κ → Option V)
    (hfit : ∀ e ∈ kwargs, PVal.Fits pop.length e.2) (hnd : (kwargs.map Prod.fst).Nodup) :
    (popSet pop kwargs h).2 = true ∧
    (∀ e ∈ kwargs, ∀ p (hp : p < pop.length), (∀ q (hq : q < pop.length), p < q → pop[q] ≠ pop[p]) →
      (popSet pop kwargs h).1 pop[p] e.1 = PVal.at? e.2 p) ∧
    (∀ i k, (i ∉ pop ∨ k ∉ kwargs.map Prod.fst) → (popSet pop kwargs h).1 i k = h i k) := by
  unfold popSet
  by_cases h0 : pop.length = 0
  · rw [if_pos h0]
    exact ⟨rfl, fun e _ p hp => by omega, fun _ _ _ => rfl⟩
  · rw [if_neg h0]; exact setItems_spec pop kwargs h hfit hnd

example : (∀ e ∈ [("F", PVal.column [1, 2]), ("rank", PVal.scalar 7)], PVal.Fits [4, 5].length e.2) ∧
    popGet (popSet [4, 5] [("F", PVal.column [1, 2]), ("rank", PVal.scalar 7)] (fun _ _ => none)).1 [4, 5] "F" =
      [some 1, some 2] ∧
    popGet (popSet [4, 5] [("F", PVal.column [1, 2]), ("rank", PVal.scalar 7)] (fun _ _ => none)).1 [4, 5] "rank" =
      [some 7, some 7] := by
  refine ⟨?_, by decide, by decide⟩
  intro e he
  simp only [List.mem_cons, List.not_mem_nil, or_false] at he
  rcases he with rfl | rfl <;> simp [PVal.Fits]

/-- C35. For a population of distinct individuals, `get(key)` after `set(key, values)` returns exactly the values, in
order, and every other attribute of every individual is as before. -/
theorem C35_set_get (pop : List ℕ) (hpop : pop.Nodup) (key : κ) (vs : List V) (hl : vs.length = pop.length)
    (h : ℕ → κ → Option V) :
    (popSet pop [(key, .column vs)] h).2 = true ∧
    popGet (popSet pop [(key, .column vs)] h).1 pop key = vs.map some ∧
    (∀ ids k, k ≠ key → popGet (popSet pop [(key, .column vs)] h).1 ids k = popGet h ids k) := by
  obtain ⟨h1, h2, h3⟩ := C35_set pop [(key, PVal.column vs)] h (by simp [PVal.Fits, hl]) (by simp)
  refine ⟨h1, ?_, ?_⟩
  · apply List.ext_getElem
    · simp [popGet, hl]
    · intro p hp1 hp2
      have hp : p < pop.length := by simpa [popGet] using hp1
      have := h2 (key, .column vs) (by simp) p hp (fun q hq hpq he => by
        have := (hpop.getElem_inj_iff).1 he
        omega)
      simp only [popGet, List.getElem_map]
      rw [this]
      simp [PVal.at?, hl ▸ hp]
  · intro ids k hk
    unfold popGet
    exact List.map_congr_left fun i _ => h3 i k (Or.inr (by simpa using hk))

example : [4, 7, 5].Nodup ∧ popGet (popSet [4, 7, 5] [("X", .column [10, 20, 30])] (fun _ _ => none)).1 [4, 7, 5] "X" =
    [some 10, some 20, some 30] := by decide

/-- C35. A column of the wrong length on a non-empty population raises; attributes named before it in the call have been
written, this one and the later ones have not. -/
theorem C35_set_mismatch (pop : List ℕ) (hne : pop ≠ []) (pre post : List (κ × PVal V)) (key : κ) (vs : List V)
    (h : ℕ → κ → Option V) (hfit : ∀ e ∈ pre, PVal.Fits pop.length e.2) (hl : vs.length ≠ pop.length) :
    popSet pop (pre ++ (key, .column vs) :: post) h = ((popSet pop pre h).1, false) := by
  have h0 : ¬ pop.length = 0 := fun h => hne (List.length_eq_zero_iff.1 h)
  unfold popSet
  rw [if_neg h0, if_neg h0]
  induction pre generalizing h with
  | nil => simp [setItems, hl]
  | cons e pre ih =>
    obtain ⟨k, val⟩ := e
    cases val with
    | scalar v => exact ih _ fun e he => hfit e (List.mem_cons_of_mem _ he)
    | column ws =>
      have hw : ws.length = pop.length := hfit (k, .column ws) (List.mem_cons_self ..)
      simp only [List.cons_append, setItems, hw, ne_eq, not_true_eq_false, if_false]
      exact ih _ fun e he => hfit e (List.mem_cons_of_mem _ he)

example : (popSet [1, 2] [("F", .column [5, 6]), ("G", .column [1])] (fun _ _ => none)).2 = false ∧
    popGet (popSet [1, 2] [("F", .column [5, 6]), ("G", .column [1])] (fun _ _ => none)).1 [1, 2] "F" = [some 5, some 6] ∧
    popGet (popSet [1, 2] [("F", .column [5, 6]), ("G", .column [1])] (fun _ _ => none)).1 [1, 2] "G" = [none, none] := by
  decide

theorem lookup_dictSet (d : List (A × V)) (k : A) (v : V) (k' : A) :
    (dictSet d k v).lookup k' = if k' = k then some v else d.lookup k' := by
  unfold dictSet
  by_cases hk : k ∈ d.map Prod.fst
  · rw [if_pos hk]
    induction d with
    | nil => simp at hk
    | cons e d ih =>
      obtain ⟨a, b⟩ := e
      simp only [List.map_cons]
      by_cases ha : a = k
      · subst ha
        rw [if_pos rfl]
        by_cases hk' : k' = a
        · subst hk'; simp
        · have h1 : (k' == a) = false := by simpa using hk'
          rw [List.lookup_cons, h1, List.lookup_cons, h1, if_neg hk']
          simp only
          by_cases hm : a ∈ d.map Prod.fst
          · rw [ih hm, if_neg hk']
          · have : d.map (fun e => if e.1 = a then (a, v) else e) = d := by
              conv_rhs => rw [← List.map_id d]
              refine List.map_congr_left fun e he => ?_
              rw [if_neg]
              · rfl
              · rintro rfl
                exact hm (List.mem_map_of_mem he)
            rw [this]
      · rw [if_neg ha]
        have hm : k ∈ d.map Prod.fst := by
          rcases List.mem_cons.1 hk with h | h
          · exact absurd h.symm ha
          · exact h
        rw [List.lookup_cons, List.lookup_cons, ih hm]
        by_cases hk' : k' = a
        · subst hk'; simp [ha]
        · have hb : (k' == a) = false := by simpa using hk'
          simp only [hb]
  · rw [if_neg hk]
    by_cases hk' : k' = k
    · subst hk'
      rw [if_pos rfl, List.lookup_append]
      have : d.lookup k' = none := by
        rw [List.lookup_eq_none_iff]
        intro e he
        by_contra hc
        exact hk (by
          have : k' = e.1 := by simpa using hc
          rw [this]; exact List.mem_map_of_mem he)
      simp [this]
    · rw [if_neg hk', List.lookup_append]
      have hb : (k' == k) = false := by simpa using hk'
      simp [List.lookup_cons, hb]

/-- C35. Interleaved arguments `key1, value1, key2, value2, ...`: an odd number raises; otherwise the dictionary maps every
key to the last value given for it, and to its keyword value if it is not among the interleaved keys. -/
theorem C35_interleaving (kwargs : List (A × A)) :
    (∀ args : List A, args.length % 2 = 1 → interleavingArgs args kwargs = none) ∧
    (∀ pairs : List (A × A), ∃ d, interleavingArgs (pairs.flatMap fun p => [p.1, p.2]) kwargs = some d ∧
      ∀ k, d.lookup k = (pairs.reverse.lookup k).or (kwargs.lookup k)) := by
  constructor
  · intro args h; simp [interleavingArgs, h]
  · intro pairs
    refine ⟨interleavingLoop (pairs.flatMap fun p => [p.1, p.2]) kwargs, ?_, ?_⟩
    · have : (pairs.flatMap fun p => [p.1, p.2]).length % 2 = 0 := by
        rw [List.length_flatMap]
        simp
      simp [interleavingArgs, this]
    · induction pairs generalizing kwargs with
      | nil => intro k; simp [interleavingLoop]
      | cons p pairs ih =>
        intro k
        simp only [List.flatMap_cons, List.cons_append, List.nil_append, interleavingLoop]
        rw [ih, lookup_dictSet, List.reverse_cons, List.lookup_append]
        obtain ⟨p1, p2⟩ := p
        simp only
        cases h : pairs.reverse.lookup k with
        | some w => simp
        | none =>
          by_cases hk : k = p1
          · subst hk; simp
          · have hb : (k == p1) = false := by simpa using hk
            simp [hk, List.lookup_cons, hb]

example : interleavingArgs ["X", "1", "F", "2", "X", "3"] [("F", "0"), ("G", "4")] =
    some [("F", "2"), ("G", "4"), ("X", "3")] := by decide

/-- C35. `Population.new` with columns of one common length `size`: it creates `size` new, distinct individuals carrying
the given values in order; attributes not named have the default of a new individual; all existing individuals are
unchanged. -/
theorem C35_new (ind0 : κ → Option V) (kwargs : List (κ × List V)) (hne : kwargs ≠ [])
    (hnd : (kwargs.map Prod.fst).Nodup) (size : ℕ) (hsize : ∀ kv ∈ kwargs, kv.2.length = size) (s : PState κ V) :
    ∃ s' pop, popNew ind0 kwargs s = some (s', pop) ∧ pop.length = size ∧ pop.Nodup ∧
      (∀ i ∈ pop, s.next ≤ i ∧ i < s'.next) ∧ s.next ≤ s'.next ∧
      (∀ kv ∈ kwargs, popGet s'.heap pop kv.1 = kv.2.map some) ∧
      (∀ i ∈ pop, ∀ k, k ∉ kwargs.map Prod.fst → s'.heap i k = ind0 k) ∧
      (∀ i, i < s.next → s'.heap i = s.heap i) := by
  have hd : (kwargs.map fun kv => kv.2.length).dedup = [size] := by
    have : (kwargs.map fun kv => kv.2.length) = List.replicate kwargs.length size := by
      rw [List.eq_replicate_iff]
      refine ⟨by simp, ?_⟩
      intro b hb
      obtain ⟨kv, hkv, rfl⟩ := List.mem_map.1 hb
      exact hsize kv hkv
    rw [this]
    exact List.replicate_dedup (fun h => hne (List.length_eq_zero_iff.1 h))
  set e := popEmpty ind0 size s with he
  have hpop : e.2 = (List.range size).map (s.next + ·) := rfl
  have hlen : e.2.length = size := by rw [hpop]; simp
  have hnodup : e.2.Nodup := by
    rw [hpop]
    exact List.Nodup.map (fun a b h => by simpa using h) List.nodup_range
  obtain ⟨h1, h2, h3⟩ := C35_set e.2 (kwargs.map fun kv => (kv.1, PVal.column kv.2)) e.1.heap
    (by
      intro x hx
      obtain ⟨kv, hkv, rfl⟩ := List.mem_map.1 hx
      show kv.2.length = _
      rw [hlen]; exact hsize kv hkv)
    (by rw [List.map_map]; exact hnd)
  have hkeys : (kwargs.map fun kv => (kv.1, PVal.column kv.2)).map Prod.fst = kwargs.map Prod.fst := by
    rw [List.map_map]; rfl
  have hmem : ∀ i ∈ e.2, s.next ≤ i ∧ i < s.next + size := by
    intro i hi
    rw [hpop, List.mem_map] at hi
    obtain ⟨q, hq, rfl⟩ := hi
    have := List.mem_range.1 hq
    omega
  refine ⟨{ e.1 with heap := (popSet e.2 (kwargs.map fun kv => (kv.1, PVal.column kv.2)) e.1.heap).1 }, e.2, ?_, hlen,
    hnodup, ?_, ?_, ?_, ?_, ?_⟩
  · have h0 : kwargs.length > 0 := List.length_pos_iff.2 hne
    simp only [popNew, if_pos h0, hd, ← he, h1, if_true]
  · intro i hi
    exact hmem i hi
  · show s.next ≤ s.next + size
    omega
  · intro kv hkv
    apply List.ext_getElem
    · simp [popGet, hlen, hsize kv hkv]
    · intro p hp1 hp2
      have hp : p < e.2.length := by simpa [popGet] using hp1
      have := h2 (kv.1, .column kv.2) (List.mem_map.2 ⟨kv, hkv, rfl⟩) p hp (fun q hq hpq h => by
        have := (hnodup.getElem_inj_iff).1 h
        omega)
      simp only [popGet, List.getElem_map]
      rw [this]
      have hl := hsize kv hkv
      simp [PVal.at?, show p < kv.2.length by omega]
  · intro i hi k hk
    refine (h3 i k (Or.inr (by rw [hkeys]; exact hk))).trans ?_
    have := hmem i hi
    show (if s.next ≤ i ∧ i < s.next + size then ind0 else s.heap i) k = _
    rw [if_pos this]
  · intro i hi
    funext k
    refine (h3 i k (Or.inl fun h => by have := hmem i h; omega)).trans ?_
    show (if s.next ≤ i ∧ i < s.next + size then ind0 else s.heap i) k = _
    rw [if_neg (by omega)]

/-- C35. `Population.new` refuses columns of different lengths. -/
theorem C35_new_mismatch (ind0 : κ → Option V) (kwargs : List (κ × List V)) (a b : κ × List V) (ha : a ∈ kwargs)
    (hb : b ∈ kwargs) (h : a.2.length ≠ b.2.length) (s : PState κ V) : popNew ind0 kwargs s = none := by
  have h0 : kwargs.length > 0 := List.length_pos_of_mem ha
  have hma : a.2.length ∈ (kwargs.map fun kv => kv.2.length).dedup :=
    List.mem_dedup.2 (List.mem_map.2 ⟨a, ha, rfl⟩)
  have hmb : b.2.length ∈ (kwargs.map fun kv => kv.2.length).dedup :=
    List.mem_dedup.2 (List.mem_map.2 ⟨b, hb, rfl⟩)
  simp only [popNew, if_pos h0]
  split
  · rename_i size heq
    rw [heq, List.mem_singleton] at hma hmb
    exact absurd (hma.trans hmb.symm) h
  · rfl

example : (popNew (fun _ => none) [("X", [1, 2]), ("F", [3, 4])] ⟨fun _ _ => none, 5⟩).map Prod.snd = some [5, 6] ∧
    (popNew (fun _ => none) [("X", [1, 2]), ("F", [3])] ⟨fun _ _ => none, 5⟩).map Prod.snd = none := by decide

/-- The individuals an argument of `merge` stands for, if it stands for existing individuals. -/
def Has {V : Type*} : MArg V → List ℕ → Prop
  | .none, l => l = []
  | .pop ids, l => l = ids
  | .ind i, l => l = [i]
  | .array _, _ => False
  | .other, _ => False

theorem mergeTwo_has (ind0 : κ → Option V) (xkey : κ) (a b : MArg V) (la lb : List ℕ) (ha : Has a la) (hb : Has b lb)
    (hab : ¬ (a = .none ∧ b = .none)) (s : PState κ V) :
    ∃ s', mergeTwo ind0 xkey a b s = (s', .pop (la ++ lb)) ∧ s'.heap = s.heap := by
  have key : ∀ la lb : List ℕ, (if la.length = 0 then MRes.pop lb else if lb.length = 0 then .pop la else .pop (la ++ lb)) =
      .pop (la ++ lb) := by
    intro la lb
    split_ifs with h1 h2
    · rw [List.length_eq_zero_iff.1 h1]; rfl
    · rw [List.length_eq_zero_iff.1 h2, List.append_nil]
    · rfl
  cases a <;> cases b <;> simp only [Has] at ha hb <;> subst_vars <;>
    first
    | exact absurd ⟨rfl, rfl⟩ hab
    | exact ⟨_, Prod.ext rfl rfl, rfl⟩
    | exact ⟨_, Prod.ext rfl (by rw [List.append_nil]; rfl), rfl⟩
    | exact ⟨_, Prod.ext rfl (key _ _), rfl⟩
    | exact ⟨_, Prod.ext rfl (key [_] _), rfl⟩

/-- C35. `Population.merge(a, b, ...)` of populations, single individuals and `None` (not both of the first two `None`):
exactly the individuals of the arguments, in order, as the same objects with unchanged attributes. -/
theorem C35_merge (ind0 : κ → Option V) (xkey : κ) (a b : MArg V) (la lb : List ℕ) (ha : Has a la) (hb : Has b lb)
    (hab : ¬ (a = .none ∧ b = .none)) (others : List (MArg V)) (ls : List (List ℕ))
    (ho : List.Forall₂ Has others ls) (s : PState κ V) :
    ∃ s', popMerge ind0 xkey a b others s = (s', .pop (la ++ lb ++ ls.flatten)) ∧ s'.heap = s.heap := by
  obtain ⟨s', h1, h2⟩ := mergeTwo_has ind0 xkey a b la lb ha hb hab s
  unfold popMerge
  rw [h1, ← h2]
  clear h1 h2 hab
  generalize la ++ lb = l0
  clear ha hb
  induction ho generalizing l0 s' with
  | nil => exact ⟨s', by simp [mergeRest], rfl⟩
  | cons h _ ih =>
    rename_i o l os ls' _
    obtain ⟨s'', h3, h4⟩ := mergeTwo_has ind0 xkey (.pop l0) o l0 l rfl h (by simp) s'
    obtain ⟨s3, h5, h6⟩ := ih s'' (l0 ++ l)
    refine ⟨s3, ?_, h6.trans h4⟩
    simp only [mergeRest, MRes.toArg, h3, h5, List.flatten_cons, List.append_assoc]

/-- C35. Merging `None` with `None` fails the assertion, whatever else is passed; something that is neither a population,
an array nor an individual cannot be merged with a population. -/
theorem C35_merge_raises (ind0 : κ → Option V) (xkey : κ) (others : List (MArg V)) (ids : List ℕ) (s : PState κ V) :
    (popMerge ind0 xkey .none .none others s).2 = .raises ∧
    (mergeTwo ind0 xkey (.pop ids) .other s).2 = .raises := by
  refine ⟨?_, rfl⟩
  cases others <;> rfl

/-- C35. Merging a population with an array: the individuals of the population, followed by new ones for the rows. -/
theorem C35_merge_array (ind0 : κ → Option V) (xkey : κ) (ids : List ℕ) (rows : List V) (s : PState κ V)
    (hids : ∀ i ∈ ids, i < s.next) :
    ∃ s' new, mergeTwo ind0 xkey (.pop ids) (.array rows) s = (s', .pop (ids ++ new)) ∧
      popGet s'.heap new xkey = rows.map some ∧ new.Nodup ∧ (∀ i ∈ new, i ∉ ids) ∧
      (∀ i, i < s.next → s'.heap i = s.heap i) := by
  obtain ⟨s', pop, h1, h2, h3, h4, -, h5, -, h6⟩ := C35_new ind0 [(xkey, rows)] (by simp) (by simp) rows.length (by simp) s
  refine ⟨s', pop, ?_, h5 (xkey, rows) (by simp), h3, fun i hi hi' => ?_, h6⟩
  · simp only [mergeTwo, popFrom, h1, Prod.mk.injEq, true_and]
    split_ifs with h1 h2
    · rw [List.length_eq_zero_iff.1 h1]; rfl
    · rw [List.length_eq_zero_iff.1 h2, List.append_nil]
    · rfl
  · have := hids i hi'
    have := (h4 i hi).1
    omega

example : (popMerge (V := ℕ) (fun _ : String => none) "X" (.pop [3, 1]) .none [.ind 7, .pop [], .pop [2]]
      ⟨fun _ _ => none, 8⟩).2 = .pop [3, 1, 7, 2] ∧
    (mergeTwo (fun _ => none) "X" (.pop [3, 1]) (.array [40, 50]) ⟨fun _ _ => none, 8⟩).2 = .pop [3, 1, 8, 9] := by
  decide

end Props
