import Verif.Model.Parameters
import Mathlib.Tactic.Ring
import Mathlib.Data.List.Nodup
import Mathlib.Data.List.Induction

/-!
# C36: parameter dictionaries round-trip between nested and flat form
-/

set_option linter.unusedSimpArgs false
set_option linter.unusedSectionVars false
set_option linter.unusedVariables false

namespace Props

open Model

/-! ### Specification -/

/-- What a user finds when following a path of names through a nested dictionary. -/
inductive Found (α : Type)
  | param (v : α)
  | group
  | nothing

/-- `d[k1][k2]...`. Two nested dictionaries are equal (as Python dictionaries) iff they look the same along every path. -/
def look {α : Type} : PTree α → List PKey → Found α
  | .leaf v, [] => .param v
  | .node _, [] => .group
  | .leaf _, _ :: _ => .nothing
  | .node items, k :: path =>
    match dGet items k with
    | some t => look t path
    | none => .nothing

/-- A name without the separator. -/
def Plain (k : PKey) : Prop := '.' ∉ k

/-- A dictionary has no repeated keys, at every level; all names are free of the separator. -/
inductive WellNamed {α : Type} : PTree α → Prop
  | leaf (v : α) : WellNamed (.leaf v)
  | node (items : List (PKey × PTree α)) : (items.map Prod.fst).Nodup → (∀ e ∈ items, Plain e.1) →
      (∀ e ∈ items, WellNamed e.2) → WellNamed (.node items)

/-- Strict prefix of a path. -/
def Inside (path q : List PKey) : Prop := path <+: q ∧ path ≠ q

/-- Every group (other than the whole dictionary) contains a parameter. -/
def GroupsUsed {α : Type} (t : PTree α) : Prop :=
  ∀ path, look t path = .group → path = [] ∨ ∃ q v, Inside path q ∧ look t q = .param v

/-! ### Strings -/

theorem splitDots_ne (k : PKey) : splitDots k ≠ [] := by
  cases k with
  | nil => simp [splitDots]
  | cons c s =>
    simp only [splitDots]
    split
    · simp
    · cases splitDots s <;> simp [consFirst]

theorem splitDots_plain (k : PKey) : ∀ a ∈ splitDots k, Plain a := by
  induction k with
  | nil => simp [splitDots, Plain]
  | cons c s ih =>
    simp only [splitDots]
    split
    · intro a ha
      rcases List.mem_cons.1 ha with rfl | h
      · simp [Plain]
      · exact ih a h
    · rename_i hc
      cases hs : splitDots s with
      | nil => simp [consFirst, Plain, Ne.symm hc]
      | cons h t =>
        rw [hs] at ih
        intro a ha
        simp only [consFirst, List.mem_cons] at ha
        rcases ha with rfl | h'
        · have := ih h (by simp)
          simp only [Plain, List.mem_cons, not_or] at this ⊢
          exact ⟨fun h => hc h.symm, this⟩
        · exact ih a (by simp [h'])

theorem splitDots_of_plain (a : PKey) (h : Plain a) : splitDots a = [a] := by
  induction a with
  | nil => rfl
  | cons c s ih =>
    simp only [Plain, List.mem_cons, not_or] at h
    simp [splitDots, Ne.symm h.1, ih h.2, consFirst]

theorem splitDots_append (a s : PKey) (h : Plain a) : splitDots (a ++ '.' :: s) = a :: splitDots s := by
  induction a with
  | nil => simp [splitDots]
  | cons c r ih =>
    simp only [Plain, List.mem_cons, not_or] at h
    simp [splitDots, Ne.symm h.1, ih h.2, consFirst]

theorem split_join (l : List PKey) (hne : l ≠ []) (h : ∀ a ∈ l, Plain a) : splitDots (joinDots l) = l := by
  induction l with
  | nil => exact absurd rfl hne
  | cons a l ih =>
    cases l with
    | nil => exact splitDots_of_plain a (h a (by simp))
    | cons b l =>
      simp only [joinDots]
      rw [splitDots_append _ _ (h a (by simp)), ih (by simp) (fun x hx => h x (List.mem_cons_of_mem _ hx))]

theorem join_consFirst (c : Char) (l : List PKey) (hne : l ≠ []) : joinDots (consFirst c l) = c :: joinDots l := by
  match l with
  | [] => exact absurd rfl hne
  | [a] => rfl
  | a :: b :: l => rfl

theorem join_split (k : PKey) : joinDots (splitDots k) = k := by
  induction k with
  | nil => rfl
  | cons c s ih =>
    simp only [splitDots]
    split
    · rename_i hc
      have hne := splitDots_ne s
      cases hs : splitDots s with
      | nil => exact absurd hs hne
      | cons b l => rw [hs] at ih; simp [joinDots, ih, hc]
    · rw [join_consFirst _ _ (splitDots_ne s), ih]

/-- Paths that can be written with dots. -/
def Writable (p : List PKey) : Prop := p ≠ [] ∧ ∀ a ∈ p, Plain a

theorem join_inj {p q : List PKey} (hp : Writable p) (hq : Writable q) (h : joinDots p = joinDots q) : p = q := by
  rw [← split_join p hp.1 hp.2, ← split_join q hq.1 hq.2, h]

/-! ### Dictionaries -/

section Dict
variable {β : Type*}

theorem dGet_dSet (d : List (PKey × β)) (k k' : PKey) (v : β) :
    dGet (dSet d k v) k' = if k = k' then some v else dGet d k' := by
  induction d with
  | nil => simp [dSet, dGet]
  | cons e d ih =>
    obtain ⟨a, w⟩ := e
    simp only [dSet]
    by_cases hak : a = k
    · subst hak
      simp only [if_true, dGet]
      split <;> rfl
    · simp only [if_neg hak, dGet]
      by_cases hak' : a = k'
      · subst hak'; simp [Ne.symm hak]
      · simp only [if_neg hak', ih]

theorem dSet_new (d : List (PKey × β)) (k : PKey) (v : β) (h : k ∉ d.map Prod.fst) : dSet d k v = d ++ [(k, v)] := by
  induction d with
  | nil => rfl
  | cons e d ih =>
    obtain ⟨a, w⟩ := e
    simp only [List.map_cons, List.mem_cons, not_or] at h
    simp [dSet, Ne.symm h.1, ih h.2]

theorem dGet_eq_some {d : List (PKey × β)} {k : PKey} {v : β} (h : dGet d k = some v) : (k, v) ∈ d := by
  induction d with
  | nil => simp [dGet] at h
  | cons e d ih =>
    obtain ⟨a, w⟩ := e
    simp only [dGet] at h
    split at h
    · rename_i hak; subst hak; simp at h; simp [h]
    · simp [ih h]

theorem dGet_of_mem {d : List (PKey × β)} {k : PKey} {v : β} (hn : (d.map Prod.fst).Nodup) (h : (k, v) ∈ d) :
    dGet d k = some v := by
  induction d with
  | nil => simp at h
  | cons e d ih =>
    obtain ⟨a, w⟩ := e
    simp only [List.map_cons, List.nodup_cons] at hn
    rcases List.mem_cons.1 h with h | h
    · simp only [Prod.mk.injEq] at h; simp [dGet, h.1, h.2]
    · have : a ≠ k := fun hak => hn.1 (hak ▸ List.mem_map_of_mem (f := Prod.fst) h)
      simp [dGet, this, ih hn.2 h]

theorem dGet_eq_none {d : List (PKey × β)} {k : PKey} : dGet d k = none ↔ k ∉ d.map Prod.fst := by
  induction d with
  | nil => simp [dGet]
  | cons e d ih =>
    obtain ⟨a, w⟩ := e
    simp only [dGet, List.map_cons, List.mem_cons, not_or]
    by_cases h : a = k
    · simp [h]
    · simp [h, ih, Ne.symm h]

theorem dSet_nodup {d : List (PKey × β)} {k : PKey} {v : β} (h : (d.map Prod.fst).Nodup) : ((dSet d k v).map Prod.fst).Nodup := by
  have keys : ∀ d : List (PKey × β), (dSet d k v).map Prod.fst = if k ∈ d.map Prod.fst then d.map Prod.fst else d.map Prod.fst ++ [k] := by
    intro d
    induction d with
    | nil => simp [dSet]
    | cons e d ih =>
      obtain ⟨a, w⟩ := e
      simp only [dSet]
      by_cases hak : a = k
      · simp [hak]
      · simp only [if_neg hak, List.map_cons, ih, List.mem_cons, Ne.symm hak, false_or]
        split <;> simp
  rw [keys]
  split
  · exact h
  · rename_i hk
    exact List.nodup_append.2 ⟨h, by simp, by
      intro a ha b hb hab
      rw [List.mem_singleton] at hb
      exact hk (hb ▸ hab ▸ ha)⟩

theorem foldl_dSet_nodup {γ : Type*} (l : List γ) (f : γ → PKey) (g : γ → β) : ∀ (d : List (PKey × β)), (d.map Prod.fst).Nodup →
    ((l.foldl (fun d e => dSet d (f e) (g e)) d).map Prod.fst).Nodup := by
  induction l with
  | nil => simp
  | cons e l ih => intro d hd; exact ih _ (dSet_nodup hd)

theorem foldl_dSet_fresh (l : List (PKey × β)) : ∀ (d : List (PKey × β)), ((d ++ l).map Prod.fst).Nodup →
    l.foldl (fun d e => dSet d e.1 e.2) d = d ++ l := by
  induction l with
  | nil => simp
  | cons e l ih =>
    intro d hd
    have hnew : e.1 ∉ d.map Prod.fst := by
      simp only [List.map_append, List.map_cons] at hd
      have := List.nodup_append.1 hd
      intro h
      exact this.2.2 _ h _ (by simp) rfl
    rw [List.foldl_cons, dSet_new _ _ _ hnew, ih]
    · simp
    · simpa using hd

theorem dGet_foldl_dSet {γ : Type*} (l : List γ) (f : γ → PKey) (g : γ → β) (hn : (l.map f).Nodup) : ∀ (d : List (PKey × β)) (k : PKey),
    (∀ e ∈ l, f e = k → dGet (l.foldl (fun d e => dSet d (f e) (g e)) d) k = some (g e)) ∧
    (k ∉ l.map f → dGet (l.foldl (fun d e => dSet d (f e) (g e)) d) k = dGet d k) := by
  induction l with
  | nil => simp
  | cons e l ih =>
    intro d k
    simp only [List.map_cons, List.nodup_cons] at hn
    obtain ⟨h1, h2⟩ := ih hn.2 (dSet d (f e) (g e)) k
    refine ⟨?_, ?_⟩
    · intro e' he' hk
      rcases List.mem_cons.1 he' with rfl | h
      · rw [List.foldl_cons, h2 (hk ▸ hn.1), dGet_dSet, if_pos hk]
      · exact h1 e' h hk
    · intro hk
      simp only [List.map_cons, List.mem_cons, not_or] at hk
      rw [List.foldl_cons, h2 hk.2, dGet_dSet, if_neg (Ne.symm hk.1)]

end Dict

/-! ### Flat dictionaries as lists of paths -/

section Paths
variable {α : Type}

/-- The entries with the dotted path as key. -/
def dotted (D : List (List PKey × α)) : List (PKey × α) := D.map fun e => (joinDots e.1, e.2)

/-- A usable flat dictionary: names without separator, no repeated path, no path extends another one. -/
structure FlatOk (D : List (List PKey × α)) : Prop where
  writable : ∀ e ∈ D, Writable e.1
  nodup : (D.map Prod.fst).Nodup
  prefixFree : ∀ e ∈ D, ∀ e' ∈ D, e.1 <+: e'.1 → e.1 = e'.1

/-- The entries underName the name `a`. -/
def underName (a : PKey) : List PKey × α → Option (List PKey × α)
  | (a' :: b :: r, v) => if a' = a then some (b :: r, v) else none
  | _ => none

theorem underName_eq_some {a : PKey} {e e' : List PKey × α} : underName a e = some e' ↔ e = (a :: e'.1, e'.2) ∧ e'.1 ≠ [] := by
  obtain ⟨p, v⟩ := e
  obtain ⟨q, w⟩ := e'
  match p with
  | [] => simp [underName]
  | [x] =>
    simp only [underName, Prod.mk.injEq, List.cons.injEq]
    constructor
    · intro h; cases h
    · rintro ⟨⟨⟨-, h⟩, -⟩, h'⟩; exact absurd h.symm h'
  | x :: b :: r =>
    simp only [underName]
    split
    · rename_i h
      subst h
      simp only [Option.some.injEq, Prod.mk.injEq, List.cons.injEq, true_and]
      constructor
      · rintro ⟨rfl, rfl⟩; simp
      · rintro ⟨⟨rfl, rfl⟩, -⟩; simp
    · rename_i h
      simp only [Prod.mk.injEq, List.cons.injEq, false_iff]
      constructor
      · intro h'; cases h'
      · rintro ⟨⟨⟨h', -⟩, -⟩, -⟩; exact absurd h' h

def subEntries (a : PKey) (D : List (List PKey × α)) : List (List PKey × α) := D.filterMap (underName a)

theorem mem_subEntries {a : PKey} {D : List (List PKey × α)} {e : List PKey × α} : e ∈ subEntries a D ↔ (a :: e.1, e.2) ∈ D ∧ e.1 ≠ [] := by
  simp only [subEntries, List.mem_filterMap, underName_eq_some]
  constructor
  · rintro ⟨x, hx, rfl, h⟩; exact ⟨hx, h⟩
  · rintro ⟨h, hn⟩; exact ⟨_, h, rfl, hn⟩

theorem FlatOk.subEntries {D : List (List PKey × α)} (h : FlatOk D) (a : PKey) : FlatOk (subEntries a D) := by
  refine ⟨?_, ?_, ?_⟩
  · intro e he
    obtain ⟨h1, h2⟩ := mem_subEntries.1 he
    exact ⟨h2, fun x hx => (h.writable _ h1).2 x (by simp [hx])⟩
  · have hD := h.nodup
    clear h
    induction D with
    | nil => simp [Props.subEntries]
    | cons e D ih =>
      simp only [List.map_cons, List.nodup_cons] at hD
      simp only [Props.subEntries, List.filterMap_cons]
      cases hb : underName a e with
      | none => exact ih hD.2
      | some e' =>
        simp only [List.map_cons, List.nodup_cons]
        refine ⟨?_, ih hD.2⟩
        intro hm
        obtain ⟨x, hx, hxe⟩ := List.mem_map.1 hm
        obtain ⟨h1, h2⟩ := mem_subEntries.1 hx
        obtain ⟨h3, h4⟩ := underName_eq_some.1 hb
        apply hD.1
        rw [h3]
        exact List.mem_map.2 ⟨_, h1, by simp [hxe]⟩
  · intro e he e' he' hp
    have := h.prefixFree _ (mem_subEntries.1 he).1 _ (mem_subEntries.1 he').1 (by simpa using hp)
    simpa using this

theorem dotted_nodup {D : List (List PKey × α)} (h : FlatOk D) : ((dotted D).map Prod.fst).Nodup := by
  simp only [dotted, List.map_map]
  have : ((D.map Prod.fst).map joinDots).Nodup := by
    apply List.Nodup.map_on _ h.nodup
    intro p hp q hq hpq
    obtain ⟨e, he, rfl⟩ := List.mem_map.1 hp
    obtain ⟨e', he', rfl⟩ := List.mem_map.1 hq
    exact join_inj (h.writable e he) (h.writable e' he') hpq
  simpa [List.map_map, Function.comp_def] using this

theorem FlatOk.prefix {D E : List (List PKey × α)} (h : FlatOk (D ++ E)) : FlatOk D :=
  ⟨fun e he => h.writable e (by simp [he]), by have := h.nodup; simp only [List.map_append] at this; exact (List.nodup_append.1 this).1,
    fun e he e' he' => h.prefixFree e (by simp [he]) e' (by simp [he'])⟩

/-- The dictionary `groups` after the loop. -/
theorem groups_spec (D : List (List PKey × α)) (h : FlatOk D) :
    (((dotted D).foldl addGroup []).map Prod.fst).Nodup ∧
    ∀ a, dGet ((dotted D).foldl addGroup []) a = if subEntries a D = [] then none else some (dotted (subEntries a D)) := by
  induction D using List.reverseRecOn with
  | nil => simp [dotted, subEntries, dGet]
  | append_singleton D e ih =>
    obtain ⟨ih1, ih2⟩ := ih h.prefix
    have he := h.writable e (by simp)
    obtain ⟨p, v⟩ := e
    have hstep : (dotted (D ++ [(p, v)])).foldl addGroup [] = addGroup ((dotted D).foldl addGroup []) (joinDots p, v) := by
      simp [dotted, List.foldl_append]
    rw [hstep]
    have hsplit : splitDots (joinDots p) = p := split_join p he.1 he.2
    match p, he, hsplit with
    | [x], he, hsplit =>
      have : addGroup ((dotted D).foldl addGroup []) (joinDots [x], v) = (dotted D).foldl addGroup [] := by
        simp only [addGroup, hsplit]
      rw [this]
      refine ⟨ih1, fun a => ?_⟩
      have hsub : subEntries a (D ++ [([x], v)]) = subEntries a D := by simp [subEntries, List.filterMap_cons, List.filterMap_append, underName]
      rw [ih2 a, hsub]
    | x :: b :: r, he, hsplit =>
      have : addGroup ((dotted D).foldl addGroup []) (joinDots (x :: b :: r), v) =
          dSet ((dotted D).foldl addGroup []) x (dSet ((dGet ((dotted D).foldl addGroup []) x).getD []) (joinDots (b :: r)) v) := by
        simp only [addGroup, hsplit]
      rw [this]
      refine ⟨dSet_nodup ih1, fun a => ?_⟩
      rw [dGet_dSet, ih2 x, ih2 a]
      have hsub : subEntries a (D ++ [(x :: b :: r, v)]) = subEntries a D ++ if x = a then [(b :: r, v)] else [] := by
        by_cases hx : x = a <;> simp [subEntries, List.filterMap_append, List.filterMap_cons, underName, hx]
      rw [hsub]
      by_cases hxa : x = a
      · subst hxa
        have hold : ((if subEntries x D = [] then none else some (dotted (subEntries x D))).getD []) = dotted (subEntries x D) := by
          split
          · rename_i h0; simp [h0, dotted]
          · rfl
        rw [hold]
        have hfresh : joinDots (b :: r) ∉ (dotted (subEntries x D)).map Prod.fst := by
          intro hm
          have hn := dotted_nodup (h.subEntries x)
          rw [hsub] at hn
          simp only [if_true, dotted, List.map_append, List.map_cons, List.map_nil] at hn
          simp only [dotted] at hm
          exact (List.nodup_append.1 hn).2.2 _ hm _ (by simp) rfl
        rw [dSet_new _ _ _ hfresh]
        simp [dotted]
      · simp [hxa]

theorem leaves_spec (D : List (List PKey × α)) (h : FlatOk D) (a : PKey) :
    (∀ v, ([a], v) ∈ D → dGet ((dotted D).foldl addLeaf []) a = some (.leaf v)) ∧
    ((∀ v, ([a], v) ∉ D) → dGet ((dotted D).foldl addLeaf []) a = none) := by
  induction D using List.reverseRecOn with
  | nil => simp [dotted, dGet]
  | append_singleton D e ih =>
    obtain ⟨ih1, ih2⟩ := ih h.prefix
    have he := h.writable e (by simp)
    obtain ⟨p, v⟩ := e
    have hstep : (dotted (D ++ [(p, v)])).foldl addLeaf [] = addLeaf ((dotted D).foldl addLeaf []) (joinDots p, v) := by
      simp [dotted, List.foldl_append]
    rw [hstep]
    have hsplit : splitDots (joinDots p) = p := split_join p he.1 he.2
    match p, he, hsplit with
    | [x], he, hsplit =>
      have : addLeaf ((dotted D).foldl addLeaf []) (joinDots [x], v) = dSet ((dotted D).foldl addLeaf []) x (.leaf v) := by
        simp only [addLeaf, hsplit]; rfl
      rw [this, dGet_dSet]
      by_cases hxa : x = a
      · subst hxa
        refine ⟨?_, fun hno => absurd (by simp) (hno v)⟩
        intro w hw
        simp only [if_true]
        simp only [List.mem_append, List.mem_singleton, Prod.mk.injEq, true_and] at hw
        rcases hw with hw | rfl
        · have hn := h.nodup
          simp only [List.map_append, List.map_cons, List.map_nil] at hn
          exact absurd rfl ((List.nodup_append.1 hn).2.2 [x] (List.mem_map.2 ⟨_, hw, rfl⟩) [x] (by simp))
        · rfl
      · simp only [if_neg hxa]
        refine ⟨fun w hw => ih1 w ?_, fun hno => ih2 fun w hw => hno w (by simp [hw])⟩
        simp only [List.mem_append, List.mem_singleton, Prod.mk.injEq, List.cons.injEq] at hw
        rcases hw with hw | ⟨⟨rfl, -⟩, -⟩
        · exact hw
        · exact absurd rfl hxa
    | x :: b :: r, he, hsplit =>
      have : addLeaf ((dotted D).foldl addLeaf []) (joinDots (x :: b :: r), v) = (dotted D).foldl addLeaf [] := by
        simp only [addLeaf, hsplit]
      rw [this]
      refine ⟨fun w hw => ih1 w (by simpa using hw), fun hno => ih2 fun w hw => hno w (by simp [hw])⟩

theorem hier_spec : ∀ (fuel : ℕ) (D : List (List PKey × α)),
    FlatOk D → (∀ e ∈ D, e.1.length ≤ fuel) → ∀ path,
    (∀ v, look (.node (hierarchicalDict fuel (dotted D))) path = .param v ↔ (path, v) ∈ D) ∧
    (look (.node (hierarchicalDict fuel (dotted D))) path = .group ↔ path = [] ∨ ∃ e ∈ D, Inside path e.1) := by
  intro fuel
  induction fuel with
  | zero =>
    intro D hD hl path
    have hnil : D = [] := by
      cases D with
      | nil => rfl
      | cons e D => exact absurd (List.length_eq_zero_iff.1 (Nat.le_zero.1 (hl e (by simp)))) (hD.writable e (by simp)).1
    subst hnil
    cases path <;> simp [hierarchicalDict, look, dGet]
  | succ fuel ih =>
    intro D hD hl path
    cases path with
    | nil =>
      constructor
      · intro v
        simp only [look]
        constructor
        · intro h; cases h
        · intro h; exact absurd rfl (hD.writable _ h).1
      · simp [look]
    | cons a path =>
      obtain ⟨g1, g2⟩ := groups_spec D hD
      obtain ⟨l1, l2⟩ := leaves_spec D hD a
      obtain ⟨r1, r2⟩ := dGet_foldl_dSet ((dotted D).foldl addGroup []) Prod.fst
        (fun g => PTree.node (hierarchicalDict fuel g.2)) g1 ((dotted D).foldl addLeaf []) a
      simp only [look, hierarchicalDict]
      by_cases hs : subEntries a D = []
      · -- no group with this name
        have hg := g2 a
        rw [if_pos hs] at hg
        rw [r2 (dGet_eq_none.1 hg)]
        have hno : ∀ e ∈ D, ∀ r, e.1 = a :: r → r = [] := by
          intro e he r hr
          by_contra hne
          have : (r, e.2) ∈ subEntries a D := mem_subEntries.2 ⟨by rw [← hr]; exact he, hne⟩
          simp [hs] at this
        by_cases hv : ∃ v, ([a], v) ∈ D
        · obtain ⟨v, hv⟩ := hv
          rw [l1 v hv]
          cases path with
          | nil =>
            simp only [look, Found.param.injEq]
            constructor
            · intro w
              constructor
              · rintro rfl; exact hv
              · intro hw
                have h1 := dGet_of_mem (dotted_nodup hD) (k := joinDots [a]) (v := v) (List.mem_map.2 ⟨_, hv, rfl⟩)
                have h2 := dGet_of_mem (dotted_nodup hD) (k := joinDots [a]) (v := w) (List.mem_map.2 ⟨_, hw, rfl⟩)
                rw [h1] at h2; simpa using h2
            · constructor
              · intro h; cases h
              · rintro (h | ⟨e, he, hpre, hne⟩)
                · simp at h
                · exact absurd (hD.prefixFree _ hv _ he hpre) hne
          | cons b path =>
            simp only [look]
            constructor
            · intro w
              constructor
              · intro h; cases h
              · intro hw; exact absurd (hno _ hw _ rfl) (by simp)
            · constructor
              · intro h; cases h
              · rintro (h | ⟨e, he, ⟨s, hs'⟩, hne⟩)
                · simp at h
                · exact absurd (hno e he _ hs'.symm) (by simp)
        · push Not at hv
          rw [l2 hv]
          simp only
          constructor
          · intro w
            constructor
            · intro h; cases h
            · intro hw
              have := hno _ hw _ rfl
              subst this
              exact absurd hw (hv w)
          · constructor
            · intro h; cases h
            · rintro (h | ⟨e, he, ⟨s, hs'⟩, hne⟩)
              · simp at h
              · have := hno e he (path ++ s) (by rw [← hs']; simp)
                obtain ⟨rfl, rfl⟩ := List.append_eq_nil_iff.1 this
                exact absurd (by simpa using hs') hne
      · have hg := g2 a
        rw [if_neg hs] at hg
        rw [r1 _ (dGet_eq_some hg) rfl]
        have hlen : ∀ e ∈ subEntries a D, e.1.length ≤ fuel := by
          intro e he
          have := hl _ (mem_subEntries.1 he).1
          simpa using this
        obtain ⟨i1, i2⟩ := ih (subEntries a D) (hD.subEntries a) hlen path
        refine ⟨?_, ?_⟩
        · intro v
          simp only
          rw [i1 v, mem_subEntries]
          constructor
          · exact fun h => h.1
          · intro h
            refine ⟨h, ?_⟩
            rintro rfl
            obtain ⟨e, he⟩ := List.exists_mem_of_ne_nil _ hs
            have := hD.prefixFree _ h _ (mem_subEntries.1 he).1 (by simp)
            simp only [List.cons.injEq, true_and] at this
            exact (mem_subEntries.1 he).2 this.symm
        · simp only
          rw [i2]
          constructor
          · rintro (rfl | ⟨e, he, hpre, hne⟩)
            · obtain ⟨e, he⟩ := List.exists_mem_of_ne_nil _ hs
              exact .inr ⟨_, (mem_subEntries.1 he).1, by simp, fun h => (mem_subEntries.1 he).2 (by simpa using h.symm)⟩
            · exact .inr ⟨_, (mem_subEntries.1 he).1, by simpa using hpre, by simpa using hne⟩
          · rintro (h | ⟨e, he, ⟨s, hs'⟩, hne⟩)
            · simp at h
            · by_cases hp : path = []
              · exact .inl hp
              · refine .inr ⟨(path ++ s, e.2), mem_subEntries.2 ⟨?_, by simp [hp]⟩, by simp, ?_⟩
                · have h : (a :: path ++ s, e.2) = e := Prod.ext hs' rfl
                  have h2 : (a :: path ++ s, e.2) ∈ D := h ▸ he
                  exact h2
                · intro h
                  simp only [List.self_eq_append_right] at h
                  subst h
                  exact hne (by simpa using hs')

end Paths

/-! ### The leaves of a tree -/

section Tree
variable {α : Type}

mutual
/-- All parameters with their paths. -/
def entriesT : PTree α → List (List PKey × α)
  | .leaf v => [([], v)]
  | .node items => entriesI items
def entriesI : List (PKey × PTree α) → List (List PKey × α)
  | [] => []
  | (k, t) :: rest => ((entriesT t).map fun e => (k :: e.1, e.2)) ++ entriesI rest
end

theorem join_snoc (P : List PKey) (k : PKey) (h : P ≠ []) : joinDots (P ++ [k]) = joinDots P ++ '.' :: k := by
  induction P with
  | nil => exact absurd rfl h
  | cons a P ih =>
    cases P with
    | nil => rfl
    | cons b P =>
      have := ih (by simp)
      simp only [List.cons_append] at this
      simp [joinDots, this]

theorem join_append (P : List PKey) (b : PKey) (s : List PKey) (h : P ≠ []) :
    joinDots (P ++ b :: s) = joinDots P ++ '.' :: joinDots (b :: s) := by
  induction P with
  | nil => exact absurd rfl h
  | cons a P ih =>
    cases P with
    | nil => rfl
    | cons c P =>
      have := ih (by simp)
      simp only [List.cons_append] at this
      simp [joinDots, this]

mutual
theorem flattenRec_eq (P : List PKey) (hP : P ≠ []) : ∀ t : PTree α,
    flattenRec (joinDots P) t = (entriesT t).map fun e => (joinDots (P ++ e.1), e.2)
  | .leaf v => by simp [flattenRec, entriesT]
  | .node items => by
    simp only [flattenRec, entriesT]
    exact flattenItems_eq P hP items
theorem flattenItems_eq (P : List PKey) (hP : P ≠ []) : ∀ items : List (PKey × PTree α),
    flattenItems (some (joinDots P)) items = (entriesI items).map fun e => (joinDots (P ++ e.1), e.2)
  | [] => by simp [flattenItems, entriesI]
  | (k, t) :: rest => by
    simp only [flattenItems, newPrefix, ← join_snoc P k hP, entriesI, List.map_append, List.map_map, Function.comp_def,
      flattenRec_eq (P ++ [k]) (by simp) t, flattenItems_eq P hP rest, List.append_assoc, List.singleton_append]
end

theorem flattenItems_none : ∀ items : List (PKey × PTree α), flattenItems none items = dotted (entriesI items)
  | [] => by simp [flattenItems, entriesI, dotted]
  | (k, t) :: rest => by
    have := flattenRec_eq [k] (by simp) t
    simp only [joinDots, List.singleton_append] at this
    simp only [flattenItems, newPrefix, this, flattenItems_none rest, dotted, entriesI, List.map_append, List.map_map,
      Function.comp_def]

theorem wellNamed_node {items : List (PKey × PTree α)} (h : WellNamed (.node items)) :
    (items.map Prod.fst).Nodup ∧ (∀ e ∈ items, Plain e.1) ∧ ∀ e ∈ items, WellNamed e.2 := by
  cases h with
  | node _ h1 h2 h3 => exact ⟨h1, h2, h3⟩

mutual
theorem entriesT_spec : ∀ (t : PTree α), WellNamed t → ∀ path v, (path, v) ∈ entriesT t ↔ look t path = .param v
  | .leaf w, _, path, v => by
    cases path with
    | nil => simp only [entriesT, List.mem_singleton, Prod.mk.injEq, true_and, look, Found.param.injEq]; exact eq_comm
    | cons k path => simp [entriesT, look]
  | .node items, h, path, v => by
    obtain ⟨h1, h2, h3⟩ := wellNamed_node h
    cases path with
    | nil =>
      simp only [entriesT, look]
      constructor
      · intro hm; exact absurd rfl (entriesI_ne items _ hm)
      · intro h; cases h
    | cons k path =>
      simp only [entriesT]
      rw [entriesI_spec items h1 h3 k path v]
      simp only [look]
      cases dGet items k with
      | none => simp
      | some t => simp
theorem entriesI_ne : ∀ (items : List (PKey × PTree α)) (e : List PKey × α), e ∈ entriesI items → e.1 ≠ []
  | [], e, h => by simp [entriesI] at h
  | (k, t) :: rest, e, h => by
    simp only [entriesI, List.mem_append, List.mem_map] at h
    rcases h with ⟨x, -, rfl⟩ | h
    · simp
    · exact entriesI_ne rest e h
theorem entriesI_spec : ∀ (items : List (PKey × PTree α)), (items.map Prod.fst).Nodup → (∀ e ∈ items, WellNamed e.2) →
    ∀ k path v, (k :: path, v) ∈ entriesI items ↔ ∃ t, dGet items k = some t ∧ look t path = .param v
  | [], _, _, k, path, v => by simp [entriesI, dGet]
  | (a, t) :: rest, hn, hw, k, path, v => by
    simp only [List.map_cons, List.nodup_cons] at hn
    have ht := entriesT_spec t (hw (a, t) (by simp))
    have hr := entriesI_spec rest hn.2 (fun e he => hw e (by simp [he])) k path v
    simp only [entriesI, List.mem_append, List.mem_map, Prod.mk.injEq, List.cons.injEq, dGet]
    rw [hr]
    by_cases hak : a = k
    · subst hak
      have hno : dGet rest a = none := dGet_eq_none.2 hn.1
      simp only [hno, if_true, Option.some.injEq]
      constructor
      · rintro (⟨⟨p, w⟩, hm, ⟨-, rfl⟩, rfl⟩ | ⟨t', h, -⟩)
        · exact ⟨t, rfl, (ht _ _).1 hm⟩
        · simp at h
      · rintro ⟨t', rfl, h⟩
        exact .inl ⟨(path, v), (ht _ _).2 h, by simp⟩
    · simp only [if_neg hak]
      constructor
      · rintro (⟨⟨p, w⟩, hm, ⟨h, -⟩, -⟩ | h)
        · exact absurd h hak
        · exact h
      · exact .inr
end

mutual
theorem entriesT_nodup : ∀ (t : PTree α), WellNamed t → ((entriesT t).map Prod.fst).Nodup
  | .leaf w, _ => by simp [entriesT]
  | .node items, h => by
    obtain ⟨h1, h2, h3⟩ := wellNamed_node h
    simpa only [entriesT] using entriesI_nodup items h1 h3
theorem entriesI_nodup : ∀ (items : List (PKey × PTree α)), (items.map Prod.fst).Nodup → (∀ e ∈ items, WellNamed e.2) →
    ((entriesI items).map Prod.fst).Nodup
  | [], _, _ => by simp [entriesI]
  | (a, t) :: rest, hn, hw => by
    simp only [List.map_cons, List.nodup_cons] at hn
    have ht := entriesT_nodup t (hw (a, t) (by simp))
    have hr := entriesI_nodup rest hn.2 (fun e he => hw e (by simp [he]))
    simp only [entriesI, List.map_append, List.map_map, Function.comp_def]
    refine List.nodup_append.2 ⟨?_, hr, ?_⟩
    · have := ht.map (f := fun p => a :: p) (fun p q h => by simpa using h)
      simpa [List.map_map, Function.comp_def] using this
    · intro p hp q hq hpq
      subst hpq
      obtain ⟨e, he, rfl⟩ := List.mem_map.1 hp
      obtain ⟨e', he', h⟩ := List.mem_map.1 hq
      have : (a :: e.1, e'.2) ∈ entriesI rest := by rw [← h]; exact he'
      obtain ⟨t', ht', -⟩ := (entriesI_spec rest hn.2 (fun e he => hw e (by simp [he])) a e.1 e'.2).1 this
      exact hn.1 (List.mem_map.2 ⟨_, dGet_eq_some ht', rfl⟩)
end

theorem look_prefix : ∀ (p q : List PKey) (t : PTree α) (v : α), look t p = .param v → p <+: q → p ≠ q → look t q = .nothing := by
  intro p
  induction p with
  | nil =>
    intro q t v h _ hne
    cases t with
    | leaf w =>
      cases q with
      | nil => exact absurd rfl hne
      | cons => rfl
    | node items => simp [look] at h
  | cons k p ih =>
    intro q t v h hp hne
    obtain ⟨s, rfl⟩ := hp
    cases t with
    | leaf w => simp [look] at h
    | node items =>
      simp only [look, List.cons_append] at h ⊢
      cases hg : dGet items k with
      | none => rfl
      | some t =>
        rw [hg] at h
        exact ih (p ++ s) t v h (by simp) (by simpa using hne)

theorem look_plain : ∀ (p : List PKey) (t : PTree α) (v : α), WellNamed t → look t p = .param v → ∀ a ∈ p, Plain a := by
  intro p
  induction p with
  | nil => simp
  | cons k p ih =>
    intro t v hw h a ha
    cases t with
    | leaf w => simp [look] at h
    | node items =>
      obtain ⟨h1, h2, h3⟩ := wellNamed_node hw
      simp only [look] at h
      cases hg : dGet items k with
      | none => simp [hg] at h
      | some t =>
        rw [hg] at h
        rcases List.mem_cons.1 ha with rfl | ha
        · exact h2 _ (dGet_eq_some hg)
        · exact ih t v (h3 _ (dGet_eq_some hg)) h a ha

theorem entries_flatOk (items : List (PKey × PTree α)) (h : WellNamed (.node items)) : FlatOk (entriesI items) := by
  obtain ⟨h1, h2, h3⟩ := wellNamed_node h
  have hs := entriesT_spec (.node items) h
  simp only [entriesT] at hs
  refine ⟨fun e he => ⟨entriesI_ne items e he, ?_⟩, entriesI_nodup items h1 h3, ?_⟩
  · exact look_plain e.1 _ e.2 h ((hs e.1 e.2).1 he)
  · intro e he e' he' hp
    by_contra hne
    have := look_prefix e.1 e'.1 _ e.2 ((hs e.1 e.2).1 he) hp hne
    rw [(hs e'.1 e'.2).1 he'] at this
    cases this

theorem flattenDict_eq (items : List (PKey × PTree α)) (h : WellNamed (.node items)) :
    flattenDict items = dotted (entriesI items) := by
  have := foldl_dSet_fresh (dotted (entriesI items)) [] (by simpa using dotted_nodup (entries_flatOk items h))
  simp only [flattenDict, flattenItems_none, this, List.nil_append]

theorem length_split (k : PKey) : (splitDots k).length ≤ k.length + 1 := by
  induction k with
  | nil => simp [splitDots]
  | cons c s ih =>
    simp only [splitDots]
    split
    · simpa using ih
    · cases hs : splitDots s with
      | nil => simp [consFirst]
      | cons h t => rw [hs] at ih; simp [consFirst] at ih ⊢; omega

theorem fuel_ok (D : List (List PKey × α)) (hD : FlatOk D) (fuel : ℕ) (hf : ∀ e ∈ dotted D, e.1.length < fuel) :
    ∀ e ∈ D, e.1.length ≤ fuel := by
  intro e he
  have h1 := hf _ (List.mem_map.2 ⟨e, he, rfl⟩)
  have h2 := length_split (joinDots e.1)
  rw [split_join e.1 (hD.writable e he).1 (hD.writable e he).2] at h2
  simp only at h1
  omega

/-- **C36** (flatten). The flat dictionary has exactly one entry per parameter of the nested dictionary, its key is the path
joined with dots, and no key is repeated. -/
theorem C36_flatten (items : List (PKey × PTree α)) (h : WellNamed (.node items)) :
    ((flattenDict items).map Prod.fst).Nodup ∧
    ∀ k v, (k, v) ∈ flattenDict items ↔ ∃ path, look (.node items) path = .param v ∧ joinDots path = k := by
  rw [flattenDict_eq items h]
  refine ⟨dotted_nodup (entries_flatOk items h), fun k v => ?_⟩
  have hs := entriesT_spec (.node items) h
  simp only [entriesT] at hs
  simp only [dotted, List.mem_map, Prod.mk.injEq]
  constructor
  · rintro ⟨e, he, rfl, rfl⟩
    exact ⟨e.1, (hs e.1 e.2).1 he, rfl⟩
  · rintro ⟨path, h, rfl⟩
    exact ⟨(path, v), (hs path v).2 h, rfl, rfl⟩

/-- **C36** (round trip). For names without the separator and no empty groups, `hierarchical(flatten(params))` equals `params`
as a nested dictionary. -/
theorem C36_roundtrip (items : List (PKey × PTree α)) (h : WellNamed (.node items)) (hg : GroupsUsed (.node items)) (fuel : ℕ)
    (hf : ∀ e ∈ flattenDict items, e.1.length < fuel) :
    ∀ path, look (.node (hierarchicalDict fuel (flattenDict items))) path = look (.node items) path := by
  intro path
  rw [flattenDict_eq items h] at hf ⊢
  have hok := entries_flatOk items h
  obtain ⟨s1, s2⟩ := hier_spec fuel (entriesI items) hok (fuel_ok _ hok fuel hf) path
  have hs := entriesT_spec (.node items) h
  simp only [entriesT] at hs
  cases hl : look (.node items) path with
  | param v => exact (s1 v).2 ((hs path v).2 hl)
  | group =>
    rcases hg path hl with rfl | ⟨q, v, hq, hv⟩
    · exact s2.2 (.inl rfl)
    · exact s2.2 (.inr ⟨(q, v), (hs q v).2 hv, hq⟩)
  | nothing =>
    cases hl' : look (.node (hierarchicalDict fuel (dotted (entriesI items)))) path with
    | param v =>
      have := (hs path v).1 ((s1 v).1 hl')
      rw [hl] at this; cases this
    | group =>
      rcases s2.1 hl' with rfl | ⟨e, he, hin⟩
      · simp [look] at hl
      · exfalso
        have hv := (hs e.1 e.2).1 he
        have key : ∀ (p s : List PKey) (t : PTree α), look t p = .nothing → look t (p ++ s) = .nothing := by
          intro p
          induction p with
          | nil => intro s t h; cases t <;> simp [look] at h
          | cons k p ih =>
            intro s t h
            cases t with
            | leaf w => rfl
            | node items =>
              simp only [look, List.cons_append] at h ⊢
              cases hg : dGet items k with
              | none => rfl
              | some t => rw [hg] at h; exact ih s t h
        obtain ⟨⟨s, hs'⟩, -⟩ := hin
        rw [← hs', key path s _ hl] at hv
        cases hv
    | nothing => rfl

/-- **C36** (round trip, any groups). Empty groups or not, every parameter is found again under its path and nothing else. -/
theorem C36_roundtrip_params (items : List (PKey × PTree α)) (h : WellNamed (.node items)) (fuel : ℕ)
    (hf : ∀ e ∈ flattenDict items, e.1.length < fuel) (path : List PKey) (v : α) :
    look (.node (hierarchicalDict fuel (flattenDict items))) path = .param v ↔ look (.node items) path = .param v := by
  rw [flattenDict_eq items h] at hf ⊢
  have hok := entries_flatOk items h
  obtain ⟨s1, s2⟩ := hier_spec fuel (entriesI items) hok (fuel_ok _ hok fuel hf) path
  have hs := entriesT_spec (.node items) h
  simp only [entriesT] at hs
  rw [s1 v, hs]

/-- **C36** (structure of `hierarchical`). For every flat dictionary in which no key is followed by a dot in another key, every
parameter is found under the parts of its key, and the groups are exactly the beginnings of the keys. -/
theorem C36_hierarchical (data : List (PKey × α)) (hn : (data.map Prod.fst).Nodup)
    (hp : ∀ e ∈ data, ∀ e' ∈ data, ¬ (e.1 ++ ['.']) <+: e'.1) (fuel : ℕ) (hf : ∀ e ∈ data, e.1.length < fuel) (path : List PKey) :
    (∀ v, look (.node (hierarchicalDict fuel data)) path = .param v ↔ ∃ k, (k, v) ∈ data ∧ path = splitDots k) ∧
    (look (.node (hierarchicalDict fuel data)) path = .group ↔ path = [] ∨ ∃ e ∈ data, Inside path (splitDots e.1)) := by
  have hD : dotted (data.map fun e => (splitDots e.1, e.2)) = data := by
    simp [dotted, List.map_map, Function.comp_def, join_split]
  have hok : FlatOk (data.map fun e => (splitDots e.1, e.2)) := by
    refine ⟨?_, ?_, ?_⟩
    · intro e he
      obtain ⟨x, hx, rfl⟩ := List.mem_map.1 he
      exact ⟨splitDots_ne _, splitDots_plain _⟩
    · have := hn.map (f := splitDots) (fun a b h => by rw [← join_split a, ← join_split b, h])
      simpa [List.map_map, Function.comp_def] using this
    · intro e he e' he' hpre
      obtain ⟨x, hx, rfl⟩ := List.mem_map.1 he
      obtain ⟨x', hx', rfl⟩ := List.mem_map.1 he'
      obtain ⟨s, hs⟩ := hpre
      simp only at hs ⊢
      cases s with
      | nil => simpa using hs
      | cons b s =>
        exfalso
        apply hp x hx x' hx'
        refine ⟨joinDots (b :: s), ?_⟩
        have := join_append (splitDots x.1) b s (splitDots_ne _)
        rw [hs, join_split, join_split] at this
        rw [this]; simp
  obtain ⟨s1, s2⟩ := hier_spec fuel _ hok (fuel_ok _ hok fuel (by rw [hD]; exact hf)) path
  rw [hD] at s1 s2
  refine ⟨fun v => ?_, ?_⟩
  · rw [s1 v]
    simp only [List.mem_map, Prod.mk.injEq]
    constructor
    · rintro ⟨e, he, rfl, rfl⟩; exact ⟨e.1, he, rfl⟩
    · rintro ⟨k, hk, rfl⟩; exact ⟨(k, v), hk, rfl, rfl⟩
  · rw [s2]
    simp only [List.mem_map]
    constructor
    · rintro (h | ⟨e, ⟨x, hx, rfl⟩, h⟩)
      · exact .inl h
      · exact .inr ⟨x, hx, h⟩
    · rintro (h | ⟨e, he, h⟩)
      · exact .inl h
      · exact .inr ⟨_, ⟨e, he, rfl⟩, h⟩

end Tree

/-! ### Non-vacuity and limits -/

/-- `{"a": 1, "b": {"c": 2, "d": {"a": 3}}}` -/
def exTree : List (PKey × PTree ℕ) :=
  [(['a'], .leaf 1), (['b'], .node [(['c'], .leaf 2), (['d'], .node [(['a'], .leaf 3)])])]

theorem exTree_named : WellNamed (.node exTree) := by
  refine .node _ (by decide) (by simp [exTree, Plain]) ?_
  intro e he
  simp only [exTree, List.mem_cons, List.not_mem_nil, or_false] at he
  rcases he with rfl | rfl
  · exact .leaf _
  · refine .node _ (by decide) (by simp [exTree, Plain]) ?_
    intro e he
    simp only [List.mem_cons, List.not_mem_nil, or_false] at he
    rcases he with rfl | rfl
    · exact .leaf _
    · refine .node _ (by decide) (by simp [exTree, Plain]) ?_
      intro e he
      simp only [List.mem_cons, List.not_mem_nil, or_false] at he
      subst he
      exact .leaf _

theorem exTree_used : GroupsUsed (.node exTree) := by
  intro path h
  match path with
  | [] => exact .inl rfl
  | k :: path =>
    right
    simp only [look, exTree, dGet] at h
    by_cases h1 : ['a'] = k
    · subst h1
      cases path <;> simp [look] at h
    · by_cases h2 : ['b'] = k
      · subst h2
        match path with
        | [] => exact ⟨[['b'], ['c']], 2, by unfold Inside; decide, rfl⟩
        | k' :: path =>
          simp only [if_neg h1, if_true, look, dGet] at h
          by_cases h3 : ['c'] = k'
          · subst h3; cases path <;> simp [look] at h
          · by_cases h4 : ['d'] = k'
            · subst h4
              match path with
              | [] => exact ⟨[['b'], ['d'], ['a']], 3, by unfold Inside; decide, rfl⟩
              | k2 :: path =>
                simp only [if_neg h3, if_true, look, dGet] at h
                by_cases h5 : ['a'] = k2
                · subst h5; cases path <;> simp [look] at h
                · simp [h5] at h
            · simp [h1, h3, h4] at h
      · simp [h1, h2] at h

example : flattenDict exTree = [(['a'], 1), (['b', '.', 'c'], 2), (['b', '.', 'd', '.', 'a'], 3)] := by decide
example : ∀ path, look (.node (hierarchicalDict 6 (flattenDict exTree))) path = look (.node exTree) path :=
  C36_roundtrip exTree exTree_named exTree_used 6 (by decide)
example : look (.node (hierarchicalDict 6 (flattenDict exTree))) [['b'], ['d'], ['a']] = .param 3 := by rfl
example : look (.node (hierarchicalDict 4 [(['a', '.', 'b'], 1), (['c'], 2)])) [['a'], ['b']] = .param 1 :=
  ((C36_hierarchical [(['a', '.', 'b'], 1), (['c'], 2)] (by decide) (by decide) 4 (by decide) [['a'], ['b']]).1 1).2
    ⟨['a', '.', 'b'], by decide, by decide⟩

/-- **C36** (limits). An empty group disappears in the round trip, a name containing the separator is split, and in a flat
dictionary with the keys `a` and `a.b` the value of `a` is lost. -/
theorem C36_limits :
    (look (.node [(['a'], PTree.node (α := ℕ) [])]) [['a']] = .group ∧
      ∀ fuel, look (.node (hierarchicalDict fuel (flattenDict [(['a'], PTree.node (α := ℕ) [])]))) [['a']] = .nothing) ∧
    look (.node (hierarchicalDict 5 (flattenDict [(['a', '.', 'b'], PTree.leaf 1)]))) [['a', '.', 'b']] = .nothing ∧
    ∀ v, look (.node (hierarchicalDict 5 [(['a'], 1), (['a', '.', 'b'], 2)])) [['a']] ≠ .param v := by
  refine ⟨⟨rfl, ?_⟩, rfl, ?_⟩
  · intro fuel
    cases fuel <;> rfl
  · intro v h
    cases h

/-! ### Collecting parameters -/

section Collect

theorem insertAt_spec : ∀ (p : List PKey) (ret : List (PKey × PTree PVar)) (v : PVar), p ≠ [] →
    look (.node ret) p = .nothing → (∀ q w, Inside q p → look (.node ret) q ≠ .param w) →
    ∃ ret', insertAt ret p v = some ret' ∧ look (.node ret') p = .param v ∧ (∀ path, Inside path p → look (.node ret') path = .group) ∧
      (∀ path, path ≠ p → ¬ Inside path p → look (.node ret') path = look (.node ret) path) ∧
      (WellNamed (.node ret) → (∀ a ∈ p, Plain a) → WellNamed (.node ret')) := by
  have hput : ∀ (ret : List (PKey × PTree PVar)) (k : PKey) (t : PTree PVar), WellNamed (.node ret) → Plain k → WellNamed t →
      WellNamed (.node (dSet ret k t)) := by
    intro ret k t hw hk ht
    obtain ⟨h1, h2, h3⟩ := wellNamed_node hw
    have hm : ∀ (ret : List (PKey × PTree PVar)) e, e ∈ dSet ret k t → e ∈ ret ∨ e = (k, t) := by
      intro ret
      induction ret with
      | nil => intro e he; simp [dSet] at he; exact .inr he
      | cons a ret ih =>
        intro e he
        obtain ⟨a, w⟩ := a
        simp only [dSet] at he
        split at he
        · rename_i hak
          rcases List.mem_cons.1 he with rfl | he
          · exact .inr (by rw [hak])
          · exact .inl (by simp [he])
        · rcases List.mem_cons.1 he with rfl | he
          · exact .inl (by simp)
          · rcases ih e he with h | h
            · exact .inl (by simp [h])
            · exact .inr h
    refine .node _ (dSet_nodup h1) ?_ ?_
    · intro e he
      rcases hm ret e he with h | rfl
      · exact h2 e h
      · exact hk
    · intro e he
      rcases hm ret e he with h | rfl
      · exact h3 e h
      · exact ht
  intro p
  induction p with
  | nil => intro ret v h; exact absurd rfl h
  | cons k p ih =>
    intro ret v _ hno hpar
    cases p with
    | nil =>
      refine ⟨_, rfl, ?_, ?_, ?_, ?_⟩
      · simp [look, dGet_dSet]
      · rintro path ⟨⟨s, hs⟩, hne⟩
        cases path with
        | nil => rfl
        | cons x path =>
          simp only [List.cons_append, List.cons.injEq, List.append_eq_nil_iff] at hs
          obtain ⟨rfl, rfl, rfl⟩ := hs
          exact absurd rfl hne
      · intro path hne hnin
        cases path with
        | nil => rfl
        | cons x path =>
          simp only [look, dGet_dSet]
          by_cases hx : k = x
          · subst hx
            simp only [if_true]
            cases path with
            | nil => exact absurd rfl hne
            | cons y path =>
              simp only [look] at hno ⊢
              cases hd : dGet ret k with
              | none => rfl
              | some t =>
                rw [hd] at hno
                cases t <;> simp [look] at hno
          · simp [hx]
      · intro hw hp
        exact hput _ _ _ hw (hp k (by simp)) (.leaf _)
    | cons k' ks =>
      have key : ∀ (l : List (PKey × PTree PVar)), look (.node l) (k' :: ks) = .nothing →
          (∀ q w, Inside q (k' :: ks) → look (.node l) q ≠ .param w) →
          (∀ x path, look (.node l) (x :: path) = look (.node ret) (k :: x :: path)) → (WellNamed (.node ret) → WellNamed (.node l)) →
          ∃ l', insertAt l (k' :: ks) v = some l' ∧
            look (.node (dSet ret k (.node l'))) (k :: k' :: ks) = .param v ∧
            (∀ path, Inside path (k :: k' :: ks) → look (.node (dSet ret k (.node l'))) path = .group) ∧
            (∀ path, path ≠ k :: k' :: ks → ¬ Inside path (k :: k' :: ks) →
              look (.node (dSet ret k (.node l'))) path = look (.node ret) path) ∧
            (WellNamed (.node ret) → (∀ a ∈ k :: k' :: ks, Plain a) → WellNamed (.node (dSet ret k (.node l')))) := by
        intro l h1 h2 h3 h4
        obtain ⟨l', e1, e2, e3, e4, e5⟩ := ih l v (by simp) h1 h2
        refine ⟨l', e1, ?_, ?_, ?_, ?_⟩
        · have hd : dGet (dSet ret k (.node l')) k = some (.node l') := by simp [dGet_dSet]
          simp only [look] at e2 ⊢
          rw [hd]
          exact e2
        · rintro path ⟨hp, hne⟩
          cases path with
          | nil => rfl
          | cons x path =>
            obtain ⟨s, hs⟩ := hp
            simp only [List.cons_append, List.cons.injEq] at hs
            obtain ⟨rfl, hs⟩ := hs
            have hd : dGet (dSet ret x (.node l')) x = some (.node l') := by simp [dGet_dSet]
            have : look (.node (dSet ret x (.node l'))) (x :: path) = look (.node l') path := by
              conv_lhs => rw [look]
              rw [hd]
            rw [this]
            exact e3 path ⟨⟨s, hs⟩, fun h => hne (by rw [h])⟩
        · intro path hne hnin
          cases path with
          | nil => rfl
          | cons x path =>
            by_cases hx : k = x
            · subst hx
              have hd : dGet (dSet ret k (.node l')) k = some (.node l') := by simp [dGet_dSet]
              have : look (.node (dSet ret k (.node l'))) (k :: path) = look (.node l') path := by
                conv_lhs => rw [look]
                rw [hd]
              rw [this]
              cases path with
              | nil => exact absurd ⟨by simp, by simp⟩ hnin
              | cons y path =>
                rw [e4 (y :: path) (fun h => hne (by rw [h])) (fun h => hnin ⟨by simpa using h.1, by simpa using h.2⟩), h3]
            · have hd : dGet (dSet ret k (.node l')) x = dGet ret x := by simp [dGet_dSet, hx]
              simp only [look]
              rw [hd]
        · intro hw hp
          exact hput _ _ _ hw (hp k (by simp)) (e5 (h4 hw) (fun a ha => hp a (by simp [ha])))
      cases hd : dGet ret k with
      | none =>
        obtain ⟨l', e1, e2⟩ := key [] rfl (by
          rintro q w - hq
          cases q with
          | nil => cases hq
          | cons => cases hq) (by intro x path; simp [look, hd, dGet]) (fun _ => .node _ (by simp) (by simp) (by simp))
        exact ⟨_, by simp only [insertAt, hd, e1, Option.map_some], e2⟩
      | some t =>
        cases t with
        | leaf w =>
          exact absurd (by simp [look, hd]) (hpar [k] w ⟨by simp, by simp⟩)
        | node l =>
          have hl : ∀ path, look (.node ret) (k :: path) = look (.node l) path := by
            intro path
            conv_lhs => rw [look]
            rw [hd]
          obtain ⟨l', e1, e2⟩ := key l (by rw [← hl]; exact hno) (by
            intro q w hq
            rw [← hl]
            exact hpar (k :: q) w ⟨by simpa using hq.1, by simpa using hq.2⟩) (fun x path => (hl _).symm)
            (fun hw => (wellNamed_node hw).2.2 _ (dGet_eq_some hd))
          exact ⟨_, by simp only [insertAt, hd, e1, Option.map_some], e2⟩

/-- The loop over the variables in the order in which they are met. -/
def procE (flag : ℕ) (oa : Bool) : List (List PKey × PVar) → List ℕ → List (PKey × PTree PVar) → Option (List (PKey × PTree PVar))
  | [], _, ret => some ret
  | (p, v) :: E, visited, ret =>
    if wanted flag oa visited v then (insertAt ret p v).bind fun ret' => procE flag oa E (v.id :: visited) ret'
    else procE flag oa E (v.id :: visited) ret

mutual
def sizeT : PTree PVar → ℕ
  | .leaf _ => 1
  | .node items => 1 + sizeI items
def sizeI : List (PKey × PTree PVar) → ℕ
  | [] => 0
  | (_, t) :: rest => sizeT t + sizeI rest
end

def met (e : List PKey × PTree PVar) : List (List PKey × PVar) := ((entriesT e.2).map fun x => (e.1 ++ x.1, x.2)).reverse

theorem met_items (pre : List PKey) (items : List (PKey × PTree PVar)) :
    ((items.map fun e => (pre ++ [e.1], e.2)).reverse).flatMap met = ((entriesI items).map fun x => (pre ++ x.1, x.2)).reverse := by
  induction items with
  | nil => simp [entriesI]
  | cons e rest ih =>
    obtain ⟨k, t⟩ := e
    simp only [List.map_cons, List.reverse_cons, List.flatMap_append, ih, entriesI, List.map_append, List.reverse_append,
      List.flatMap_cons, List.flatMap_nil, List.append_nil, met, List.map_map, Function.comp_def, List.append_assoc, List.singleton_append]

theorem size_items (pre : List PKey) (items : List (PKey × PTree PVar)) :
    (((items.map fun e => (pre ++ [e.1], e.2)).reverse).map fun e => sizeT e.2).sum = sizeI items := by
  induction items with
  | nil => simp [sizeI]
  | cons e rest ih =>
    obtain ⟨k, t⟩ := e
    simp only [List.map_cons, List.reverse_cons, List.map_append, List.sum_append, ih, List.map_nil, List.sum_cons, List.sum_nil,
      sizeI]
    omega

theorem getParamsLoop_eq (flag : ℕ) (oa : Bool) : ∀ (fuel : ℕ) (q : List (List PKey × PTree PVar)) (visited : List ℕ)
    (ret : List (PKey × PTree PVar)), (q.map fun e => sizeT e.2).sum ≤ fuel →
    getParamsLoop flag oa fuel q visited ret = procE flag oa (q.flatMap met) visited ret := by
  intro fuel
  induction fuel with
  | zero =>
    intro q visited ret h
    cases q with
    | nil => rfl
    | cons e q =>
      obtain ⟨p, t⟩ := e
      cases t <;> simp [sizeT] at h
  | succ fuel ih =>
    intro q visited ret h
    match q with
    | [] => rfl
    | (p, .leaf v) :: q =>
      simp only [List.map_cons, sizeT, List.sum_cons] at h
      simp only [getParamsLoop, List.flatMap_cons, met, entriesT, List.map_cons, List.map_nil, List.append_nil, List.reverse_cons,
        List.reverse_nil, List.nil_append, List.singleton_append, procE]
      split
      · congr 1
        funext ret'
        exact ih q _ ret' (by omega)
      · exact ih q _ ret (by omega)
    | (p, .node items) :: q =>
      simp only [List.map_cons, sizeT, List.sum_cons] at h
      simp only [getParamsLoop]
      rw [ih]
      · rw [List.flatMap_append, met_items]
        simp [met, entriesT]
      · rw [List.map_append, List.sum_append, size_items]
        omega

theorem FlatOk.sublist {α : Type} {D E : List (List PKey × α)} (h : FlatOk E) (hs : D.Sublist E) : FlatOk D :=
  ⟨fun e he => h.writable e (hs.subset he), h.nodup.sublist (hs.map _),
    fun e he e' he' => h.prefixFree e (hs.subset he) e' (hs.subset he')⟩

/-- The dictionary `ret` contains exactly the parameters `S`. -/
def Holds (ret : List (PKey × PTree PVar)) (S : List (List PKey × PVar)) : Prop :=
  ∀ path, (∀ v, look (.node ret) path = .param v ↔ (path, v) ∈ S) ∧
    (look (.node ret) path = .group ↔ path = [] ∨ ∃ e ∈ S, Inside path e.1)

theorem Holds.insert {ret : List (PKey × PTree PVar)} {S : List (List PKey × PVar)} (h : Holds ret S) {p : List PKey} {v : PVar}
    (hok : FlatOk (S ++ [(p, v)])) (hw : WellNamed (.node ret)) :
    ∃ ret', insertAt ret p v = some ret' ∧ Holds ret' (S ++ [(p, v)]) ∧ WellNamed (.node ret') := by
  have hpw := hok.writable (p, v) (by simp)
  have hnew : ∀ w, (p, w) ∉ S := by
    intro w hm
    have := hok.nodup
    simp only [List.map_append, List.map_cons, List.map_nil] at this
    exact (List.nodup_append.1 this).2.2 p (List.mem_map.2 ⟨_, hm, rfl⟩) p (by simp) rfl
  have hng : ∀ e ∈ S, ¬ Inside p e.1 := by
    intro e he hin
    exact hin.2 (hok.prefixFree (p, v) (by simp) e (by simp [he]) hin.1)
  have hnp : ∀ q w, Inside q p → (q, w) ∉ S := by
    intro q w hin hm
    exact hin.2 (hok.prefixFree (q, w) (by simp [hm]) (p, v) (by simp) hin.1)
  obtain ⟨ret', e1, e2, e3, e4, e5⟩ := insertAt_spec p ret v hpw.1 (by
    cases hl : look (.node ret) p with
    | param w => exact absurd (((h p).1 w).1 hl) (hnew w)
    | group =>
      rcases (h p).2.1 hl with h' | ⟨e, he, hin⟩
      · exact absurd h' hpw.1
      · exact absurd hin (hng e he)
    | nothing => rfl) (fun q w hin hl => hnp q w hin (((h q).1 w).1 hl))
  refine ⟨ret', e1, ?_, e5 hw hpw.2⟩
  intro path
  by_cases h1 : path = p
  · subst h1
    rw [e2]
    refine ⟨fun w => ?_, ?_⟩
    · simp only [Found.param.injEq, List.mem_append, hnew w, List.mem_singleton, Prod.mk.injEq, true_and, false_or]
      exact eq_comm
    · constructor
      · intro h; cases h
      · rintro (h' | ⟨e, he, hin⟩)
        · exact absurd h' hpw.1
        · rcases List.mem_append.1 he with he | he
          · exact absurd hin (hng e he)
          · rw [List.mem_singleton] at he; subst he; exact absurd rfl hin.2
  · by_cases h2 : Inside path p
    · rw [e3 path h2]
      refine ⟨fun w => ?_, ?_⟩
      · constructor
        · intro h; cases h
        · intro hm
          rcases List.mem_append.1 hm with hm | hm
          · exact absurd hm (hnp path w h2)
          · simp only [List.mem_singleton, Prod.mk.injEq] at hm; exact absurd hm.1 h1
      · exact ⟨fun _ => .inr ⟨(p, v), by simp, h2⟩, fun _ => rfl⟩
    · rw [e4 path h1 h2]
      refine ⟨fun w => ?_, ?_⟩
      · rw [(h path).1 w]
        simp [h1]
      · rw [(h path).2]
        constructor
        · rintro (h' | ⟨e, he, hin⟩)
          · exact .inl h'
          · exact .inr ⟨e, by simp [he], hin⟩
        · rintro (h' | ⟨e, he, hin⟩)
          · exact .inl h'
          · rcases List.mem_append.1 he with he | he
            · exact .inr ⟨e, he, hin⟩
            · rw [List.mem_singleton] at he; subst he; exact absurd hin h2

/-- The variables asked for. -/
def Asked (flag : ℕ) (oa : Bool) (v : PVar) : Prop := v.flag = flag ∧ (oa = true → v.active = true)

theorem wanted_iff (flag : ℕ) (oa : Bool) (visited : List ℕ) (v : PVar) :
    wanted flag oa visited v = true ↔ v.id ∉ visited ∧ Asked flag oa v := by
  simp only [wanted, Asked, Bool.and_eq_true, Bool.not_eq_true', beq_iff_eq, Bool.or_eq_true]
  cases oa <;> simp [and_assoc]

theorem procE_spec (flag : ℕ) (oa : Bool) : ∀ (E S : List (List PKey × PVar)) (visited : List ℕ) (ret : List (PKey × PTree PVar)),
    FlatOk (S ++ E) → (∀ e ∈ E, ∀ e' ∈ E, e.2.id = e'.2.id → e.2 = e'.2) → Holds ret S → WellNamed (.node ret) →
    ∃ ret' T, procE flag oa E visited ret = some ret' ∧ Holds ret' (S ++ T) ∧ WellNamed (.node ret') ∧ T.Sublist E ∧
      (∀ e ∈ T, Asked flag oa e.2 ∧ e.2.id ∉ visited) ∧ (T.map fun e => e.2.id).Nodup ∧
      ∀ e ∈ E, Asked flag oa e.2 → e.2.id ∈ visited ∨ ∃ e' ∈ T, e'.2 = e.2 := by
  intro E
  induction E with
  | nil =>
    intro S visited ret hok _ hh hw
    exact ⟨ret, [], rfl, by simpa using hh, hw, by simp, by simp, by simp, by simp⟩
  | cons e E ih =>
    intro S visited ret hok hid hh hw
    obtain ⟨p, v⟩ := e
    have hid' : ∀ e ∈ E, ∀ e' ∈ E, e.2.id = e'.2.id → e.2 = e'.2 :=
      fun e he e' he' => hid e (by simp [he]) e' (by simp [he'])
    simp only [procE]
    by_cases hwant : wanted flag oa visited v = true
    · obtain ⟨hv1, hv2⟩ := (wanted_iff _ _ _ _).1 hwant
      have hok' : FlatOk ((S ++ [(p, v)]) ++ E) := by simpa using hok
      obtain ⟨ret1, i1, i2, i3⟩ := hh.insert hok'.prefix hw
      obtain ⟨ret', T, t1, t2, t3, t4, t5, t6, t7⟩ := ih (S ++ [(p, v)]) (v.id :: visited) ret1 hok' hid' i2 i3
      refine ⟨ret', (p, v) :: T, ?_, ?_, t3, by simpa using t4, ?_, ?_, ?_⟩
      · rw [if_pos hwant, i1]
        exact t1
      · simpa using t2
      · intro e he
        rcases List.mem_cons.1 he with rfl | he
        · exact ⟨hv2, hv1⟩
        · exact ⟨(t5 e he).1, fun h => (t5 e he).2 (by simp [h])⟩
      · simp only [List.map_cons, List.nodup_cons]
        refine ⟨?_, t6⟩
        intro hm
        obtain ⟨x, hx, hxe⟩ := List.mem_map.1 hm
        exact (t5 x hx).2 (by simp [hxe])
      · intro e he hask
        rcases List.mem_cons.1 he with rfl | he
        · exact .inr ⟨_, by simp, rfl⟩
        · rcases t7 e he hask with h | ⟨e', he', h⟩
          · rcases List.mem_cons.1 h with h | h
            · exact .inr ⟨(p, v), by simp, (hid e (by simp [he]) (p, v) (by simp) h).symm⟩
            · exact .inl h
          · exact .inr ⟨e', by simp [he'], h⟩
    · obtain ⟨ret', T, t1, t2, t3, t4, t5, t6, t7⟩ := ih S (v.id :: visited) ret
        (hok.sublist (List.Sublist.append (List.Sublist.refl _) (List.sublist_cons_self _ _))) hid' hh hw
      refine ⟨ret', T, by rw [if_neg hwant]; exact t1, t2, t3, t4.cons _, ?_, t6, ?_⟩
      · intro e he
        exact ⟨(t5 e he).1, fun h => (t5 e he).2 (by simp [h])⟩
      · intro e he hask
        have hvis : ∀ u, Asked flag oa u → u.id = v.id → u = v → u.id ∈ visited := by
          intro u hu _ huv
          by_contra hno
          exact hwant ((wanted_iff _ _ _ _).2 ⟨huv ▸ hno, huv ▸ hu⟩)
        rcases List.mem_cons.1 he with rfl | he
        · exact .inl (hvis v hask rfl rfl)
        · rcases t7 e he hask with h | h
          · rcases List.mem_cons.1 h with h | h
            · exact .inl (hvis e.2 hask h (hid e (by simp [he]) (p, v) (by simp) h))
            · exact .inl h
          · exact .inr h

/-- **C36** (`get_params`). Collecting the parameters of an object returns only variables of the object with the requested flag
(and active, if asked), each under its own path; every such variable is reported at exactly one place (a variable that several
attributes share is not repeated), and the result has no empty group, so that `C36_roundtrip` applies to it. -/
theorem C36_get_params (flag : ℕ) (oa : Bool) (items : List (PKey × PTree PVar)) (h : WellNamed (.node items))
    (hid : ∀ p q v w, look (.node items) p = .param v → look (.node items) q = .param w → v.id = w.id → v = w) :
    ∃ fuel0, ∀ fuel, fuel0 ≤ fuel → ∃ ret, getParams flag oa fuel items = some ret ∧
      (∀ path v, look (.node ret) path = .param v → look (.node items) path = .param v ∧ v.flag = flag ∧ (oa = true → v.active = true)) ∧
      (∀ path v, look (.node items) path = .param v → v.flag = flag → (oa = true → v.active = true) →
        ∃ path', look (.node ret) path' = .param v) ∧
      (∀ p q v w, look (.node ret) p = .param v → look (.node ret) q = .param w → v.id = w.id → p = q) ∧
      GroupsUsed (.node ret) ∧ WellNamed (.node ret) := by
  refine ⟨sizeT (.node items), fun fuel hf => ?_⟩
  have hs := entriesT_spec (.node items) h
  simp only [entriesT] at hs
  have hok := entries_flatOk items h
  have hrev : FlatOk ([] ++ (entriesI items).reverse) := by
    simp only [List.nil_append]
    refine ⟨fun e he => hok.writable e (List.mem_reverse.1 he), ?_, fun e he e' he' =>
      hok.prefixFree e (List.mem_reverse.1 he) e' (List.mem_reverse.1 he')⟩
    rw [List.map_reverse, List.nodup_reverse]
    exact hok.nodup
  have heq : getParams flag oa fuel items = procE flag oa (entriesI items).reverse [] [] := by
    rw [getParams, getParamsLoop_eq _ _ _ _ _ _ (by simpa using hf)]
    simp [met, entriesT]
  obtain ⟨ret, T, t1, t2, t3, t4, t5, t6, t7⟩ := procE_spec flag oa (entriesI items).reverse [] [] [] hrev
    (by
      intro e he e' he' hee
      exact hid e.1 e'.1 e.2 e'.2 ((hs _ _).1 (List.mem_reverse.1 he)) ((hs _ _).1 (List.mem_reverse.1 he')) hee)
    (by intro path; cases path <;> simp [look, dGet]) (.node _ (by simp) (by simp) (by simp))
  rw [List.nil_append] at t2
  refine ⟨ret, by rw [heq]; exact t1, ?_, ?_, ?_, ?_, t3⟩
  · intro path v hv
    have hm := ((t2 path).1 v).1 hv
    exact ⟨(hs path v).1 (List.mem_reverse.1 (t4.subset hm)), (t5 _ hm).1⟩
  · intro path v hv hfl hac
    rcases t7 (path, v) (List.mem_reverse.2 ((hs path v).2 hv)) ⟨hfl, hac⟩ with h | ⟨e, he, hev⟩
    · simp at h
    · subst hev
      exact ⟨e.1, ((t2 e.1).1 e.2).2 he⟩
  · intro p q v w hp hq hvw
    have hp' := ((t2 p).1 v).1 hp
    have hq' := ((t2 q).1 w).1 hq
    have := List.inj_on_of_nodup_map t6 hp' hq' hvw
    exact congrArg Prod.fst this
  · intro path hg
    rcases (t2 path).2.1 hg with h | ⟨e, he, hin⟩
    · exact .inl h
    · exact .inr ⟨e.1, e.2, hin, ((t2 e.1).1 e.2).2 he⟩

/-- A shared variable is reported once, at the place visited first (the last attribute). -/
example : getParams 0 true 10 [(['a'], .leaf ⟨1, 0, true⟩), (['b'], .node [(['c'], .leaf ⟨1, 0, true⟩), (['d'], .leaf ⟨2, 0, false⟩)]),
    (['e'], .leaf ⟨3, 1, true⟩)] = some [(['b'], .node [(['c'], .leaf ⟨1, 0, true⟩)])] := by
  rfl

end Collect

/-! ### Setting parameters -/

section Setting
variable {α : Type}

mutual
theorem setParamEntry_spec : ∀ (p t t' : PTree α), WellNamed p → setParamEntry p t = some t' → ∀ path,
    (∀ v, look p path = .param v → look t' path = .param v) ∧ ((∀ v, look p path ≠ .param v) → look t' path = look t path)
  | .leaf v, .leaf w, t', _, h, path => by
    simp only [setParamEntry, Option.some.injEq] at h
    subst h
    cases path <;> simp [look]
  | .leaf v, .node items, t', _, h, path => by simp [setParamEntry] at h
  | .node [], .leaf w, t', _, h, path => by
    simp only [setParamEntry, Option.some.injEq] at h
    subst h
    cases path <;> simp [look, dGet]
  | .node (e :: ps), .leaf w, t', _, h, path => by simp [setParamEntry] at h
  | .node ps, .node items, t', hw, h, path => by
    have hcase : ∃ items', setParamItems ps items = some items' ∧ t' = .node items' := by
      cases ps with
      | nil => simp only [setParamEntry, setParamItems, Option.map_some, Option.some.injEq] at h; exact ⟨items, rfl, h.symm⟩
      | cons e ps =>
        simp only [setParamEntry, Option.map_eq_some_iff] at h
        obtain ⟨i, h1, h2⟩ := h
        exact ⟨i, h1, h2.symm⟩
    obtain ⟨items', h1, rfl⟩ := hcase
    obtain ⟨w1, w2, w3⟩ := wellNamed_node hw
    cases path with
    | nil => simp [look]
    | cons k path =>
      have := setParamItems_spec ps items items' w1 w3 h1 k
      simp only [look]
      obtain ⟨hin, hout⟩ := this
      cases hp : dGet ps k with
      | none => simp [hout hp]
      | some p =>
        obtain ⟨t, t', g1, g2, g3⟩ := hin p hp
        simp only [g1, g2]
        exact g3 path
theorem setParamItems_spec : ∀ (ps items items' : List (PKey × PTree α)), (ps.map Prod.fst).Nodup → (∀ e ∈ ps, WellNamed e.2) →
    setParamItems ps items = some items' → ∀ k,
    (∀ p, dGet ps k = some p → ∃ t t', dGet items k = some t ∧ dGet items' k = some t' ∧ ∀ path,
      (∀ v, look p path = .param v → look t' path = .param v) ∧ ((∀ v, look p path ≠ .param v) → look t' path = look t path)) ∧
    (dGet ps k = none → dGet items' k = dGet items k)
  | [], items, items', _, _, h, k => by
    simp only [setParamItems, Option.some.injEq] at h
    subst h
    simp [dGet]
  | (a, p) :: rest, items, items', hn, hw, h, k => by
    simp only [List.map_cons, List.nodup_cons] at hn
    simp only [setParamItems, Option.bind_eq_some_iff] at h
    obtain ⟨t, h1, t', h2, h3⟩ := h
    have he := setParamEntry_spec p t t' (hw (a, p) (by simp)) h2
    obtain ⟨r1, r2⟩ := setParamItems_spec rest _ items' hn.2 (fun e he => hw e (by simp [he])) h3 k
    simp only [dGet]
    by_cases hak : a = k
    · subst hak
      have hnone : dGet rest a = none := dGet_eq_none.2 hn.1
      simp only [if_true, Option.some.injEq]
      refine ⟨?_, by simp⟩
      rintro p' rfl
      refine ⟨t, t', h1, ?_, he⟩
      rw [r2 hnone, dGet_dSet, if_pos rfl]
    · simp only [if_neg hak]
      rw [dGet_dSet, if_neg hak] at r1 r2
      exact ⟨r1, r2⟩
end

/-- **C36** (`set_params`). If `set_params(obj, params)` succeeds, every parameter named in `params` has its new value, and
everything else of the object is unchanged. -/
theorem C36_set_params (params items items' : List (PKey × PTree α)) (h : WellNamed (.node params))
    (hs : setParamItems params items = some items') (path : List PKey) :
    (∀ v, look (.node params) path = .param v → look (.node items') path = .param v) ∧
    ((∀ v, look (.node params) path ≠ .param v) → look (.node items') path = look (.node items) path) := by
  refine setParamEntry_spec (.node params) (.node items) (.node items') h ?_ path
  cases params with
  | nil => simp only [setParamItems, Option.some.injEq] at hs; simp [setParamEntry, setParamItems, hs]
  | cons e ps => simp [setParamEntry, hs]

example : setParamItems [(['b'], .node [(['d'], .node [(['a'], .leaf 7)])])] exTree =
    some [(['a'], .leaf 1), (['b'], .node [(['c'], .leaf 2), (['d'], .node [(['a'], .leaf 7)])])] := by rfl

end Setting

end Props
