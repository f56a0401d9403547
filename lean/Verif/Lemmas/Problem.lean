import Verif.Model.Problem
import Mathlib.Data.List.Nodup
import Mathlib.Tactic.Ring
import Mathlib.Tactic.Linarith

/-!
# Lemmas on the dictionaries of `problem.py`
-/

set_option linter.unusedSimpArgs false
set_option linter.unusedVariables false

namespace Lemmas

open Model

variable {V β : Type*}

/-- The keys of a dictionary. -/
def keys (d : List (OutKey × β)) : List OutKey := d.map Prod.fst

theorem kGet_kSet (d : List (OutKey × β)) (k k' : OutKey) (v : β) : kGet (kSet d k v) k' = if k = k' then some v else kGet d k' := by
  induction d with
  | nil => simp [kSet, kGet]
  | cons e d ih =>
    obtain ⟨a, w⟩ := e
    by_cases h : a = k
    · subst h
      simp only [kSet, if_true, kGet]
      by_cases h' : a = k'
      · simp [h']
      · simp [h']
    · simp only [kSet, if_neg h, kGet, ih]
      by_cases h' : a = k'
      · subst h'
        simp [Ne.symm h]
      · simp [h']

theorem keys_kSet (d : List (OutKey × β)) (k : OutKey) (v : β) (x : OutKey) : x ∈ keys (kSet d k v) ↔ x ∈ keys d ∨ x = k := by
  induction d with
  | nil => simp [kSet, keys]
  | cons e d ih =>
    obtain ⟨a, w⟩ := e
    by_cases h : a = k
    · subst h
      simp only [kSet, if_true, keys, List.map_cons, List.mem_cons]
      tauto
    · simp only [keys, kSet, if_neg h, List.map_cons, List.mem_cons] at ih ⊢
      rw [ih]
      tauto

theorem nodup_kSet (d : List (OutKey × β)) (k : OutKey) (v : β) (h : (keys d).Nodup) : (keys (kSet d k v)).Nodup := by
  induction d with
  | nil => simp [kSet, keys]
  | cons e d ih =>
    obtain ⟨a, w⟩ := e
    simp only [keys, List.map_cons, List.nodup_cons] at h
    by_cases hk : a = k
    · subst hk
      simp only [kSet, if_true, keys, List.map_cons, List.nodup_cons]
      exact h
    · simp only [kSet, if_neg hk, keys, List.map_cons, List.nodup_cons]
      refine ⟨?_, ih h.2⟩
      intro hc
      rcases (keys_kSet d k v a).1 hc with h' | h'
      · exact h.1 h'
      · exact hk h'

theorem kGet_eq_none (d : List (OutKey × β)) (k : OutKey) : kGet d k = none ↔ k ∉ keys d := by
  induction d with
  | nil => simp [kGet, keys]
  | cons e d ih =>
    obtain ⟨a, w⟩ := e
    by_cases h : a = k
    · simp [kGet, keys, h]
    · simp only [kGet, if_neg h, ih, keys, List.map_cons, List.mem_cons, not_or]
      constructor
      · intro hh; exact ⟨fun h' => h h'.symm, hh⟩
      · intro hh; exact hh.2

theorem nodup_foldl {γ : Type*} (l : List γ) (f : γ → OutKey) (g : List (OutKey × β) → γ → β) (d : List (OutKey × β)) (h : (keys d).Nodup) :
    (keys (l.foldl (fun d e => kSet d (f e) (g d e)) d)).Nodup := by
  induction l generalizing d with
  | nil => exact h
  | cons e l ih => exact ih _ (nodup_kSet _ _ _ h)

theorem nodup_emptyOut (ret : List OutKey) : (keys (emptyOut (β := β) ret)).Nodup :=
  nodup_foldl ret (fun k => k) (fun _ _ => none) [] (by simp [keys])

theorem kGet_emptyOut (ret : List OutKey) (k : OutKey) : kGet (emptyOut (β := β) ret) k = if k ∈ ret then some none else none := by
  have gen : ∀ (ret : List OutKey) (d : List (OutKey × Option β)),
      kGet (ret.foldl (fun d k => kSet d k none) d) k = if k ∈ ret then some none else kGet d k := by
    intro ret
    induction ret with
    | nil => intro d; simp
    | cons a ret ih =>
      intro d
      rw [List.foldl_cons, ih, kGet_kSet]
      by_cases h : k ∈ ret
      · simp [h]
      · by_cases h' : a = k
        · simp [h']
        · simp [h, h', Ne.symm h']
  rw [emptyOut, gen]
  rfl

theorem acc_appendElem (out : List (OutKey × Option (List (NArr V)))) (e : List (OutKey × NArr V)) (he : (keys e).Nodup) (k : OutKey) :
    (kGet (appendElem out e) k).join = match kGet e k with
      | none => (kGet out k).join
      | some v => some ((kGet out k).join.getD [] ++ [v]) := by
  induction e generalizing out with
  | nil => simp [appendElem, kGet]
  | cons h e ih =>
    obtain ⟨a, v⟩ := h
    simp only [keys, List.map_cons, List.nodup_cons] at he
    have := ih (kSet out a (some (((kGet out a).join).getD [] ++ [v]))) he.2
    simp only [appendElem, List.foldl_cons] at this ⊢
    rw [this]
    by_cases hk : a = k
    · subst hk
      have hn : kGet e a = none := (kGet_eq_none e a).2 he.1
      simp [kGet, hn, kGet_kSet]
    · simp only [kGet, if_neg hk, kGet_kSet]

theorem nodup_appendElem (out : List (OutKey × Option (List (NArr V)))) (e : List (OutKey × NArr V)) (h : (keys out).Nodup) :
    (keys (appendElem out e)).Nodup :=
  nodup_foldl e (fun x => x.1) (fun o x => some (((kGet o x.1).join).getD [] ++ [x.2])) out h

theorem acc_elems (elems : List (List (OutKey × NArr V))) (out : List (OutKey × Option (List (NArr V)))) (he : ∀ e ∈ elems, (keys e).Nodup)
    (k : OutKey) :
    (kGet (elems.foldl appendElem out) k).join =
      if elems.filterMap (fun e => kGet e k) = [] then (kGet out k).join
      else some ((kGet out k).join.getD [] ++ elems.filterMap fun e => kGet e k) := by
  induction elems generalizing out with
  | nil => simp
  | cons e elems ih =>
    rw [List.foldl_cons, ih _ (fun e' h => he e' (List.mem_cons_of_mem _ h)), acc_appendElem _ _ (he e (List.mem_cons_self ..))]
    rw [List.filterMap_cons]
    cases h : kGet e k with
    | none => simp
    | some v =>
      simp only [Option.getD_some]
      by_cases hh : elems.filterMap (fun e => kGet e k) = []
      · simp [hh]
      · simp [hh]

theorem nodup_elems (elems : List (List (OutKey × NArr V))) (out : List (OutKey × Option (List (NArr V)))) (h : (keys out).Nodup) :
    (keys (elems.foldl appendElem out)).Nodup := by
  induction elems generalizing out with
  | nil => exact h
  | cons e elems ih => exact ih _ (nodup_appendElem _ _ h)

theorem stackOut_spec (out : List (OutKey × Option (List (NArr V)))) (r : List (OutKey × Option (UVal V))) (h : stackOut out = some r) :
    keys r = keys out ∧ ∀ k, match (kGet out k).join with
      | none => (kGet r k).join = none
      | some l => ∃ a, NArr.stack l = some a ∧ (kGet r k).join = some (.arr a) := by
  induction out generalizing r with
  | nil =>
    simp only [stackOut, Option.some.injEq] at h
    subst h
    simp [kGet, keys]
  | cons e out ih =>
    obtain ⟨a, o⟩ := e
    cases o with
    | none =>
      simp only [stackOut, Option.map_eq_some_iff] at h
      obtain ⟨r', h1, rfl⟩ := h
      obtain ⟨e1, e2⟩ := ih r' h1
      refine ⟨by simpa [keys] using e1, fun k => ?_⟩
      by_cases hk : a = k
      · simp [kGet, hk]
      · simpa [kGet, hk] using e2 k
    | some l =>
      simp only [stackOut, Option.bind_eq_some_iff, Option.map_eq_some_iff] at h
      obtain ⟨b, hb, r', h1, rfl⟩ := h
      obtain ⟨e1, e2⟩ := ih r' h1
      refine ⟨by simpa [keys] using e1, fun k => ?_⟩
      by_cases hk : a = k
      · simp [kGet, hk, hb]
      · simpa [kGet, hk] using e2 k

theorem stackOut_some (out : List (OutKey × Option (List (NArr V)))) (hn : (keys out).Nodup)
    (h : ∀ k l, (kGet out k).join = some l → (NArr.stack l).isSome) : (stackOut out).isSome := by
  induction out with
  | nil => rfl
  | cons e out ih =>
    obtain ⟨a, o⟩ := e
    simp only [keys, List.map_cons, List.nodup_cons] at hn
    have hrest : (stackOut out).isSome := by
      apply ih hn.2
      intro k l hk
      apply h k
      have : a ≠ k := by
        rintro rfl
        rw [(kGet_eq_none out a).2 hn.1] at hk
        simp at hk
      simpa [kGet, this] using hk
    obtain ⟨r, hr⟩ := Option.isSome_iff_exists.1 hrest
    cases o with
    | none => simp [stackOut, hr]
    | some l =>
      have := h a l (by simp [kGet])
      obtain ⟨b, hb⟩ := Option.isSome_iff_exists.1 this
      simp [stackOut, hr, hb]

theorem formatSet_spec (p : ProbCfg V) (N : ℕ) (out : List (OutKey × Option (UVal V))) (hn : (keys out).Nodup) (r : List (OutKey × UVal V))
    (h : formatSet p N out = some r) :
    (∀ k, k ∈ keys r → k ∈ keys out) ∧ (keys r).Nodup ∧ ∀ k, match (kGet out k).join with
      | none => kGet r k = none
      | some v => ∃ v', formatValue p N k v = some v' ∧ kGet r k = some v' := by
  induction out generalizing r with
  | nil =>
    simp only [formatSet, Option.some.injEq] at h
    subst h
    simp [kGet, keys]
  | cons e out ih =>
    obtain ⟨a, o⟩ := e
    simp only [keys, List.map_cons, List.nodup_cons] at hn
    cases o with
    | none =>
      obtain ⟨e1, e2, e3⟩ := ih hn.2 r h
      refine ⟨fun k hk => List.mem_cons_of_mem _ (e1 k hk), e2, fun k => ?_⟩
      by_cases hk : a = k
      · subst hk
        simp only [kGet, if_true, Option.join_some]
        rw [kGet_eq_none]
        exact fun hc => hn.1 (e1 a hc)
      · simpa [kGet, hk] using e3 k
    | some v =>
      simp only [formatSet, Option.bind_eq_some_iff, Option.map_eq_some_iff] at h
      obtain ⟨v', hv', r', h1, rfl⟩ := h
      obtain ⟨e1, e2, e3⟩ := ih hn.2 r' h1
      refine ⟨?_, ?_, fun k => ?_⟩
      · intro k hk
        simp only [keys, List.map_cons, List.mem_cons] at hk ⊢
        rcases hk with rfl | hk
        · exact Or.inl rfl
        · exact Or.inr (e1 k hk)
      · simp only [keys, List.map_cons, List.nodup_cons]
        exact ⟨fun hc => hn.1 (e1 a hc), e2⟩
      · by_cases hk : a = k
        · subst hk
          simp [kGet, hv']
        · simpa [kGet, hk] using e3 k

theorem formatSet_some (p : ProbCfg V) (N : ℕ) (out : List (OutKey × Option (UVal V))) (hn : (keys out).Nodup)
    (h : ∀ k v, (kGet out k).join = some v → (formatValue p N k v).isSome) : (formatSet p N out).isSome := by
  induction out with
  | nil => rfl
  | cons e out ih =>
    obtain ⟨a, o⟩ := e
    simp only [keys, List.map_cons, List.nodup_cons] at hn
    have hrest : (formatSet p N out).isSome := by
      apply ih hn.2
      intro k l hk
      apply h k
      have : a ≠ k := by
        rintro rfl
        rw [(kGet_eq_none out a).2 hn.1] at hk
        simp at hk
      simpa [kGet, this] using hk
    obtain ⟨r, hr⟩ := Option.isSome_iff_exists.1 hrest
    cases o with
    | none => simpa [formatSet] using hrest
    | some l =>
      have := h a l (by simp [kGet])
      obtain ⟨b, hb⟩ := Option.isSome_iff_exists.1 this
      simp [formatSet, hr, hb]

/-- The array of infinities for a value that was not set. -/
def missing (p : ProbCfg V) (inf : V) (N : ℕ) (k : OutKey) : NArr V :=
  ⟨(defaultShape p N k).getD [N], List.replicate ((defaultShape p N k).getD [N]).prod inf⟩

theorem formatMissing_spec (p : ProbCfg V) (inf : V) (N : ℕ) (ks : List OutKey) (r : List (OutKey × UVal V)) (hn : (keys r).Nodup) :
    (keys (formatMissing p inf N ks r)).Nodup ∧ ∀ k, kGet (formatMissing p inf N ks r) k =
      match kGet r k with
      | some v => some v
      | none => if k ∈ ks then some (.arr (missing p inf N k)) else none := by
  induction ks generalizing r with
  | nil =>
    refine ⟨hn, fun k => ?_⟩
    cases h : kGet r k <;> simp [formatMissing, h]
  | cons a ks ih =>
    cases ha : kGet r a with
    | some v =>
      simp only [formatMissing, ha]
      refine ⟨(ih r hn).1, fun k => ?_⟩
      rw [(ih r hn).2]
      cases h : kGet r k with
      | some w => rfl
      | none =>
        have : k ≠ a := by rintro rfl; rw [ha] at h; simp at h
        simp [this]
    | none =>
      simp only [formatMissing, ha]
      have hn' := nodup_kSet r a (UVal.arr ⟨(defaultShape p N a).getD [N], List.replicate ((defaultShape p N a).getD [N]).prod inf⟩) hn
      refine ⟨(ih _ hn').1, fun k => ?_⟩
      rw [(ih _ hn').2, kGet_kSet]
      by_cases hk : a = k
      · subst hk
        simp [ha, missing]
      · simp only [if_neg hk]
        cases h : kGet r k with
        | some w => rfl
        | none => simp [Ne.symm hk]

theorem finishDict_spec (p : ProbCfg V) (isNan : V → Bool) (single : Bool) (d : List (OutKey × UVal V)) (r : List (OutKey × NArr V))
    (h : finishDict p isNan single d = some r) : ∀ k, match kGet d k with
      | none => kGet r k = none
      | some v => ∃ a, finishValue p isNan single v = some a ∧ kGet r k = some a := by
  induction d generalizing r with
  | nil =>
    simp only [finishDict, Option.some.injEq] at h
    subst h
    simp [kGet]
  | cons e d ih =>
    obtain ⟨a, v⟩ := e
    simp only [finishDict, Option.bind_eq_some_iff, Option.map_eq_some_iff] at h
    obtain ⟨b, hb, r', h1, rfl⟩ := h
    intro k
    by_cases hk : a = k
    · simp [kGet, hk, hb]
    · simpa [kGet, hk] using ih r' h1 k

theorem finishDict_some (p : ProbCfg V) (isNan : V → Bool) (single : Bool) (d : List (OutKey × UVal V)) (hn : (keys d).Nodup)
    (h : ∀ k v, kGet d k = some v → (finishValue p isNan single v).isSome) : (finishDict p isNan single d).isSome := by
  induction d with
  | nil => rfl
  | cons e out ih =>
    obtain ⟨a, o⟩ := e
    simp only [keys, List.map_cons, List.nodup_cons] at hn
    have hrest : (finishDict p isNan single out).isSome := by
      apply ih hn.2
      intro k l hk
      apply h k
      have : a ≠ k := by
        rintro rfl
        rw [(kGet_eq_none out a).2 hn.1] at hk
        simp at hk
      simpa [kGet, this] using hk
    obtain ⟨r, hr⟩ := Option.isSome_iff_exists.1 hrest
    have := h a o (by simp [kGet])
    obtain ⟨b, hb⟩ := Option.isSome_iff_exists.1 this
    simp [finishDict, hr, hb]

/-- What the rest of `evaluate` does with the dictionary of the user. -/
theorem tail_spec (p : ProbCfg V) (inf : V) (isNan : V → Bool) (single : Bool) (N : ℕ) (out : List (OutKey × Option (UVal V)))
    (ret : List OutKey) (hn : (keys out).Nodup) (res : List (OutKey × NArr V))
    (h : (formatDict p inf N out ret).bind (finishDict p isNan single) = some res) (k : OutKey) :
    match (kGet out k).join with
    | some v => ∃ v', formatValue p N k v = some v' ∧ ∃ a, finishValue p isNan single v' = some a ∧ kGet res k = some a
    | none => if k ∈ ret then ∃ a, finishValue p isNan single (.arr (missing p inf N k)) = some a ∧ kGet res k = some a
      else kGet res k = none := by
  simp only [formatDict, Option.bind_eq_some_iff, Option.map_eq_some_iff] at h
  obtain ⟨d, ⟨r, hr, rfl⟩, hres⟩ := h
  obtain ⟨-, e2, e3⟩ := formatSet_spec p N out hn r hr
  have h1 := finishDict_spec p isNan single _ res hres k
  rw [(formatMissing_spec p inf N ret r e2).2] at h1
  have h3 := e3 k
  cases ho : (kGet out k).join with
  | none =>
    simp only [ho] at h3 ⊢
    simp only [h3] at h1
    by_cases hk : k ∈ ret
    · simpa [hk] using h1
    · simpa [hk] using h1
  | some v =>
    simp only [ho] at h3 ⊢
    obtain ⟨v', hv', hg⟩ := h3
    simp only [hg] at h1
    exact ⟨v', hv', h1⟩

theorem tail_some (p : ProbCfg V) (inf : V) (isNan : V → Bool) (single : Bool) (N : ℕ) (out : List (OutKey × Option (UVal V)))
    (ret : List OutKey) (hn : (keys out).Nodup)
    (h : ∀ k v, (kGet out k).join = some v → ∃ v', formatValue p N k v = some v' ∧ (finishValue p isNan single v').isSome)
    (h2 : ∀ k ∈ ret, (kGet out k).join = none → (finishValue p isNan single (.arr (missing p inf N k))).isSome) :
    ((formatDict p inf N out ret).bind (finishDict p isNan single)).isSome := by
  have hs : (formatSet p N out).isSome := formatSet_some p N out hn fun k v hv => by
    obtain ⟨v', hv', -⟩ := h k v hv; simp [hv']
  obtain ⟨r, hr⟩ := Option.isSome_iff_exists.1 hs
  obtain ⟨-, e2, e3⟩ := formatSet_spec p N out hn r hr
  simp only [formatDict, hr, Option.map_some, Option.bind_some]
  obtain ⟨m1, m2⟩ := formatMissing_spec p inf N ret r e2
  apply finishDict_some _ _ _ _ m1
  intro k v hv
  rw [m2] at hv
  have h3 := e3 k
  cases ho : (kGet out k).join with
  | none =>
    simp only [ho] at h3
    simp only [h3] at hv
    by_cases hk : k ∈ ret
    · simp only [hk, if_true, Option.some.injEq] at hv
      subst hv
      exact h2 k hk ho
    · simp [hk] at hv
  | some w =>
    simp only [ho] at h3
    obtain ⟨v', hv', hg⟩ := h3
    simp only [hg, Option.some.injEq] at hv
    subst hv
    obtain ⟨v'', hv'', hf⟩ := h k w ho
    rw [hv'] at hv''
    obtain rfl := Option.some.inj hv''
    exact hf

theorem nodup_vectorized (ret : List OutKey) (set : List (OutKey × UVal V)) : (keys (evalVectorized ret set)).Nodup :=
  nodup_foldl set (fun e => e.1) (fun _ e => some e.2) _ (nodup_emptyOut ret)

theorem kGet_vectorized (ret : List OutKey) (set : List (OutKey × UVal V)) (hs : (keys set).Nodup) (k : OutKey) :
    (kGet (evalVectorized ret set) k).join = kGet set k := by
  have gen : ∀ (set : List (OutKey × UVal V)), (keys set).Nodup → ∀ (d : List (OutKey × Option (UVal V))),
      (kGet (set.foldl (fun d e => kSet d e.1 (some e.2)) d) k).join = match kGet set k with
        | some v => some v
        | none => (kGet d k).join := by
    intro set
    induction set with
    | nil => intro _ d; simp [kGet]
    | cons e set ih =>
      intro hn d
      obtain ⟨a, v⟩ := e
      simp only [keys, List.map_cons, List.nodup_cons] at hn
      rw [List.foldl_cons, ih hn.2]
      by_cases hk : a = k
      · subst hk
        have : kGet set a = none := (kGet_eq_none set a).2 hn.1
        simp [kGet, this, kGet_kSet]
      · simp only [kGet, if_neg hk, kGet_kSet]
  rw [evalVectorized, gen set hs, kGet_emptyOut]
  cases kGet set k with
  | some v => rfl
  | none => by_cases h : k ∈ ret <;> simp [h]

end Lemmas
