import Verif.Model.Control
import Verif.Props.Mixed
import Mathlib.Tactic.Linarith

/-!
# C112: parameters under control: complete, in their domains, and attached to the offspring they were used for
-/

set_option linter.unusedSimpArgs false
set_option linter.unusedVariables false
set_option linter.unusedSectionVars false

namespace Props

open Model

section
variable {N A D : Type*} [DecidableEq N]

/-- Position `i * n + k` of blocks of length `n`. -/
theorem flatMap_block {α β : Type*} (f : α → List β) (n : ℕ) (l : List α) (hf : ∀ a ∈ l, (f a).length = n) (i k : ℕ) (hk : k < n) :
    (l.flatMap f)[i * n + k]? = l[i]?.bind fun a => (f a)[k]? := by
  induction l generalizing i with
  | nil => simp
  | cons a l ih =>
    rw [List.flatMap_cons]
    have ha := hf a (List.mem_cons_self ..)
    cases i with
    | zero =>
      simp only [Nat.zero_mul, Nat.zero_add]
      rw [List.getElem?_append_left (by omega)]
      simp
    | succ i =>
      have : (i + 1) * n + k = n + (i * n + k) := by ring
      rw [this, List.getElem?_append_right (by omega), ha, Nat.add_sub_cancel_left, ih (fun b hb => hf b (List.mem_cons_of_mem _ hb)) i]
      simp

theorem flatMap_block_length {α β : Type*} (f : α → List β) (n : ℕ) (l : List α) (hf : ∀ a ∈ l, (f a).length = n) :
    (l.flatMap f).length = l.length * n := by
  induction l with
  | nil => simp
  | cons a l ih =>
    rw [List.flatMap_cons, List.length_append, ih (fun b hb => hf b (List.mem_cons_of_mem _ hb)), hf a (List.mem_cons_self ..), List.length_cons]
    ring

/-- **C112 (what happens).** The mating never raises; the offspring number `o` of mating `k`, which stands at position
`o * matings + k`, is crossed with the parameters of mating `k`, but mutated with, and given, the parameters of mating
`(o * matings + k) / n_offsprings`. -/
theorem C112_offspring (nOff : ℕ) (cross : MixedX N A → ℕ → ℕ → D) (mutate : MixedX N A → ℕ → D → D) (rows : List (MixedX N A)) :
    ∃ off, ctlMating nOff cross mutate rows = some off ∧ off.length = nOff * rows.length ∧
      ∀ (o k : ℕ) (r : MixedX N A), o < nOff → rows[k]? = some r →
        ∃ r', rows[(o * rows.length + k) / nOff]? = some r' ∧
          off[o * rows.length + k]? = some ⟨mutate r' (o * rows.length + k) (cross r k o), r'⟩ := by
  have hX : ((List.range nOff).flatMap fun o => rows.zipIdx.map fun e => cross e.1 e.2 o).length = nOff * rows.length := by
    rw [flatMap_block_length _ rows.length _ (by simp), List.length_range]
  have hP : (rows.flatMap fun r => List.replicate nOff r).length = rows.length * nOff := by
    rw [flatMap_block_length _ nOff _ (by simp)]
  refine ⟨(((List.range nOff).flatMap fun o => rows.zipIdx.map fun e => cross e.1 e.2 o).zip
      (rows.flatMap fun r => List.replicate nOff r)).zipIdx.map fun e => ⟨mutate e.1.2 e.2 e.1.1, e.1.2⟩, ?_, ?_, ?_⟩
  · unfold ctlMating
    rw [if_pos (by rw [hX, hP, Nat.mul_comm])]
  · rw [List.length_map, List.length_zipIdx, List.length_zip, hX, hP, Nat.mul_comm, Nat.min_self]
  · intro o k r ho hk
    have hkl : k < rows.length := (List.getElem?_eq_some_iff.1 hk).1
    have hnOff : 0 < nOff := by omega
    have hlt : o * rows.length + k < rows.length * nOff := by
      have : (o + 1) * rows.length ≤ nOff * rows.length := Nat.mul_le_mul_right _ ho
      rw [Nat.mul_comm rows.length]; nlinarith
    have hdiv : (o * rows.length + k) / nOff < rows.length := by
      rw [Nat.div_lt_iff_lt_mul hnOff]; exact hlt
    refine ⟨rows[(o * rows.length + k) / nOff], List.getElem?_eq_getElem hdiv, ?_⟩
    have h1 : ((List.range nOff).flatMap fun o => rows.zipIdx.map fun e => cross e.1 e.2 o)[o * rows.length + k]? = some (cross r k o) := by
      rw [flatMap_block _ rows.length _ (by simp) o k hkl, List.getElem?_range ho]
      simp [hk, List.getElem?_map, List.getElem?_zipIdx]
    have h2 : (rows.flatMap fun r => List.replicate nOff r)[o * rows.length + k]? = some rows[(o * rows.length + k) / nOff] := by
      conv_lhs => rw [← Nat.div_add_mod' (o * rows.length + k) nOff]
      rw [flatMap_block _ nOff _ (by simp) _ _ (Nat.mod_lt _ hnOff), List.getElem?_eq_getElem hdiv]
      simp [Nat.mod_lt _ hnOff]
    have h3 : (((List.range nOff).flatMap fun o => rows.zipIdx.map fun e => cross e.1 e.2 o).zip
        (rows.flatMap fun r => List.replicate nOff r))[o * rows.length + k]? = some (cross r k o, rows[(o * rows.length + k) / nOff]) := by
      rw [List.getElem?_zip_eq_some]; exact ⟨h1, h2⟩
    rw [List.getElem?_map, List.getElem?_zipIdx, h3]
    simp

/-- The claim: offspring `o` of mating `k` carries, and is mutated with, the parameters its mating was crossed with. -/
def RightlyAttached (nOff nMat : ℕ) : Prop :=
  ∀ (rows : List (MixedX N A)), rows.length = nMat → ∀ (cross : MixedX N A → ℕ → ℕ → D) (mutate : MixedX N A → ℕ → D → D)
    (off : List (CtlOff N A D)), ctlMating nOff cross mutate rows = some off →
    ∀ (o k : ℕ) (r : MixedX N A), o < nOff → rows[k]? = some r →
      off[o * rows.length + k]? = some ⟨mutate r (o * rows.length + k) (cross r k o), r⟩

/-- **C112 (attached).** The claim holds for crossovers with one offspring per mating, and for single matings. -/
theorem C112_attached (nOff nMat : ℕ) (h : nOff ≤ 1 ∨ nMat ≤ 1) : RightlyAttached (N := N) (A := A) (D := D) nOff nMat := by
  intro rows hrows cross mutate off hoff o k r ho hk
  obtain ⟨off', h1, h2, h3⟩ := C112_offspring nOff cross mutate rows
  rw [h1] at hoff
  obtain rfl := Option.some.inj hoff
  obtain ⟨r', hr', h4⟩ := h3 o k r ho hk
  have hkl : k < rows.length := (List.getElem?_eq_some_iff.1 hk).1
  have hidx : (o * rows.length + k) / nOff = k := by
    rcases h with h | h
    · have h1 : nOff = 1 := by omega
      have h0 : o = 0 := by omega
      subst h1 h0; simp
    · have h1 : rows.length = 1 := by omega
      have h0 : k = 0 := by omega
      subst h0
      rw [h1]; simp [Nat.div_eq_of_lt ho]
  rw [hidx, hk] at hr'
  obtain rfl := Option.some.inj hr'
  exact h4

/-- **C112 (attached, refuted).** With two or more offspring per mating (every crossover used in genetic algorithms) and two or more
matings the claim is false: whenever the first two matings have different parameters, the first offspring of the second mating carries,
and is mutated with, the parameters of the first. -/
theorem C112_attached_refuted (nOff : ℕ) (cross : MixedX N A → ℕ → ℕ → D) (mutate : MixedX N A → ℕ → D → D) (rows : List (MixedX N A)) (hO : 2 ≤ nOff)
    (r₀ r₁ : MixedX N A) (h0 : rows[0]? = some r₀) (h1 : rows[1]? = some r₁) (hne : r₀ ≠ r₁) :
    ∃ off e, ctlMating nOff cross mutate rows = some off ∧ off[1]? = some e ∧ e = ⟨mutate r₀ 1 (cross r₁ 1 0), r₀⟩ ∧ e.params ≠ r₁ := by
  obtain ⟨off, h2, -, h3⟩ := C112_offspring nOff cross mutate rows
  obtain ⟨r', hr', h4⟩ := h3 0 1 r₁ (by omega) h1
  have : (0 * rows.length + 1) / nOff = 0 := Nat.div_eq_of_lt (by omega)
  rw [this, h0] at hr'
  obtain rfl := Option.some.inj hr'
  refine ⟨off, _, h2, by simpa using h4, by simp, by simpa using hne⟩

/-- **C112 (attached, exactly).** -/
theorem C112_attached_iff [Nonempty N] [Nontrivial A] [Nonempty D] (nOff nMat : ℕ) :
    RightlyAttached (N := N) (A := A) (D := D) nOff nMat ↔ nOff ≤ 1 ∨ nMat ≤ 1 := by
  refine ⟨fun h => ?_, C112_attached nOff nMat⟩
  by_contra hcon
  push Not at hcon
  obtain ⟨a, b, hab⟩ := exists_pair_ne A
  obtain ⟨n⟩ := ‹Nonempty N›
  obtain ⟨d⟩ := ‹Nonempty D›
  let rows : List (MixedX N A) := [(n, a)] :: List.replicate (nMat - 1) [(n, b)]
  have h0 : rows[0]? = some [(n, a)] := rfl
  have h1 : rows[1]? = some [(n, b)] := by
    show (List.replicate (nMat - 1) [(n, b)])[0]? = _
    rw [List.getElem?_replicate, if_pos (by omega)]
  have hlen : rows.length = nMat := by simp [rows]; omega
  obtain ⟨off, e, h2, h3, h4, h5⟩ := C112_attached_refuted nOff (fun _ _ _ => d) (fun _ _ _ => d) rows (by omega) _ _ h0 h1 (by simp [hab])
  have := h rows hlen _ _ off h2 0 1 _ (by omega) h1
  simp only [Nat.zero_mul, Nat.zero_add] at this
  rw [this] at h3
  obtain rfl := Option.some.inj h3
  exact h5 rfl

/-- **C112 (attached, DE and EPPSO).** Every offspring carries the parameters it was created with. -/
theorem C112_direct (create : MixedX N A → ℕ → D) (rows : List (MixedX N A)) :
    (ctlDirect create rows).length = rows.length ∧
    ∀ (k : ℕ) (r : MixedX N A), rows[k]? = some r → (ctlDirect create rows)[k]? = some ⟨create r k, r⟩ := by
  refine ⟨by simp [ctlDirect], fun k r h => ?_⟩
  simp [ctlDirect, List.getElem?_map, List.getElem?_zipIdx, h]

/-! ### what the control proposes -/

theorem mGet_fill (names : List N) (s : N → A) (d : MixedX N A) (k : N) :
    mGet (names.foldl (fun (d : MixedX N A) k => if (mGet d k).isNone then mSet d k (s k) else d) d) k =
      if (mGet d k).isNone ∧ k ∈ names then some (s k) else mGet d k := by
  induction names generalizing d with
  | nil => simp
  | cons a names ih =>
    rw [List.foldl_cons, ih]
    by_cases ha : (mGet d a).isNone
    · rw [if_pos ha]
      by_cases hk : a = k
      · subst hk
        simp [mGet_mSet, ha]
      · simp [mGet_mSet, hk, Ne.symm hk]
    · rw [if_neg ha]
      by_cases hk : a = k
      · subst hk
        simp [ha]
      · simp [Ne.symm hk]

/-- Values that are missing are sampled, existing values are kept. -/
theorem ctlFill_get (names : List N) (sample : N → ℕ → A) (pop : List (MixedX N A)) (i : ℕ) (d' : MixedX N A)
    (h : (ctlFill names sample pop)[i]? = some d') :
    ∃ d, pop[i]? = some d ∧ ∀ k, mGet d' k = if (mGet d k).isNone ∧ k ∈ names then some (sample k i) else mGet d k := by
  unfold ctlFill at h
  rw [List.getElem?_map, List.getElem?_zipIdx] at h
  cases hp : pop[i]? with
  | none => rw [hp] at h; simp at h
  | some d =>
    rw [hp] at h
    simp only [Option.map_some, Nat.zero_add, Option.some.injEq] at h
    subst h
    exact ⟨d, rfl, fun k => mGet_fill names _ d k⟩

/-- All values of `d` are in the domains. -/
def InDomains (Dom : N → A → Prop) (d : MixedX N A) : Prop := ∀ k a, mGet d k = some a → Dom k a

/-- The operators return one value per variable, and values in the domains for values in the domains (for SBX, PM, UX, bit flips and
the random choice this is C24, C52–C58). -/
structure KeepsDomains (Dom : N → A → Prop) (vars : List (N × VarClass)) (op : VarClass → List N → List (List (List A)) → Option (List (List A))) : Prop where
  length : ∀ c names P res, op c names P = some res → ∀ r ∈ res, r.length = names.length
  domain : ∀ c names P res, (c, names) ∈ recombGroups vars → op c names P = some res →
      (∀ ps ∈ P, ∀ p ∈ ps, List.Forall₂ Dom names p) → ∀ r ∈ res, List.Forall₂ Dom names r

theorem mGet_mem (d : MixedX N A) (k : N) (a : A) (h : mGet d k = some a) : (k, a) ∈ d := by
  induction d with
  | nil => simp [mGet] at h
  | cons e d ih =>
    obtain ⟨k', v⟩ := e
    by_cases hk : k' = k
    · subst hk
      simp only [mGet, if_true, Option.some.injEq] at h
      subst h
      exact List.mem_cons_self ..
    · simp only [mGet, if_neg hk] at h
      exact List.mem_cons_of_mem _ (ih h)

theorem ctlParent_get (names : List N) (d p : MixedX N A) (h : ctlParent names d = some p) (k : N) (a : A) (hk : mGet p k = some a) : mGet d k = some a := by
  have hF := mapM_forall _ _ _ h
  obtain ⟨b, -, hb2⟩ := forall_right _ _ _ hF (k, a) (mGet_mem p k a hk)
  obtain ⟨v, hv, he⟩ := Option.map_eq_some_iff.1 hb2
  have h1 : b = k := congrArg Prod.fst he
  have h2 : v = a := congrArg Prod.snd he
  subst h1 h2
  exact hv

/-- **C112 (complete and in the domains, one generation).** Whatever the parents, the control proposes exactly `n` rows, each with one
value for exactly the parameters under control, all in their domains, if the values of the population and the sampled ones are; the
population keeps the values it had. -/
theorem C112_rows (Dom : N → A → Prop) (vars : List (N × VarClass)) (op : VarClass → List N → List (List (List A)) → Option (List (List A)))
    (hop : KeepsDomains Dom vars op) (hvars : (vars.map Prod.fst).Nodup) (sample fresh : N → ℕ → A) (hs : ∀ k i, Dom k (sample k i)) (hf : ∀ k i, Dom k (fresh k i))
    (par : List (List ℕ)) (n : ℕ) (pop pop' rows : List (MixedX N A)) (hpop : ∀ d ∈ pop, InDomains Dom d) (kind : CtlKind) (hk : kind = .no → vars = [])
    (h : ctlDo op vars sample fresh par n pop kind = some (pop', rows)) :
    rows.length = n ∧
    (∀ r ∈ rows, (r.map Prod.fst).Perm (vars.map Prod.fst) ∧ ∀ v ∈ vars, ∃ a, mGet r v.1 = some a ∧ Dom v.1 a) ∧
    (∀ d ∈ pop', InDomains Dom d) ∧ pop'.length = pop.length ∧
    ∀ (i : ℕ) (d : MixedX N A), pop[i]? = some d → ∃ d', pop'[i]? = some d' ∧ ∀ k a, mGet d k = some a → mGet d' k = some a := by
  cases kind with
  | no =>
    rw [hk rfl]
    simp only [ctlDo, Option.some.injEq, Prod.mk.injEq] at h
    obtain ⟨rfl, rfl⟩ := h
    refine ⟨by simp, ?_, hpop, rfl, fun i d hd => ⟨d, hd, fun _ _ h => h⟩⟩
    intro r hr
    rw [List.mem_replicate] at hr
    rw [hr.2]; simp
  | random =>
    simp only [ctlDo] at h
    obtain ⟨X, hX, he⟩ := Option.map_eq_some_iff.1 h
    simp only [Prod.mk.injEq] at he
    obtain ⟨rfl, rfl⟩ := he
    obtain ⟨X', hX', h1, h2⟩ := C58_sampling vars hvars (fun k => (List.range n).map (fresh k)) n (by simp)
    rw [hX] at hX'
    obtain rfl := Option.some.inj hX'
    refine ⟨h1, ?_, hpop, rfl, fun i d hd => ⟨d, hd, fun _ _ h => h⟩⟩
    intro r hr
    obtain ⟨k, hk⟩ := List.mem_iff_getElem?.1 hr
    obtain ⟨h3, h4⟩ := h2 k r hk
    refine ⟨List.Perm.of_eq h3, fun v hv => ?_⟩
    have hkn : k < n := by rw [← h1]; exact (List.getElem?_eq_some_iff.1 hk).1
    refine ⟨fresh v.1 k, ?_, hf _ _⟩
    rw [h4 v hv, List.getElem?_map, List.getElem?_range hkn]
    rfl
  | evolutionary =>
    simp only [ctlDo] at h
    obtain ⟨parents, hpar, h⟩ := Option.bind_eq_some_iff.1 h
    obtain ⟨off, hoff, he⟩ := Option.map_eq_some_iff.1 h
    simp only [Prod.mk.injEq] at he
    obtain ⟨rfl, rfl⟩ := he
    obtain ⟨h1, h2, -⟩ := C58_offspring op vars parents n hvars hop.length off hoff
    have hdom' : ∀ d' ∈ ctlFill (vars.map Prod.fst) sample pop, InDomains Dom d' := by
      intro d' hd'
      obtain ⟨i, hi⟩ := List.mem_iff_getElem?.1 hd'
      obtain ⟨d, hd, hg⟩ := ctlFill_get _ _ _ i d' hi
      intro k a hka
      rw [hg k] at hka
      split_ifs at hka with hc
      · obtain rfl := Option.some.inj hka
        exact hs k i
      · exact hpop d (List.mem_of_getElem? hd) k a hka
    have h3 := C58_domains op vars parents n hvars Dom hop.length hop.domain (by
      intro ps hps p hp name a hna
      obtain ⟨m, hm, hm'⟩ := forall_right _ _ _ (mapM_forall _ _ _ hpar) ps hps
      obtain ⟨i, hi, hi'⟩ := forall_right _ _ _ (mapM_forall _ _ _ hm') p hp
      obtain ⟨d, hd, hdp⟩ := Option.bind_eq_some_iff.1 hi'
      exact hdom' d (List.mem_of_getElem? hd) name a (ctlParent_get _ _ _ hdp name a hna)) off hoff
    refine ⟨h1, fun r hr => ⟨h2 r hr, fun v hv => h3 r hr v hv⟩, hdom', by simp [ctlFill], ?_⟩
    intro i d hd
    have hlen : i < (ctlFill (vars.map Prod.fst) sample pop).length := by
      simp [ctlFill]; exact (List.getElem?_eq_some_iff.1 hd).1
    refine ⟨_, List.getElem?_eq_getElem hlen, ?_⟩
    obtain ⟨d0, hd0, hg⟩ := ctlFill_get _ _ _ i _ (List.getElem?_eq_getElem hlen)
    rw [hd] at hd0
    obtain rfl := Option.some.inj hd0
    intro k a hka
    rw [hg k, hka]
    simp

theorem mGet_isSome_mem (d : MixedX N A) (k : N) (a : A) (h : mGet d k = some a) : k ∈ d.map Prod.fst :=
  List.mem_map.2 ⟨(k, a), mGet_mem d k a h, rfl⟩

/-- **C112 (in the domains, always).** Over any number of generations, whatever is selected and survives, every parameter value ever used
is in its domain: individuals without values (the first population) are no exception. -/
theorem C112_domain (Dom : N → A → Prop) (vars : List (N × VarClass)) (op : VarClass → List N → List (List (List A)) → Option (List (List A)))
    (hop : KeepsDomains Dom vars op) (hvars : (vars.map Prod.fst).Nodup) (kind : CtlKind) (hk : kind = .no → vars = [])
    (attach : List (MixedX N A) → List (MixedX N A)) (hatt : ∀ rows, ∀ r ∈ attach rows, r ∈ rows)
    (gens : List ((N → ℕ → A) × (N → ℕ → A) × List (List ℕ) × ℕ × List ℕ))
    (hg : ∀ g ∈ gens, (∀ k i, Dom k (g.1 k i)) ∧ ∀ k i, Dom k (g.2.1 k i))
    (pop pop' rows : List (MixedX N A)) (hpop : ∀ d ∈ pop, InDomains Dom d) (h : ctlRun op vars kind attach pop gens = some (pop', rows)) :
    ∀ r ∈ rows, ∀ v ∈ vars, ∃ a, mGet r v.1 = some a ∧ Dom v.1 a := by
  induction gens generalizing pop rows with
  | nil =>
    simp only [ctlRun, Option.some.injEq, Prod.mk.injEq] at h
    obtain ⟨-, rfl⟩ := h
    simp
  | cons g gens ih =>
    rw [ctlRun] at h
    obtain ⟨pr, hpr, h⟩ := Option.bind_eq_some_iff.1 h
    obtain ⟨next, hnext, h⟩ := Option.bind_eq_some_iff.1 h
    obtain ⟨r, hr, he⟩ := Option.map_eq_some_iff.1 h
    simp only [Prod.mk.injEq] at he
    obtain ⟨h1, h2, h3, -, -⟩ := C112_rows Dom vars op hop hvars g.1 g.2.1 (hg g (List.mem_cons_self ..)).1 (hg g (List.mem_cons_self ..)).2 g.2.2.1
      g.2.2.2.1 pop pr.1 pr.2 hpop kind hk hpr
    have hin : ∀ d ∈ next, InDomains Dom d := by
      intro d hd
      obtain ⟨i, -, hi⟩ := forall_right _ _ _ (mapM_forall _ _ _ hnext) d hd
      rcases List.mem_append.1 (List.mem_of_getElem? hi) with hd | hd
      · exact h3 d hd
      · obtain ⟨hp, hv⟩ := h2 d (hatt _ d hd)
        intro k a hka
        obtain ⟨v, hv', rfl⟩ := List.mem_map.1 (hp.mem_iff.1 (mGet_isSome_mem d k a hka))
        obtain ⟨b, hb, hb'⟩ := hv v hv'
        rw [hka] at hb
        obtain rfl := Option.some.inj hb
        exact hb'
    have hrec := ih (fun g' hg' => hg g' (List.mem_cons_of_mem _ hg')) next r.2 hin (by rw [hr, ← he.1])
    rw [← he.2]
    intro x hx
    rcases List.mem_append.1 hx with hx | hx
    · exact (h2 x hx).2
    · exact hrec x hx

/-- **C112 (selection of parameters).** In a tournament between two individuals the one created later wins; equally old ones are drawn. -/
theorem C112_age (gen : ℕ → ℕ) (a b : ℕ) (coin : Bool) :
    ∃ w, ageTournament gen a b coin = some w ∧ (w = a ∨ w = b) ∧ gen a ≤ gen w ∧ gen b ≤ gen w ∧
      (gen a = gen b → w = if coin then a else b) := by
  unfold ageTournament compareInd
  dsimp only
  by_cases h1 : gen b < gen a
  · rw [if_pos h1]
    exact ⟨a, rfl, .inl rfl, le_rfl, h1.le, fun h => by omega⟩
  · rw [if_neg h1]
    by_cases h2 : gen a < gen b
    · rw [if_pos h2]
      exact ⟨b, rfl, .inr rfl, h2.le, le_rfl, fun h => by omega⟩
    · rw [if_neg h2]
      cases coin
      · exact ⟨b, rfl, .inr rfl, by omega, le_rfl, fun _ => rfl⟩
      · exact ⟨a, rfl, .inl rfl, le_rfl, by omega, fun _ => rfl⟩

/-- **C112 (seed, EPPSO).** What the control draws is determined by the generator of the algorithm, hence by the seed. -/
theorem C112_seed {G R : Type*} (draw : G → R) (rng e e' : G) : draw (ctlRng .swarm rng e) = draw (ctlRng .swarm rng e') := rfl

/-- **C112 (seed, refuted).** In differential evolution with parameter control and in `ParameterControlMating` the draws do not depend on the seed
at all but only on the entropy of the system: if any two generators draw differently, two runs with the same seed can. -/
theorem C112_seed_refuted {G R : Type*} (draw : G → R) (c : CtlCaller) (hc : c = .variant ∨ c = .mating) :
    (∀ rng rng' e, draw (ctlRng c rng e) = draw (ctlRng c rng' e)) ∧
    ∀ g g', draw g ≠ draw g' → ∀ rng, ∃ e e', draw (ctlRng c rng e) ≠ draw (ctlRng c rng e') := by
  rcases hc with rfl | rfl
  · exact ⟨fun _ _ _ => rfl, fun g g' h rng => ⟨g, g', h⟩⟩
  · exact ⟨fun _ _ _ => rfl, fun g g' h rng => ⟨g, g', h⟩⟩

end

/-! ### examples -/

/-- Two matings with `prob` 5 and 7, two offspring each: the first offspring of the second mating is crossed with 7 and mutated with 5. -/
example : ctlMating (N := Char) (A := ℕ) (D := List ℕ) 2 (fun r _ _ => (mGet r 'p').toList) (fun r _ x => x ++ (mGet r 'p').toList) [[('p', 5)], [('p', 7)]] =
    some [⟨[5, 5], [('p', 5)]⟩, ⟨[7, 5], [('p', 5)]⟩, ⟨[5, 7], [('p', 7)]⟩, ⟨[7, 7], [('p', 7)]⟩] := by decide

/-- An operator that takes the values of the first parent. -/
def exCtlOp : VarClass → List Char → List (List (List ℕ)) → Option (List (List ℕ)) := fun _ names P =>
  some (P.map fun ps => if (ps.headD []).length = names.length then ps.headD [] else names.map fun _ => 0)

example : KeepsDomains (fun _ a => a ≤ 9) [('F', .real), ('v', .choice)] exCtlOp := by
  refine ⟨?_, ?_⟩
  · intro c names P res h r hr
    simp only [exCtlOp, Option.some.injEq] at h
    subst h
    obtain ⟨ps, -, rfl⟩ := List.mem_map.1 hr
    split_ifs with h
    · exact h
    · simp
  · intro c names P res hm h hP r hr
    clear hm
    simp only [exCtlOp, Option.some.injEq] at h
    subst h
    obtain ⟨ps, hps, rfl⟩ := List.mem_map.1 hr
    split_ifs with h
    · cases ps with
      | nil =>
        obtain rfl : names = [] := by simpa using h.symm
        simp
      | cons p ps => exact hP _ hps p (List.mem_cons_self ..)
    · clear h hP hps hr
      induction names with
      | nil => simp
      | cons a names ih => exact List.Forall₂.cons (Nat.zero_le 9) ih

/-- Two generations of evolved parameters: the first population has no values. -/
example : (ctlRun exCtlOp [('F', .real), ('v', .choice)] .evolutionary id [[], []]
    [(fun _ i => 3 + i, fun _ _ => 0, [[0, 1], [1, 0]], 2, [1, 2]), (fun _ i => 8, fun _ _ => 0, [[1, 0]], 1, [0, 2])]).map Prod.snd =
    some [[('F', 3), ('v', 3)], [('F', 4), ('v', 4)], [('F', 3), ('v', 3)]] := by decide

end Props
