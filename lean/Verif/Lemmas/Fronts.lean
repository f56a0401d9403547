import Verif.Spec.Pareto
import Mathlib.Data.Fintype.Card
import Mathlib.Data.Finset.Card
import Mathlib.Order.WellFounded
import Mathlib.Data.List.Perm.Basic
import Mathlib.Data.List.Perm.Subperm
import Mathlib.Data.List.Flatten
import Mathlib.Data.Finite.Defs
import Mathlib.Data.Fintype.EquivFin
import Mathlib.Tactic.Common

/-! # General facts about canonical fronts -/

namespace Lemmas
open Spec
variable {ι : Type*}

theorem mem_take_flatten {fronts : List (List ι)} {k : ℕ} {i : ι} :
    i ∈ (fronts.take k).flatten ↔ ∃ l, ∃ h : l < fronts.length, l < k ∧ i ∈ fronts[l] := by
  rw [List.mem_flatten]
  constructor
  · rintro ⟨f, hf, hi⟩
    obtain ⟨l, hl, rfl⟩ := List.mem_iff_getElem.1 hf
    rw [List.length_take] at hl
    rw [List.getElem_take] at hi
    exact ⟨l, by omega, by omega, hi⟩
  · rintro ⟨l, h, hk, hi⟩
    refine ⟨fronts[l], ?_, hi⟩
    rw [List.mem_iff_getElem]
    exact ⟨l, by rw [List.length_take]; omega, by rw [List.getElem_take]⟩

theorem StrictPO.exists_minimal [Finite ι] {dom : ι → ι → Prop} (h : StrictPO dom) (s : Set ι)
    (hs : s.Nonempty) : ∃ i ∈ s, ∀ j ∈ s, ¬ dom j i := by
  have : IsTrans ι dom := ⟨fun a b c => h.trans a b c⟩
  have : Std.Irrefl dom := ⟨h.irrefl⟩
  have wf : WellFounded dom := Finite.wellFounded_of_trans_of_irrefl dom
  obtain ⟨i, hi, hmin⟩ := wf.has_min s hs
  exact ⟨i, hi, fun j hj => hmin j hj⟩

/-- Canonical fronts are unique up to the order inside each front. -/
theorem canonical_unique {dom : ι → ι → Prop} {f g : List (List ι)} (hf : CanonicalFronts dom f)
    (hg : CanonicalFronts dom g) : f.length = g.length ∧
    ∀ k (h1 : k < f.length) (h2 : k < g.length), (f[k]).Perm g[k] := by
  have nodupf : ∀ {f : List (List ι)}, CanonicalFronts dom f → ∀ k (h : k < f.length), (f[k]).Nodup :=
    fun hf k h => (List.nodup_flatten.1 hf.nodup).1 _ (List.getElem_mem h)
  -- the prefixes have the same members
  have key : ∀ k, k ≤ f.length → k ≤ g.length →
      ∀ i, i ∈ (f.take k).flatten ↔ i ∈ (g.take k).flatten := by
    intro k
    induction k with
    | zero => simp
    | succ k ih =>
      intro h1 h2 i
      have ih := ih (by omega) (by omega)
      rw [List.take_succ_eq_append_getElem (by omega), List.take_succ_eq_append_getElem (by omega)]
      simp only [List.flatten_append, List.mem_append, List.flatten_cons, List.flatten_nil, List.append_nil]
      rw [hf.level k (by omega), hg.level k (by omega)]
      simp only [ih]
  have len : ∀ {f g : List (List ι)}, CanonicalFronts dom f → CanonicalFronts dom g →
      (∀ k, k ≤ f.length → k ≤ g.length → ∀ i, i ∈ (f.take k).flatten ↔ i ∈ (g.take k).flatten) →
      ¬ f.length < g.length := by
    intro f g hf hg key h
    have h0 := key f.length (le_refl _) (by omega)
    have hne := hg.nonempty g[f.length] (List.getElem_mem h)
    obtain ⟨i, hi⟩ := List.exists_mem_of_ne_nil _ hne
    have := ((hg.level _ h i).1 hi).1
    rw [← h0 i] at this
    apply this
    rw [List.take_length]
    exact hf.complete i
  have hl : f.length = g.length := by
    have h1 := len hf hg key
    have h2 := len hg hf (fun k a b i => (key k b a i).symm)
    omega
  refine ⟨hl, fun k h1 h2 => ?_⟩
  rw [List.perm_ext_iff_of_nodup (nodupf hf k h1) (nodupf hg k h2)]
  intro i
  rw [hf.level k h1, hg.level k h2]
  simp only [key k h1.le h2.le]

/-- Consequences of canonicity in terms of dominance between fronts. -/
theorem canonical_dom_lt {dom : ι → ι → Prop} {f : List (List ι)} (hf : CanonicalFronts dom f)
    {k l : ℕ} (hk : k < f.length) (hl : l < f.length) {i j : ι} (hi : i ∈ f[k]) (hj : j ∈ f[l])
    (hd : dom j i) : l < k := by
  have := ((hf.level k hk i).1 hi).2 j hd
  obtain ⟨l', hl', hlt, hj'⟩ := mem_take_flatten.1 this
  by_contra hcon
  have h1 := ((hf.level l hl j).1 hj).1
  apply h1
  rw [mem_take_flatten]
  exact ⟨l', hl', by omega, hj'⟩

theorem canonical_pred {dom : ι → ι → Prop} {f : List (List ι)} (hf : CanonicalFronts dom f)
    {k : ℕ} (hk : k + 1 < f.length) {i : ι} (hi : i ∈ f[k + 1]) :
    ∃ j ∈ f[k], dom j i := by
  by_contra hcon
  have hcon : ∀ j ∈ f[k], ¬ dom j i := fun j hj hd => hcon ⟨j, hj, hd⟩
  obtain ⟨h1, h2⟩ := (hf.level _ hk i).1 hi
  rw [List.take_succ_eq_append_getElem (by omega)] at h1 h2
  simp only [List.flatten_append, List.mem_append, List.flatten_cons, List.flatten_nil, List.append_nil,
    not_or] at h1 h2
  apply h1.2
  rw [hf.level k (by omega)]
  refine ⟨h1.1, fun j hd => ?_⟩
  rcases h2 j hd with h | h
  · exact h
  · exact absurd hd (hcon j h)

end Lemmas
