import Verif.Model.CTAEA
import Verif.Spec.Fronts
import Verif.Props.NonDominatedSorting
import Mathlib.Algebra.Order.Ring.Defs

/-! # Lemmas: sorting a list of individuals -/

set_option linter.unusedSimpArgs false
set_option linter.unusedVariables false

namespace Lemmas
open Model Spec

variable {ι κ : Type*}

theorem flatten_map_map (g : ι → κ) (L : List (List ι)) : (L.map fun f => f.map g).flatten = L.flatten.map g := by
  induction L with
  | nil => rfl
  | cons f L ih => rw [List.map_cons, List.flatten_cons, ih, List.flatten_cons, List.map_append]

/-- A shortest prefix stays one when the individuals are renamed. -/
theorem shortestPrefix_map {k : ℕ} {all res : List (List ι)} (g : ι → κ) (h : ShortestPrefix k all res) :
    ShortestPrefix k (all.map fun f => f.map g) (res.map fun f => f.map g) where
  isPrefix := by
    obtain ⟨t, ht⟩ := h.isPrefix
    exact ⟨t.map fun f => f.map g, by rw [← ht, List.map_append]⟩
  enough := by
    rcases h.enough with h1 | h1
    · left; rw [flatten_map_map, List.length_map]; exact h1
    · right; rw [h1]
  minimal := by
    intro p hp hp0 hl
    have he : p = (all.take p.length).map fun f => f.map g := by
      rw [List.map_take]; exact List.prefix_iff_eq_take.1 hp
    have hpl : p.length ≤ all.length := by simpa using hp.length_le
    have := h.minimal (all.take p.length) (List.take_prefix _ _)
      (by intro h0; rw [he, h0] at hp0; exact hp0 rfl) (by rw [List.length_take, Nat.min_eq_left hpl]; simpa using hl)
    rw [he, flatten_map_map, List.length_map]
    exact this
  nonempty := by
    intro h1 h2
    exact h.nonempty (by rintro rfl; exact h1 rfl) (by simpa using h2)

theorem split_of_prefix {all fronts : List (List ι)} {n : ℕ} (hn : n ≤ all.flatten.length) (hall : all ≠ [])
    (hfr : ShortestPrefix n all fronts) :
    ∃ p last rest, fronts = p ++ [last] ∧ all = p ++ last :: rest ∧ p.flatten.length ≤ n ∧ n ≤ p.flatten.length + last.length ∧
      (p ≠ [] → p.flatten.length < n) := by
  rcases List.eq_nil_or_concat fronts with h0 | ⟨p, f, hpf⟩
  · exact absurd h0 (hfr.nonempty hall)
  rw [List.concat_eq_append] at hpf
  obtain ⟨t, ht⟩ := hfr.isPrefix
  have hsm : p ≠ [] → p.flatten.length < n := fun hp =>
    hfr.minimal p ⟨[f] ++ t, by rw [← ht, hpf]; simp⟩ hp (by rw [hpf]; simp)
  refine ⟨p, f, t, hpf, by rw [← ht, hpf]; simp, ?_, ?_, hsm⟩
  · by_cases hp : p = []
    · simp [hp]
    · exact (hsm hp).le
  · rcases hfr.enough with h | h
    · rw [hpf] at h; simpa using h
    · rw [← h, hpf] at hn
      simpa using hn

/-- Fronts of positions become fronts of the individuals. -/
theorem frontsOf_get {dom : ι → ι → Prop} {L : List ι} (hnd : L.Nodup) {all : List (List (Fin L.length))}
    (h : CanonicalFronts (fun i j => dom (L.get i) (L.get j)) all) : FrontsOf dom L (all.map fun f => f.map L.get) where
  perm := by
    rw [flatten_map_map]
    have h1 : all.flatten.Perm (List.finRange L.length) := by
      rw [List.perm_ext_iff_of_nodup h.nodup (List.nodup_finRange _)]
      intro i; simp [h.complete i]
    have := h1.map L.get
    rwa [List.map_get_finRange] at this
  nonempty := by
    intro f hf
    obtain ⟨f', h1, rfl⟩ := List.mem_map.1 hf
    simpa using h.nonempty f' h1
  level := by
    intro k hk x
    rw [List.length_map] at hk
    have hinj := List.nodup_iff_injective_get.1 hnd
    have hflat : ∀ i : Fin L.length, L.get i ∈ ((all.map fun f => f.map L.get).take k).flatten ↔ i ∈ (all.take k).flatten := by
      intro i
      rw [← List.map_take, flatten_map_map]
      exact List.mem_map_of_injective hinj
    rw [List.getElem_map]
    constructor
    · intro hx
      obtain ⟨i, hi, rfl⟩ := List.mem_map.1 hx
      obtain ⟨a, b⟩ := (h.level k hk i).1 hi
      refine ⟨L.get_mem i, by rw [hflat]; exact a, ?_⟩
      intro y hy hd
      obtain ⟨j, rfl⟩ := List.get_of_mem hy
      rw [hflat]
      exact b j hd
    · rintro ⟨h1, h2, h3⟩
      obtain ⟨i, rfl⟩ := List.get_of_mem h1
      refine List.mem_map_of_mem ((h.level k hk i).2 ⟨by rwa [hflat] at h2, fun j hd => ?_⟩)
      have := h3 (L.get j) (L.get_mem j) hd
      rwa [hflat] at this

variable {K : Type*} {m : ℕ} [Field K] [LinearOrder K] [IsStrictOrderedRing K]

/-- What `NonDominatedSorting().do` returns for a list of individuals. -/
theorem ndsList_spec (paretoRank : ∀ n, (Fin n → Fin m → K) → Fin n → ℕ)
    (hpr : ∀ n F, IsParetoRank (fun i j => Dominates (F i) (F j)) (paretoRank n F)) (F : ι → Fin m → K) (L : List ι) (hnd : L.Nodup) (stop : Option ℕ) :
    ∃ all res, FrontsOf (fun x y => Dominates (F x) (F y)) L all ∧ ndsList paretoRank F L none stop = some res ∧
      (stop = none → res = all) ∧ (∀ k, stop = some k → ShortestPrefix k all res) := by
  obtain ⟨all, res, -, h1, h2, h3, h4⟩ := Props.C10_native (paretoRank L.length) (hpr L.length) none 0 (fun i => F (L.get i)) none stop
  refine ⟨_, _, frontsOf_get (dom := fun x y => Dominates (F x) (F y)) hnd h1, by rw [ndsList, h2]; rfl, ?_, ?_⟩
  · intro hs; rw [h3 hs]; rfl
  · intro k hk
    exact shortestPrefix_map L.get (h4 k hk)

/-- The first front: the individuals that nothing in the list dominates. -/
theorem frontsOf_first {dom : ι → ι → Prop} {L : List ι} {all : List (List ι)} (h : FrontsOf dom L all) (hL : L ≠ []) :
    ∃ f rest, all = f :: rest ∧ ∀ x, x ∈ f ↔ x ∈ L ∧ ∀ y ∈ L, ¬ dom y x := by
  cases all with
  | nil => have := h.perm; simp at this; exact absurd this (by simpa using hL)
  | cons f rest =>
    refine ⟨f, rest, rfl, fun x => ?_⟩
    have := h.level 0 (by simp) x
    simpa using this

/-- Fronts listed in order: a dominator comes in a strictly earlier front. -/
theorem frontsOf_prefix_closed {dom : ι → ι → Prop} {L : List ι} {p rest : List (List ι)} {last : List ι} (h : FrontsOf dom L (p ++ last :: rest)) :
    ∀ x ∈ p.flatten ++ last, ∀ y ∈ L, dom y x → y ∈ p.flatten := by
  intro x hx y hy hd
  have key : ∀ k (hk : k < (p ++ last :: rest).length), k ≤ p.length → x ∈ (p ++ last :: rest)[k] → y ∈ p.flatten := by
    intro k hk hkp hxk
    have := ((h.level k hk x).1 hxk).2.2 y hy hd
    rw [List.take_append_of_le_length hkp] at this
    obtain ⟨f, hf, hyf⟩ := List.mem_flatten.1 this
    exact List.mem_flatten.2 ⟨f, List.mem_of_mem_take hf, hyf⟩
  rcases List.mem_append.1 hx with h1 | h1
  · obtain ⟨f, hf, hxf⟩ := List.mem_flatten.1 h1
    obtain ⟨k, hk, rfl⟩ := List.getElem_of_mem hf
    exact key k (by simp; omega) hk.le (by rw [List.getElem_append_left hk]; exact hxf)
  · exact key p.length (by simp) le_rfl (by rw [List.getElem_append_right le_rfl]; simpa using h1)

end Lemmas
