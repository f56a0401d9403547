import Verif.Lemmas.ENS

/-! Fronts obtained by repeatedly removing the non-dominated points. -/

namespace Lemmas
open Spec
variable {ι : Type*}

/-- `fronts` is obtained from the set `S` by repeatedly taking out the non-dominated points. -/
inductive PeelFrom (dom : ι → ι → Prop) : (ι → Prop) → List (List ι) → Prop
  | nil {S} (h : ∀ i, ¬ S i) : PeelFrom dom S []
  | cons {S T front fs} (hne : front ≠ []) (hnd : front.Nodup)
      (hf : ∀ i, i ∈ front ↔ S i ∧ ∀ j, S j → ¬ dom j i)
      (hT : ∀ i, T i ↔ S i ∧ i ∉ front) (rest : PeelFrom dom T fs) : PeelFrom dom S (front :: fs)

theorem PeelFrom.mem {dom : ι → ι → Prop} {S fronts} (h : PeelFrom dom S fronts) (i : ι) :
    i ∈ fronts.flatten ↔ S i := by
  induction h with
  | nil h => simp [h]
  | @cons S T front fs hne hnd hf hT rest ih =>
    rw [List.flatten_cons, List.mem_append, ih, hT, hf]
    constructor
    · rintro (h | h)
      · exact h.1
      · exact h.1
    · intro h
      by_cases hc : ∀ j, S j → ¬ dom j i
      · exact Or.inl ⟨h, hc⟩
      · exact Or.inr ⟨h, fun hh => hc hh.2⟩

theorem PeelFrom.level {dom : ι → ι → Prop} {S fronts} (h : PeelFrom dom S fronts) :
    fronts.flatten.Nodup ∧ (∀ f ∈ fronts, f ≠ []) ∧
    ∀ k (hk : k < fronts.length) (i : ι), i ∈ fronts[k] ↔
      S i ∧ i ∉ (fronts.take k).flatten ∧ ∀ j, S j → dom j i → j ∈ (fronts.take k).flatten := by
  induction h with
  | nil h => simp
  | @cons S T front fs hne hnd hf hT rest ih =>
    obtain ⟨i1, i2, i3⟩ := ih
    refine ⟨?_, ?_, ?_⟩
    · rw [List.flatten_cons, List.nodup_append]
      refine ⟨hnd, i1, ?_⟩
      intro a ha b hb hab
      subst hab
      rw [rest.mem, hT] at hb
      exact hb.2 ha
    · intro f hf'
      rcases List.mem_cons.1 hf' with rfl | h
      · exact hne
      · exact i2 f h
    · intro k hk i
      cases k with
      | zero => simp [hf]
      | succ k =>
        rw [List.getElem_cons_succ, i3 k (by simpa using hk), List.take_succ_cons, List.flatten_cons]
        simp only [List.mem_append, not_or, hT]
        constructor
        · rintro ⟨⟨a, b⟩, c, d⟩
          refine ⟨a, ⟨b, c⟩, fun j hj hd => ?_⟩
          by_cases hjf : j ∈ front
          · exact Or.inl hjf
          · exact Or.inr (d j ⟨hj, hjf⟩ hd)
        · rintro ⟨a, ⟨b, c⟩, d⟩
          exact ⟨⟨a, b⟩, c, fun j hj hd => (d j hj.1 hd).resolve_left hj.2⟩

theorem PeelFrom.canonical {dom : ι → ι → Prop} {S fronts} (h : PeelFrom dom S fronts) (hS : ∀ i, S i) :
    CanonicalFronts dom fronts := by
  obtain ⟨h1, h2, h3⟩ := h.level
  refine ⟨h1, fun i => (h.mem i).2 (hS i), h2, fun k hk i => ?_⟩
  rw [h3 k hk]
  simp [hS]

/-- Greedy filter: walk through `L` and keep `p` iff no element kept so far dominates it. -/
def greedy (dom : ι → ι → Prop) [∀ a b, Decidable (dom a b)] : List ι → List ι → List ι
  | acc, [] => acc
  | acc, p :: ps => greedy dom (if ∀ q ∈ acc, ¬ dom q p then acc ++ [p] else acc) ps

theorem greedy_mem (dom : ι → ι → Prop) [∀ a b, Decidable (dom a b)] (hpo : StrictPO dom) (L : List ι) :
    ∀ acc : List ι, ∀ seen : List ι,
    (∀ i, i ∈ acc ↔ i ∈ seen ∧ ∀ j ∈ seen, ¬ dom j i) → (∀ i ∈ seen, i ∈ acc ∨ ∃ j ∈ acc, dom j i) →
    (seen ++ L).Pairwise (fun a b => ¬ dom b a) →
    ∀ i, i ∈ greedy dom acc L ↔ i ∈ seen ++ L ∧ ∀ j ∈ seen ++ L, ¬ dom j i := by
  induction L with
  | nil => intro acc seen h _ _ i; simpa [greedy] using h i
  | cons p L ih =>
    intro acc seen h h' hpw i
    rw [greedy]
    have hpw' : (seen ++ [p] ++ L).Pairwise (fun a b => ¬ dom b a) := by simpa using hpw
    have hlater : ∀ a ∈ seen, ¬ dom p a := by
      rw [List.pairwise_append] at hpw
      intro a ha; exact hpw.2.2 a ha p (by simp)
    have key : (∀ q ∈ acc, ¬ dom q p) ↔ ∀ q ∈ seen, ¬ dom q p := by
      constructor
      · intro hh q hq hd
        rcases h' q hq with hq' | ⟨j, hj, hjq⟩
        · exact hh q hq' hd
        · exact hh j hj (hpo.trans _ _ _ hjq hd)
      · intro hh q hq; exact hh q ((h q).1 hq).1
    rw [ih _ (seen ++ [p]) ?_ ?_ hpw' i]
    · simp
    · intro i
      by_cases hc : ∀ q ∈ acc, ¬ dom q p
      · rw [if_pos hc]
        rw [key] at hc
        simp only [List.mem_append, List.mem_singleton, h]
        constructor
        · rintro (⟨a, b⟩ | rfl)
          · exact ⟨Or.inl a, by rintro j (hj | rfl); exacts [b j hj, hlater i a]⟩
          · exact ⟨Or.inr rfl, by rintro j (hj | rfl); exacts [hc j hj, hpo.irrefl _]⟩
        · rintro ⟨a | rfl, b⟩
          · exact Or.inl ⟨a, fun j hj => b j (Or.inl hj)⟩
          · exact Or.inr rfl
      · rw [if_neg hc]
        rw [key] at hc
        simp only [List.mem_append, List.mem_singleton, h]
        constructor
        · rintro ⟨a, b⟩
          exact ⟨Or.inl a, by rintro j (hj | rfl); exacts [b j hj, hlater i a]⟩
        · rintro ⟨a | rfl, b⟩
          · exact ⟨a, fun j hj => b j (Or.inl hj)⟩
          · exact absurd (fun q hq => b q (Or.inl hq)) hc
    · intro i hi
      rw [List.mem_append, List.mem_singleton] at hi
      by_cases hc : ∀ q ∈ acc, ¬ dom q p
      · rw [if_pos hc]
        rcases hi with hi | rfl
        · rcases h' i hi with h1 | ⟨j, hj, hd⟩
          · exact Or.inl (by simp [h1])
          · exact Or.inr ⟨j, by simp [hj], hd⟩
        · exact Or.inl (by simp)
      · rw [if_neg hc]
        rcases hi with hi | rfl
        · exact h' i hi
        · push Not at hc; exact Or.inr hc

theorem greedy_sublist (dom : ι → ι → Prop) [∀ a b, Decidable (dom a b)] (L : List ι) :
    ∀ acc, (greedy dom acc L).Sublist (acc ++ L) := by
  induction L with
  | nil => intro acc; simp [greedy]
  | cons p L ih =>
    intro acc
    rw [greedy]
    refine (ih _).trans ?_
    split
    · simp
    · exact List.Sublist.append_left (List.sublist_cons_self p L) acc

/-- The greedy filter over a list in which later elements never dominate earlier ones computes the
non-dominated elements. -/
theorem greedy_spec (dom : ι → ι → Prop) [∀ a b, Decidable (dom a b)] (hpo : StrictPO dom) (L : List ι)
    (hpw : L.Pairwise (fun a b => ¬ dom b a)) (i : ι) :
    i ∈ greedy dom [] L ↔ i ∈ L ∧ ∀ j ∈ L, ¬ dom j i := by
  simpa using greedy_mem dom hpo L [] [] (by simp) (by simp) (by simpa using hpw) i

end Lemmas
