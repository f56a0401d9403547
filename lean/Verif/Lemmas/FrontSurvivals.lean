import Verif.Model.FrontSurvivals
import Verif.Spec.Sorting
import Verif.Lemmas.Optimum

/-! # Lemmas: filling a population front by front -/

set_option linter.unusedSimpArgs false
set_option linter.unusedVariables false

namespace Lemmas
open Model Spec

variable {N : ℕ}

theorem canonical_length {dom : Fin N → Fin N → Prop} {all : List (List (Fin N))} (h : CanonicalFronts dom all) : all.flatten.length = N := by
  have h1 : all.flatten.Perm (List.finRange N) := by
    rw [List.perm_ext_iff_of_nodup h.nodup (List.nodup_finRange N)]
    intro i; simp [h.complete i]
  simpa using h1.length_eq

theorem prefix_split {dom : Fin N → Fin N → Prop} {all fronts : List (List (Fin N))} (h : CanonicalFronts dom all) {n : ℕ} (hn : n ≤ N) (hN : 0 < N)
    (hfr : ShortestPrefix n all fronts) :
    ∃ p last rest, fronts = p ++ [last] ∧ all = p ++ last :: rest ∧ p.flatten.length ≤ n ∧ n ≤ p.flatten.length + last.length ∧
      (p ≠ [] → p.flatten.length < n) := by
  have hlen := canonical_length h
  have hall : all ≠ [] := by rintro rfl; simp at hlen; omega
  rcases List.eq_nil_or_concat fronts with h0 | ⟨p, f, hpf⟩
  · exact absurd h0 (hfr.nonempty hall)
  rw [List.concat_eq_append] at hpf
  obtain ⟨t, ht⟩ := hfr.isPrefix
  have hsm : p ≠ [] → p.flatten.length < n := fun hp =>
    hfr.minimal p ⟨[f] ++ t, by rw [← ht, hpf]; simp⟩ hp (by rw [hpf]; simp)
  refine ⟨p, f, t, hpf, by rw [← ht, hpf]; simp, ?_, ?_, hsm⟩
  · by_cases hp : p = []
    · simp [hp]
    · exact (hsm hp).le
  · rcases hfr.enough with h | h
    · rw [hpf] at h; simpa using h
    · rw [← h, hpf] at hlen
      simp at hlen
      simp only [List.length_flatten]; omega

/-- The members of the fronts with the numbers of their fronts, beginning with `k`. -/
def rankedFrom {ι : Type*} (k : ℕ) (p : List (List ι)) : List (ι × ℕ) := (p.zipIdx k).flatMap fun fk => fk.1.map fun i => (i, fk.2)

theorem rankedFrom_fst {ι : Type*} (p : List (List ι)) (k : ℕ) : (rankedFrom k p).map Prod.fst = p.flatten := by
  induction p generalizing k with
  | nil => rfl
  | cons f p ih =>
    unfold rankedFrom at ih ⊢
    rw [List.zipIdx_cons, List.flatMap_cons, List.map_append, ih, List.flatten_cons, List.map_map]
    congr 1
    exact List.map_id _

theorem rankedFrom_mem {ι : Type*} (p : List (List ι)) (k : ℕ) (i : ι) (q : ℕ) : (i, q) ∈ rankedFrom k p → ∃ f, k ≤ q ∧ p[q - k]? = some f ∧ i ∈ f := by
  intro h
  unfold rankedFrom at h
  obtain ⟨fk, h1, h2⟩ := List.mem_flatMap.1 h
  obtain ⟨i', h3, h4⟩ := List.mem_map.1 h2
  cases h4
  exact ⟨fk.1, (List.mk_mem_zipIdx_iff_le_and_getElem?_sub (x := fk.1) (i := fk.2)).1 h1 |>.1,
    (List.mk_mem_zipIdx_iff_le_and_getElem?_sub (x := fk.1) (i := fk.2)).1 h1 |>.2, h3⟩

theorem fill_fits {ι : Type*} (trim : ℕ → List ι → Option (List ι)) (n : ℕ) (p : List (List ι)) (k : ℕ) (s : List (ι × ℕ)) (h : s.length + p.flatten.length ≤ n) :
    (p.zipIdx k).foldlM (fillStep trim n) s = some (s ++ rankedFrom k p) := by
  induction p generalizing k s with
  | nil => simp [rankedFrom]
  | cons f p ih =>
    rw [List.flatten_cons, List.length_append] at h
    rw [List.zipIdx_cons, List.foldlM_cons]
    have h1 : fillStep trim n s (f, k) = some (s ++ f.map fun i => (i, k)) := by
      unfold fillStep
      rw [if_neg (by simp only []; omega)]
      rfl
    rw [h1]
    simp only [Option.bind_eq_bind, Option.bind_some]
    rw [ih]
    · simp [rankedFrom, List.zipIdx_cons]
    · rw [List.length_append, List.length_map]; omega

/-- What the loop does: every earlier front entirely, the last one cut to size. -/
theorem frontFill_split {ι : Type*} (trim : ℕ → List ι → Option (List ι)) (htrim0 : ∀ f, trim 0 f = some f) (n : ℕ) (p : List (List ι)) (last : List ι) (hp : p.flatten.length ≤ n)
    (hl : n ≤ p.flatten.length + last.length) :
    frontFill trim n (p ++ [last]) = (trim (p.flatten.length + last.length - n) last).map fun kept => rankedFrom 0 p ++ kept.map fun i => (i, p.length) := by
  unfold frontFill
  rw [List.zipIdx_append, List.foldlM_append, fill_fits trim n p 0 [] (by simpa using hp)]
  simp only [Option.bind_eq_bind, Option.bind_some, List.nil_append, List.zipIdx_cons, List.zipIdx_nil, List.foldlM_cons, List.foldlM_nil]
  have hlen : (rankedFrom 0 p).length = p.flatten.length := by
    rw [← rankedFrom_fst p 0, List.length_map]
  unfold fillStep
  simp only [hlen, Nat.zero_add]
  by_cases hc : p.flatten.length + last.length > n
  · rw [if_pos hc]
    cases trim (p.flatten.length + last.length - n) last <;> rfl
  · rw [if_neg hc]
    have : p.flatten.length + last.length - n = 0 := by omega
    rw [this, htrim0]
    rfl

/-- A population made of complete fronts and a part of the next one. -/
theorem split_facts {dom : Fin N → Fin N → Prop} {all : List (List (Fin N))} (h : CanonicalFronts dom all) {p : List (List (Fin N))} {last : List (Fin N)}
    {rest : List (List (Fin N))} (hall : all = p ++ last :: rest) {kept : List (Fin N)} (hnd : kept.Nodup) (hsub : ∀ i ∈ kept, i ∈ last) :
    (p.flatten ++ kept).Nodup ∧
    (∀ k l (hk : k < all.length) (hl : l < all.length), k < l → ∀ i ∈ all[l], i ∈ p.flatten ++ kept → ∀ j ∈ all[k], j ∈ p.flatten ++ kept) ∧
    (∀ i, i ∈ p.flatten ++ kept → ∀ j, dom j i → j ∈ p.flatten ++ kept) := by
  have hn := h.nodup
  rw [hall, List.flatten_append, List.flatten_cons] at hn
  have hdis : ∀ i ∈ p.flatten, ∀ j ∈ last, i ≠ j := fun i hi j hj => (List.nodup_append.1 hn).2.2 i hi j (List.mem_append_left _ hj)
  have hpl : ∀ k (hk : k < all.length), k < p.length → ∀ j ∈ all[k], j ∈ p.flatten := by
    intro k hk hkp j hj
    have : all[k] = p[k] := by subst hall; exact List.getElem_append_left hkp
    rw [this] at hj
    exact List.mem_flatten.2 ⟨_, List.getElem_mem hkp, hj⟩
  have hlast : ∀ (hk : p.length < all.length), all[p.length] = last := by
    intro hk
    subst hall
    rw [List.getElem_append_right (le_refl _)]
    simp
  have hge : ∀ l (hl : l < all.length), p.length < l → ∀ i ∈ all[l], i ∈ rest.flatten := by
    intro l hl hpl' i hi
    have : all[l] = rest[l - p.length - 1]'(by subst hall; simp at hl; omega) := by
      subst hall
      rw [List.getElem_append_right (by omega), List.getElem_cons, dif_neg (by omega)]
    rw [this] at hi
    exact List.mem_flatten.2 ⟨_, List.getElem_mem _, hi⟩
  have hno : ∀ i ∈ rest.flatten, i ∉ p.flatten ++ kept := by
    intro i hi hm
    rcases List.mem_append.1 hm with h1 | h1
    · exact (List.nodup_append.1 hn).2.2 i h1 i (List.mem_append_right _ hi) rfl
    · exact (List.nodup_append.1 (List.nodup_append.1 hn).2.1).2.2 i (hsub i h1) i hi rfl
  have hpn : (p.flatten).Nodup := (List.nodup_append.1 hn).1
  refine ⟨List.nodup_append.2 ⟨hpn, hnd, fun a ha b hb => hdis a ha b (hsub b hb)⟩, ?_, ?_⟩
  · intro k l hk hl hkl i hi hm j hj
    by_cases hlp : p.length < l
    · exact absurd hm (hno i (hge l hl hlp i hi))
    · exact List.mem_append_left _ (hpl k hk (by omega) j hj)
  · intro i hi j hd
    have hplt : p.length < all.length := by rw [hall]; simp
    rcases List.mem_append.1 hi with h1 | h1
    · obtain ⟨f, hf, hif⟩ := List.mem_flatten.1 h1
      obtain ⟨k, hk, rfl⟩ := List.getElem_of_mem hf
      have hka : k < all.length := by omega
      have : all[k] = p[k] := by subst hall; exact List.getElem_append_left hk
      have h2 := ((h.level k hka i).1 (this ▸ hif)).2 j hd
      apply List.mem_append_left
      obtain ⟨g, hg, hjg⟩ := List.mem_flatten.1 h2
      refine List.mem_flatten.2 ⟨g, ?_, hjg⟩
      rw [hall, List.take_append_of_le_length hk.le] at hg
      exact List.mem_of_mem_take hg
    · have h2 := ((h.level p.length hplt i).1 ((hlast hplt).symm ▸ hsub i h1)).2 j hd
      apply List.mem_append_left
      rw [hall, List.take_left'] at h2
      · exact h2
      · rfl

end Lemmas
