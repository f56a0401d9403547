import Verif.Lemmas.ENS
import Verif.Props.FastNDS
import Mathlib.Data.Fin.Tuple.Sort
import Mathlib.Order.PiLex

/-! # C04, C05: efficient non-dominated sorting (ENS) -/

namespace Props
open Model Spec Lemmas
variable {α : Type*} [LinearOrder α] {m n : ℕ}

/-- C04. ENS with sequential search returns the canonical Pareto fronts, whatever lexicographic sort is
used for the presort. -/
theorem C04_ens_sequential (I : Equiv.Perm (Fin n)) (F : Fin n → Fin m → α) (hI : SortedBy LexLE I F) :
    ∃ fronts, efficientSort .sequential I F = some fronts ∧
      CanonicalFronts (fun i j => Dominates (F i) (F j)) fronts := by
  obtain ⟨f, h1, h2, _⟩ := efficientSort_spec .sequential I F hI
  exact ⟨f, h1, h2⟩

/-- The lexicographic presort assumed by C04/C05 exists for every matrix. -/
theorem C04_presort_exists (F : Fin n → Fin m → α) : ∃ I : Equiv.Perm (Fin n), SortedBy LexLE I F := by
  refine ⟨Tuple.sort (fun i => toLex (F i)), fun i j hij => ?_⟩
  have h := Tuple.monotone_sort (fun i => toLex (F i)) hij.le
  simp only [Function.comp] at h
  rcases h.lt_or_eq with h | h
  · right
    obtain ⟨k, h1, h2⟩ := h
    exact ⟨k, h1, h2⟩
  · left; exact toLex.injective h

/-- C05. ENS with binary search terminates, never indexes outside the list of fronts (either would be
`none`), and returns exactly the same list of fronts as the sequential strategy - hence the canonical ones. -/
theorem C05_ens_binary (I : Equiv.Perm (Fin n)) (F : Fin n → Fin m → α) (hI : SortedBy LexLE I F) :
    ∃ fronts, efficientSort .binary I F = some fronts ∧ efficientSort .sequential I F = some fronts ∧
      CanonicalFronts (fun i j => Dominates (F i) (F j)) fronts := by
  obtain ⟨f, h1, h2, h3⟩ := efficientSort_spec .binary I F hI
  exact ⟨f, h1, h3, h2⟩

/-- C04/C03. The two independent implementations agree front by front (up to the order in a front). -/
theorem C04_agrees_with_fast [AddCommGroup α] (I : Equiv.Perm (Fin n)) (F : Fin n → Fin m → α)
    (hI : SortedBy LexLE I F) (hm : 0 < m) : ∃ f g, efficientSort .sequential I F = some f ∧
      fastNonDominatedSort n F = some g ∧ f.length = g.length ∧
      ∀ k (h1 : k < f.length) (h2 : k < g.length), (f[k]).Perm g[k] := by
  obtain ⟨f, f1, f2⟩ := C04_ens_sequential I F hI
  obtain ⟨g, g1, g2⟩ := C03_fast_sort F hm n le_rfl
  exact ⟨f, g, f1, g1, canonical_unique f2 g2⟩

/-- A concrete instance: rows (2,2),(1,5),(3,3),(1,5),(4,1) sorted lexicographically by `I = [1,3,0,2,4]`. -/
example : let F : Fin 4 → Fin 2 → ℤ := ![![2, 2], ![1, 5], ![3, 3], ![1, 5]]
    let I : Equiv.Perm (Fin 4) := ⟨![1, 3, 0, 2], ![2, 0, 3, 1], by decide, by decide⟩
    (∀ i j, i < j → (F (I i) = F (I j) ∨ ∃ k, (∀ l, l < k → F (I i) l = F (I j) l) ∧ F (I i) k < F (I j) k)) ∧
    efficientSort .sequential I F = some [[1, 3, 0], [2]] ∧
    efficientSort .binary I F = some [[1, 3, 0], [2]] := by decide

end Props
