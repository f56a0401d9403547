import Verif.Lemmas.Permutation
import Mathlib.Data.List.Perm.Basic
import Mathlib.Data.List.Perm.Lattice
import Mathlib.Data.List.Nodup

/-! # C25 (permutation operators) -/

set_option linter.unusedSectionVars false
set_option linter.unusedSimpArgs false

namespace Props
open Model Spec Lemmas

variable {ι : Type*} [DecidableEq ι]

/-- C25, order crossover. For two arrangements of the same distinct values and any segment `start..end`, with or
without shift: the result is again an arrangement of these values; inside the array the donor's segment stands at its
place; the other values keep the order in which they stand in the receiver (with `shift`: read from `start` on,
cyclically). -/
theorem C25_ox (receiver donor : List ι) (hp : donor.Perm receiver) (hnd : receiver.Nodup) (start stop : ℕ)
    (shift : Bool) :
    ∃ y, ox receiver donor start stop shift = some y ∧ y.Perm receiver ∧
      (∀ k, start ≤ k → k ≤ stop → stop < receiver.length → y[k]? = donor[k]?) ∧
      (let donated := (donor.drop start).take (stop + 1 - start)
       y.filter (· ∉ donated) = (if shift then receiver.rotate start else receiver).filter (· ∉ donated)) := by
  have hlen : donor.length = receiver.length := hp.length_eq
  have hdnd : donor.Nodup := hp.nodup_iff.2 hnd
  set donation := (donor.drop start).take (stop + 1 - start) with hd
  set order := if shift then receiver.rotate start else receiver with ho
  have hdsub : donation.Sublist donor := (List.take_sublist _ _).trans (List.drop_sublist _ _)
  have hop : order.Perm receiver := by
    rw [ho]; split_ifs
    · exact List.rotate_perm _ _
    · exact List.Perm.refl _
  set y := order.filter (fun v => !decide (v ∈ donation)) with hy
  refine ⟨y.take start ++ donation ++ y.drop start, by simp [ox, hlen, ← hd, ← ho, ← hy], ?_, ?_, ?_⟩
  · have h1 : (y.take start ++ donation ++ y.drop start).Perm (y ++ donation) := by
      calc (y.take start ++ donation ++ y.drop start).Perm (donation ++ y.take start ++ y.drop start) :=
            List.perm_append_comm.append_right _
        _ = donation ++ y := by rw [List.append_assoc, List.take_append_drop]
        List.Perm _ (y ++ donation) := List.perm_append_comm
    refine h1.trans ?_
    have hdn : donation.Nodup := hdnd.sublist hdsub
    rw [List.perm_ext_iff_of_nodup]
    · intro v
      rw [List.mem_append, hy, List.mem_filter]
      simp only [Bool.not_eq_true', decide_eq_false_iff_not]
      rw [hop.mem_iff]
      constructor
      · rintro (⟨h, -⟩ | h)
        · exact h
        · exact hp.mem_iff.1 (hdsub.subset h)
      · intro h
        by_cases hv : v ∈ donation
        · exact Or.inr hv
        · exact Or.inl ⟨h, hv⟩
    · refine List.Nodup.append ((hop.nodup_iff.2 hnd).filter _) hdn ?_
      intro v hv hv'
      rw [hy, List.mem_filter] at hv
      simp [hv'] at hv
    · exact hnd
  · intro k hk1 hk2 hk3
    have hdl : donation.length = stop + 1 - start := by
      rw [hd, List.length_take, List.length_drop]; omega
    have hylen : start ≤ y.length := by
      have h2 : (y ++ donation).Perm receiver := by
        have hdn : donation.Nodup := hdnd.sublist hdsub
        rw [List.perm_ext_iff_of_nodup]
        · intro v
          rw [List.mem_append, hy, List.mem_filter]
          simp only [Bool.not_eq_true', decide_eq_false_iff_not]
          rw [hop.mem_iff]
          constructor
          · rintro (⟨h, -⟩ | h)
            · exact h
            · exact hp.mem_iff.1 (hdsub.subset h)
          · intro h
            by_cases hv : v ∈ donation
            · exact Or.inr hv
            · exact Or.inl ⟨h, hv⟩
        · refine List.Nodup.append ((hop.nodup_iff.2 hnd).filter _) hdn ?_
          intro v hv hv'
          rw [hy, List.mem_filter] at hv
          simp [hv'] at hv
        · exact hnd
      have := h2.length_eq
      rw [List.length_append, hdl] at this
      omega
    have htl : (y.take start).length = start := by rw [List.length_take]; omega
    rw [List.append_assoc, List.getElem?_append_right (by omega), htl, List.getElem?_append_left (by omega), hd,
      List.getElem?_take_of_lt (by omega), List.getElem?_drop]
    congr 1; omega
  · intro donated
    have hdd : donation.filter (fun v => decide (v ∉ donation)) = [] := by
      rw [List.filter_eq_nil_iff]; intro v hv; simp [hv]
    have hyy : y.filter (fun v => decide (v ∉ donation)) = y := by
      rw [List.filter_eq_self]
      intro v hv
      rw [hy, List.mem_filter] at hv
      simpa using hv.2
    show (y.take start ++ donation ++ y.drop start).filter (fun v => decide (v ∉ donation)) =
      order.filter (fun v => decide (v ∉ donation))
    rw [List.filter_append, List.filter_append, hdd, List.append_nil, ← List.filter_append, List.take_append_drop, hyy, hy]
    congr 1
    funext v
    simp

/-- C25. Arrays of different length are refused. -/
theorem C25_ox_length (receiver donor : List ι) (h : donor.length ≠ receiver.length) (start stop : ℕ) (shift : Bool) :
    ox receiver donor start stop shift = none := by simp [ox, h]

example : ox [1, 2, 3, 4, 5] [5, 3, 1, 2, 4] 1 2 false = some [2, 3, 1, 4, 5] ∧
    ox [1, 2, 3, 4, 5] [5, 3, 1, 2, 4] 1 2 true = some [2, 3, 1, 4, 5] ∧
    ox [1, 2, 3, 4, 5] [5, 3, 1, 2, 4] 2 3 true = some [3, 4, 1, 2, 5] := by decide

/-- C25, inversion mutation: a permutation of the input; the entries of the segment `start..end` are reversed, all others
stay. -/
theorem C25_inversion {ι : Type*} (y : List ι) (start stop : ℕ) :
    (inversionMutation y start stop).Perm y ∧
    (∀ k, k < start ∨ (start ≤ stop ∧ stop < k) → stop < y.length → (inversionMutation y start stop)[k]? = y[k]?) ∧
    (∀ k, start ≤ k → k ≤ stop → stop < y.length → (inversionMutation y start stop)[k]? = y[start + stop - k]?) := by
  have hlen : stop < y.length → start ≤ stop → ((y.drop start).take (stop + 1 - start)).length = stop + 1 - start := by
    intro h1 h2; rw [List.length_take, List.length_drop]; omega
  refine ⟨?_, ?_, ?_⟩
  · unfold inversionMutation
    calc (y.take start ++ ((y.drop start).take (stop + 1 - start)).reverse ++
          (y.drop start).drop (stop + 1 - start)).Perm
          (y.take start ++ (y.drop start).take (stop + 1 - start) ++ (y.drop start).drop (stop + 1 - start)) :=
        ((List.reverse_perm _).append_left _).append_right _
      _ = y := by rw [List.append_assoc, List.take_append_drop, List.take_append_drop]
  · rintro k (hk | ⟨h1, hk⟩) hs
    · unfold inversionMutation
      by_cases hk2 : k < (y.take start).length
      · rw [List.append_assoc, List.getElem?_append_left hk2, List.getElem?_take_of_lt hk]
      · rw [List.length_take] at hk2
        have h3 : y.drop start = [] := List.drop_eq_nil_of_le (by omega)
        rw [h3]
        simp only [List.take_nil, List.reverse_nil, List.append_nil, List.drop_nil]
        rw [List.take_of_length_le (by omega)]
    · unfold inversionMutation
      have htl : (y.take start).length = start := by rw [List.length_take]; omega
      rw [List.getElem?_append_right (by rw [List.length_append, List.length_reverse, htl, hlen hs h1]; omega),
        List.length_append, List.length_reverse, htl, hlen hs h1, List.drop_drop, List.getElem?_drop]
      congr 1; omega
  · intro k h1 h2 hs
    unfold inversionMutation
    have htl : (y.take start).length = start := by rw [List.length_take]; omega
    have hl := hlen hs (h1.trans h2)
    rw [List.append_assoc, List.getElem?_append_right (by omega), htl,
      List.getElem?_append_left (by rw [List.length_reverse, hl]; omega), List.getElem?_reverse (by omega), hl,
      List.getElem?_take_of_lt (by omega), List.getElem?_drop]
    congr 1; omega

example : inversionMutation [1, 2, 3, 4, 5] 1 3 = [1, 4, 3, 2, 5] := by decide

/-- C25, edge recombination. For two arrangements `a`, `b` of the same distinct values (at least one) and every random
choice, the loop ends after at most `len(a)` rounds without exception; the child is again an arrangement of the values;
and each step of the child goes to a neighbour (in the round trip `a` or in the round trip `b`) of the current value,
except where all neighbours of the current value were visited before. -/
theorem C25_erx (a b : List ι) (hab : a.Perm b) (hnd : a.Nodup) (hne : a ≠ [])
    (pick : ℕ → List ι → ι) (hp : ∀ k l, l ≠ [] → pick k l ∈ l) (fuel : ℕ) (hf : a.length ≤ fuel) :
    ∃ y, erx pick fuel a b = some y ∧ y.Perm a ∧ GoodTour (fun u v => CycNext a u v ∨ CycNext b u v) y := by
  have hlen := hab.length_eq
  have hpos := List.length_pos_iff.2 hne
  obtain ⟨a1, a2, a3, a4⟩ := calcAdj_spec a ⟨[], fun _ => []⟩ (by simp) (by simp)
  obtain ⟨b1, b2, b3, b4⟩ := calcAdj_spec b (calcAdj a ⟨[], fun _ => []⟩) a1 a3
  set H := calcAdj b (calcAdj a ⟨[], fun _ => []⟩) with hH
  have hkeys : ∀ e, e ∈ H.keys ↔ e ∈ a := by
    intro e; rw [b2, a2]; simp [hab.mem_iff]
  have hperm : H.keys.Perm a := (List.perm_ext_iff_of_nodup b1 hnd).2 hkeys
  have hkne : H.keys ≠ [] := by
    intro h; rw [h] at hperm; exact hne hperm.symm.eq_nil
  have hstart := hp 0 _ hkne
  have hun : erx pick fuel a b = erxLoop pick a.length fuel 1 H [] (pick 0 H.keys) := by
    simp [erx, hlen, ← hH, choice, hkne]
  rw [hun]
  rcases Nat.lt_or_ge a.length 2 with h1 | h2
  · obtain ⟨f, rfl⟩ : ∃ f, fuel = f + 1 := ⟨fuel - 1, by omega⟩
    have ha1 : a.length = 1 := by omega
    obtain ⟨x, rfl⟩ := List.length_eq_one_iff.1 ha1
    refine ⟨[pick 0 H.keys], by simp [erxLoop], ?_, ?_⟩
    · have := (hkeys _).1 hstart
      rw [List.mem_singleton] at this
      rw [this]
    · intro k hk; simp at hk
  · refine erxLoop_spec (N := fun u v => CycNext a u v ∨ CycNext b u v) ?_ ?_ a ?_ pick hp fuel 1 H [] _ ⟨b1, b3, ?_⟩
      (by simpa using hperm) hstart ?_ (by simpa using hf)
    · rintro u v (h | h)
      · exact Or.inl (cycNext_symm _ _ _ h)
      · exact Or.inr (cycNext_symm _ _ _ h)
    · rintro u (h | h)
      · exact cycNext_irrefl a hnd h2 u h
      · exact cycNext_irrefl b (hab.nodup_iff.1 hnd) (by omega) u h
    · rintro u v (h | h)
      · exact cycNext_mem _ _ _ h
      · have := cycNext_mem _ _ _ h
        exact ⟨hab.mem_iff.2 this.1, hab.mem_iff.2 this.2⟩
    · intro e he v
      have hea : e ∈ a := (hkeys e).1 he
      have hek : e ∈ (calcAdj a ⟨[], fun _ => []⟩).keys := by rw [a2]; exact Or.inr hea
      rw [b4 e he, a4 e hek, hkeys]
      constructor
      · rintro (⟨-, h | h⟩ | h)
        · simp at h
        · exact ⟨Or.inl h, (cycNext_mem _ _ _ h).2⟩
        · exact ⟨Or.inr h, hab.mem_iff.2 (cycNext_mem _ _ _ h).2⟩
      · rintro ⟨h | h, -⟩
        · exact Or.inl ⟨hek, Or.inr h⟩
        · exact Or.inr h
    · intro k hk; simp at hk

/-- The contract on the random choice is met. -/
example : (∀ (k : ℕ) (l : List ℕ), l ≠ [] → (fun (_ : ℕ) (l : List ℕ) => l.headD 0) k l ∈ l) ∧
    erx (fun _ l => l.headD 0) 5 [1, 2, 3, 4, 5] [3, 1, 4, 2, 5] = some [1, 5, 4, 3, 2] := by
  refine ⟨fun k l h => ?_, by decide⟩
  cases l with
  | nil => exact absurd rfl h
  | cons x l => simp

end Props
