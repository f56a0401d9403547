import Verif.Model.Incremental
import Mathlib.Tactic.Linarith
import Mathlib.Tactic.Ring
import Mathlib.Tactic.Positivity
import Mathlib.Tactic.FieldSimp
import Mathlib.Algebra.BigOperators.Field
import Mathlib.Algebra.Order.BigOperators.Group.Finset
import Mathlib.Data.Fintype.Basic
import Mathlib.Data.Int.ModEq

/-!
# C119: the incremental lattice
-/

set_option linter.unusedSimpArgs false
set_option linter.unusedVariables false

namespace Props
open Model

variable {n : ℕ}

theorem mem_uniqueRows {l : List (Fin n → ℕ)} {w : Fin n → ℕ} : w ∈ uniqueRows l ↔ w ∈ l := by
  unfold uniqueRows; rw [List.mem_insertionSort, List.mem_dedup]

theorem uniqueRows_nodup (l : List (Fin n → ℕ)) : (uniqueRows l).Nodup :=
  (List.perm_insertionSort _ _).nodup_iff.2 (List.nodup_dedup _)

theorem incEdge_nodup (E : List (Fin n → ℕ)) : (incEdge E).Nodup := (uniqueRows_nodup _).filter _

theorem mem_incEdge {E : List (Fin n → ℕ)} {w : Fin n → ℕ} :
    w ∈ incEdge E ↔ (∃ k, w k = 0) ∧ ∃ i, ∃ u ∈ E, w = fun k => u k + n * (if k = i then 1 else 0) := by
  unfold incEdge
  rw [List.mem_filter, mem_uniqueRows, List.mem_flatMap]
  simp only [decide_eq_true_eq, List.mem_finRange, true_and, List.mem_map]
  constructor
  · rintro ⟨⟨i, u, hu, rfl⟩, h⟩; exact ⟨h, i, u, hu, rfl⟩
  · rintro ⟨h, i, u, hu, rfl⟩; exact ⟨⟨i, u, hu, rfl⟩, h⟩

/-- The edge rows after `p` rounds: multiples of `n` with sum `n p`, one column zero. -/
theorem edge_iff (hn : 1 ≤ n) : ∀ (p : ℕ) (w : Fin n → ℕ), w ∈ (incRows n p).2 ↔ (∃ k, w k = 0) ∧ (∀ k, n ∣ w k) ∧ ∑ k, w k = n * p := by
  intro p
  induction p with
  | zero =>
    intro w
    simp only [incRows, List.mem_singleton, Nat.mul_zero]
    constructor
    · rintro rfl; exact ⟨⟨⟨0, hn⟩, rfl⟩, fun k => dvd_zero _, by simp⟩
    · rintro ⟨_, _, h⟩
      funext k
      exact (Finset.sum_eq_zero_iff.1 h) k (Finset.mem_univ k)
  | succ p ih =>
    intro w
    simp only [incRows]
    rw [mem_incEdge]
    constructor
    · rintro ⟨h0, i, u, hu, rfl⟩
      obtain ⟨_, h2, h3⟩ := (ih u).1 hu
      refine ⟨h0, fun k => Dvd.dvd.add (h2 k) (dvd_mul_right _ _), ?_⟩
      rw [Finset.sum_add_distrib, h3, ← Finset.mul_sum]
      simp; ring
    · rintro ⟨⟨z, hz⟩, h2, h3⟩
      refine ⟨⟨z, hz⟩, ?_⟩
      have hpos : 0 < ∑ k, w k := by rw [h3]; positivity
      obtain ⟨i, hi⟩ : ∃ i, w i ≠ 0 := by
        by_contra hc
        push Not at hc
        rw [Finset.sum_eq_zero fun k _ => hc k] at hpos
        omega
      have hni : n ≤ w i := Nat.le_of_dvd (by omega) (h2 i)
      have hw : w = fun k => (w k - n * (if k = i then 1 else 0)) + n * (if k = i then 1 else 0) := by
        funext k
        by_cases hk : k = i
        · subst hk; simp; omega
        · simp [hk]
      refine ⟨i, fun k => w k - n * (if k = i then 1 else 0), (ih _).2 ⟨⟨z, by simp [hz]⟩, fun k => ?_, ?_⟩, hw⟩
      · by_cases hk : k = i
        · subst hk; simp only [if_true, mul_one]; exact Nat.dvd_sub (h2 k) (dvd_refl n)
        · simp [hk, h2 k]
      · have hs : ∑ k, w k = ∑ k, (w k - n * (if k = i then 1 else 0)) + n := by
          conv_lhs => rw [hw]
          rw [Finset.sum_add_distrib, ← Finset.mul_sum]
          simp
        rw [h3] at hs
        have : n * (p + 1) = n * p + n := by ring
        omega

/-- C119: the rows before the division, after `p` partitions, are exactly the vectors of natural numbers with sum `n p` all of whose columns are
congruent modulo `n`; no row occurs twice. -/
theorem C119_rows (hn : 1 ≤ n) : ∀ (p : ℕ), (incRows n p).1.Nodup ∧
    ∀ w : Fin n → ℕ, w ∈ (incRows n p).1 ↔ ∑ k, w k = n * p ∧ ∀ i j, w i ≡ w j [MOD n] := by
  intro p
  induction p with
  | zero =>
    refine ⟨by simp [incRows], fun w => ?_⟩
    simp only [incRows, List.mem_singleton, Nat.mul_zero]
    constructor
    · rintro rfl; exact ⟨by simp, fun _ _ => rfl⟩
    · rintro ⟨h, _⟩
      funext k
      exact (Finset.sum_eq_zero_iff.1 h) k (Finset.mem_univ k)
  | succ p ih =>
    obtain ⟨hnd, hiff⟩ := ih
    have hE := edge_iff hn (p + 1)
    simp only [incRows] at hE ⊢
    constructor
    · refine List.Nodup.append (hnd.map fun a b hab => ?_) (incEdge_nodup _) ?_
      · funext k; have := congrFun hab k; simpa using this
      · intro w hw hw'
        obtain ⟨u, _, rfl⟩ := List.mem_map.1 hw
        obtain ⟨⟨k, hk⟩, _⟩ := (hE _).1 hw'
        simp at hk
    · intro w
      rw [List.mem_append, hE, List.mem_map]
      constructor
      · rintro (⟨u, hu, rfl⟩ | ⟨_, h2, h3⟩)
        · obtain ⟨h1, h2⟩ := (hiff u).1 hu
          refine ⟨?_, fun i j => (h2 i j).add_right 1⟩
          rw [Finset.sum_add_distrib, h1]; simp; ring
        · exact ⟨h3, fun i j => ((Nat.modEq_zero_iff_dvd.2 (h2 i)).trans (Nat.modEq_zero_iff_dvd.2 (h2 j)).symm)⟩
      · rintro ⟨h1, h2⟩
        by_cases h0 : ∃ k, w k = 0
        · obtain ⟨k, hk⟩ := h0
          exact Or.inr ⟨⟨k, hk⟩, fun i => Nat.modEq_zero_iff_dvd.1 (hk ▸ h2 i k), h1⟩
        · push Not at h0
          have hw : ∀ k, w k - 1 + 1 = w k := fun k => Nat.sub_add_cancel (Nat.one_le_iff_ne_zero.2 (h0 k))
          refine Or.inl ⟨fun k => w k - 1, (hiff _).2 ⟨?_, fun i j => Nat.ModEq.add_right_cancel' 1 (by rw [hw, hw]; exact h2 i j)⟩, funext hw⟩
          have : ∑ k, w k = ∑ k, (w k - 1) + n := by
            conv_lhs => rw [show w = fun k => w k - 1 + 1 from funext fun k => (hw k).symm]
            rw [Finset.sum_add_distrib]; simp
          have e : n * (p + 1) = n * p + n := by ring
          omega

/-- C119: the directions: at least one partition gives different points of the unit simplex; without partitions the result is NaN. -/
theorem C119_lattice (hn : 1 ≤ n) (p : ℕ) :
    (p = 0 → incLattice p n = none) ∧
    (1 ≤ p → ∃ R, incLattice p n = some R ∧ R.Nodup ∧ R.length = (incRows n p).1.length ∧ ∀ x ∈ R, (∀ k, 0 ≤ x k) ∧ ∑ k, x k = 1) := by
  refine ⟨fun h => by simp [incLattice, h], fun hp => ?_⟩
  have hnp : n * p ≠ 0 := Nat.mul_ne_zero (by omega) (by omega)
  have hq : ((n * p : ℕ) : ℚ) ≠ 0 := by exact_mod_cast hnp
  refine ⟨_, by rw [incLattice, if_neg hnp], (C119_rows hn p).1.map fun a b hab => ?_, by simp, fun x hx => ?_⟩
  · funext k
    have := congrFun hab k
    field_simp at this
    exact_mod_cast this
  · obtain ⟨w, hw, rfl⟩ := List.mem_map.1 hx
    refine ⟨fun k => div_nonneg (Nat.cast_nonneg _) (Nat.cast_nonneg _), ?_⟩
    rw [← Finset.sum_div, ← Nat.cast_sum, (((C119_rows hn p).2 w).1 hw).1, div_self hq]

/-- C119: the corners and, for at least two partitions, inner points belong to the lattice. -/
theorem C119_corners (hn : 1 ≤ n) (p : ℕ) (i : Fin n) : (fun k => if k = i then n * p else 0) ∈ (incRows n p).1 := by
  refine ((C119_rows hn p).2 _).2 ⟨by simp, fun a b => ?_⟩
  have : ∀ a : Fin n, n ∣ if a = i then n * p else 0 := fun a => by split_ifs; exacts [dvd_mul_right _ _, dvd_zero _]
  exact (Nat.modEq_zero_iff_dvd.2 (this a)).trans (Nat.modEq_zero_iff_dvd.2 (this b)).symm

theorem edge_nonempty (hn : 2 ≤ n) (p : ℕ) : 0 < (incRows n p).2.length := by
  refine List.length_pos_of_mem (a := fun k : Fin n => if k = ⟨0, by omega⟩ then n * p else 0) ((edge_iff (by omega) p _).2 ⟨⟨⟨1, by omega⟩, ?_⟩, fun k => ?_, ?_⟩)
  · simp
  · split_ifs; exacts [dvd_mul_right _ _, dvd_zero _]
  · simp

theorem rows_succ (n p : ℕ) : (incRows n (p + 1)).1.length = (incRows n p).1.length + (incRows n (p + 1)).2.length := by
  simp [incRows]

theorem rows_ge (hn : 2 ≤ n) : ∀ p, p + 1 ≤ (incRows n p).1.length := by
  intro p
  induction p with
  | zero => simp [incRows]
  | succ p ih => rw [rows_succ]; have := edge_nonempty hn (p + 1); omega

theorem incCheckLoop_spec (hn : 2 ≤ n) (nPoints : ℕ) (h1 : 1 ≤ nPoints) : ∀ (fuel i : ℕ), (∀ j < i, (incRows n j).1.length < nPoints) → nPoints ≤ i + fuel →
    (∃ p, incCheckLoop nPoints n (fuel + 1) i = some [p] ∧ (incRows n p).1.length = nPoints) ∨
    ∃ p, incCheckLoop nPoints n (fuel + 1) i = some [(incRows n p).1.length, p, (incRows n (p + 1)).1.length, p + 1] ∧
      (incRows n p).1.length < nPoints ∧ nPoints < (incRows n (p + 1)).1.length := by
  intro fuel
  induction fuel with
  | zero =>
    intro i hi hf
    have hge := rows_ge hn i
    rw [incCheckLoop]
    rw [if_neg (by omega)]
    cases i with
    | zero => omega
    | succ i => have := hi i (by omega); have := rows_ge hn i
                by_cases he : (incRows n (i + 1)).1.length = nPoints
                · rw [if_pos he]; exact Or.inl ⟨_, rfl, he⟩
                · rw [if_neg he]
                  refine Or.inr ⟨i, ?_, by omega, by omega⟩
                  have := rows_succ n i
                  rw [show (incRows n (i + 1)).1.length - (incRows n (i + 1)).2.length = (incRows n i).1.length by omega]
                  simp
  | succ fuel ih =>
    intro i hi hf
    have hge := rows_ge hn i
    rw [incCheckLoop]
    by_cases hlt : (incRows n i).1.length < nPoints
    · rw [if_pos hlt]
      exact ih (i + 1) (fun j hj => by
        rcases Nat.lt_succ_iff_lt_or_eq.1 hj with h | rfl
        · exact hi j h
        · exact hlt) (by omega)
    · rw [if_neg hlt]
      by_cases he : (incRows n i).1.length = nPoints
      · rw [if_pos he]; exact Or.inl ⟨_, rfl, he⟩
      · rw [if_neg he]
        cases i with
        | zero => simp [incRows] at hlt he; omega
        | succ i =>
          have := hi i (by omega)
          refine Or.inr ⟨i, ?_, by omega, by omega⟩
          have := rows_succ n i
          rw [show (incRows n (i + 1)).1.length - (incRows n (i + 1)).2.length = (incRows n i).1.length by omega]
          simp

theorem rows_strictMono (hn : 2 ≤ n) : StrictMono fun p => (incRows n p).1.length :=
  strictMono_nat_of_lt_succ fun p => by
    have := rows_succ n p
    have := edge_nonempty hn (p + 1)
    omega

/-- C119: the number of partitions for a number of points: found exactly if some number of partitions gives that number of points; otherwise the two
suggestions are the next smaller and the next larger possible number of points with their partitions. The search ends. -/
theorem C119_check (hn : 2 ≤ n) (nPoints : ℕ) (h1 : 1 ≤ nPoints) :
    (∀ p, incCheck (nPoints + 1) nPoints n = some [p] ↔ (incRows n p).1.length = nPoints) ∧
    ((∀ p, (incRows n p).1.length ≠ nPoints) → ∃ p, incCheck (nPoints + 1) nPoints n =
        some [(incRows n p).1.length, p, (incRows n (p + 1)).1.length, p + 1] ∧
      (incRows n p).1.length < nPoints ∧ nPoints < (incRows n (p + 1)).1.length) := by
  have hmono := rows_strictMono hn
  rw [incCheck, if_neg (by omega)]
  rcases incCheckLoop_spec hn nPoints h1 nPoints 0 (by simp) (by omega) with ⟨q, hq, hl⟩ | ⟨q, hq, hl, hu⟩
  · refine ⟨fun p => ?_, fun h => absurd hl (h q)⟩
    rw [hq]
    constructor
    · intro h
      obtain rfl : q = p := by simpa using h
      exact hl
    · intro h
      have : p = q := hmono.injective (show _ = _ from h.trans hl.symm)
      rw [this]
  · refine ⟨fun p => ?_, fun _ => ⟨q, hq, hl, hu⟩⟩
    rw [hq]
    constructor
    · intro h; simp at h
    · intro h
      exfalso
      have h3 : q < p := hmono.lt_iff_lt.1 (show (incRows n q).1.length < (incRows n p).1.length by omega)
      have h4 : p < q + 1 := hmono.lt_iff_lt.1 (show (incRows n p).1.length < (incRows n (q + 1)).1.length by omega)
      omega

/-- C119: the factory with a number of points creates that many different points of the simplex, or raises an exception; more than one point. -/
theorem C119_factory_partial (hn : 2 ≤ n) (nPoints : ℕ) (h1 : 2 ≤ nPoints) :
    ((∃ R, incFactory (nPoints + 1) nPoints n = some R) ↔ ∃ p, (incRows n p).1.length = nPoints) ∧
    ∀ R, incFactory (nPoints + 1) nPoints n = some R → R.length = nPoints ∧ R.Nodup ∧ ∀ x ∈ R, (∀ k, 0 ≤ x k) ∧ ∑ k, x k = 1 := by
  obtain ⟨h2, h3⟩ := C119_check hn nPoints (by omega)
  by_cases he : ∃ p, (incRows n p).1.length = nPoints
  · obtain ⟨p, hp⟩ := he
    have hp1 : 1 ≤ p := by
      rcases Nat.eq_zero_or_pos p with rfl | h
      · simp [incRows] at hp; omega
      · exact h
    obtain ⟨R, hR, hnd, hl, hs⟩ := (C119_lattice (n := n) (by omega) p).2 hp1
    have : incFactory (nPoints + 1) nPoints n = some R := by
      rw [incFactory, (h2 p).2 hp, Option.bind_some]
      dsimp only
      rw [if_neg (by omega)]
      exact hR
    refine ⟨⟨fun _ => ⟨p, hp⟩, fun _ => ⟨R, this⟩⟩, fun R' h => ?_⟩
    rw [this] at h
    obtain rfl := Option.some.inj h
    exact ⟨hl.trans hp, hnd, hs⟩
  · obtain ⟨p, hp, _⟩ := h3 fun p hp => he ⟨p, hp⟩
    have : incFactory (nPoints + 1) nPoints n = none := by rw [incFactory, hp]; rfl
    rw [this]
    exact ⟨⟨fun ⟨R, h⟩ => by simp at h, fun h => absurd h he⟩, fun R h => by simp at h⟩

/-- C119: for one objective the check accepts every number of points (with zero partitions) and the result is the single direction 1, whatever number was asked for. -/
theorem C119_one_objective (fuel nPoints : ℕ) : incCheck fuel nPoints 1 = some [0] ∧ incFactory fuel nPoints 1 = some [fun _ => 1] := ⟨rfl, rfl⟩

/-- Three objectives: 1, 4, 10, 19 points with 0 to 3 partitions. -/
example : (incRows 3 1).1.length = 4 ∧ (incRows 3 2).1.length = 10 ∧ (incRows 3 3).1.length = 19 ∧ incCheck 12 11 3 = some [10, 2, 19, 3] := by
  decide +kernel

/-- C119 is violated for one point: the partitions found are zero, and the point is NaN instead of the centre. -/
theorem C119_one_point_refuted (hn : 2 ≤ n) : incCheck 2 1 n = some [0] ∧ incFactory 2 1 n = none := by
  have h : incCheck 2 1 n = some [0] := ((C119_check hn 1 le_rfl).1 0).2 (by simp [incRows])
  exact ⟨h, by rw [incFactory, h]; simp [incLattice]; omega⟩

end Props
