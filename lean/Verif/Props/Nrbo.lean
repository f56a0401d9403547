import Mathlib.Algebra.Order.Ring.Abs
import Mathlib.Tactic.Linarith
import Mathlib.Tactic.FieldSimp
import Mathlib.Tactic.Ring
import Mathlib.Tactic.Positivity
import Mathlib.Tactic.NormNum
import Mathlib.Data.Rat.Defs
import Mathlib.Algebra.Order.Ring.Rat
import Mathlib.Data.Fin.VecNotation
import Mathlib.Data.List.GetD
import Mathlib.Tactic.IntervalCases
import Verif.Model.Nrbo
import Verif.Model.Swarm

/-! # C164: the moves of NRBO -/

set_option linter.unusedSimpArgs false
set_option linter.unusedSectionVars false
set_option linter.unusedVariables false

namespace Props
open Model

variable {K : Type*} [Field K] [LinearOrder K] [IsStrictOrderedRing K] {n : ℕ}

/-- The offspring keeps the result of the search rule: the trap avoidance is not applied, or only adds to it. -/
def UsesRule (deciding : K) (d : NrDraws K n) : Prop :=
  ¬ d.tao < deciding ∨ (¬ d.coin > 1 / 2 ∧ 3 * d.v1 < 1 / 2)

/-- The mean (over the coordinates) of the sum of the position and the first corrected position. -/
def midMean (tiny : K) (Xb Xw Xi : Fin n → K) (d : NrDraws K n) : K :=
  nrMean fun k => nrZ tiny Xb Xw Xi d.u d.g1 k + Xi k

theorem nrStep_none (tiny : K) (Xb Xw Xi rho : Fin n → K) (d : NrDraws K n) (j : Fin n) :
    nrStep tiny Xb Xw Xi rho d.u d.g1 d.q d.g2 j = none ↔ d.q * midMean tiny Xb Xw Xi d = Xi j := by
  unfold nrStep midMean
  dsimp only
  set m := nrMean fun i => nrZ tiny Xb Xw Xi d.u d.g1 i + Xi i
  have : (2 * (d.q * (m + d.q * nrDx Xb Xi d.u j) + d.q * (m - d.q * nrDx Xb Xi d.u j) - 2 * Xi j) = 0) ↔
      d.q * m = Xi j := by
    have e : 2 * (d.q * (m + d.q * nrDx Xb Xi d.u j) + d.q * (m - d.q * nrDx Xb Xi d.u j) - 2 * Xi j) =
        4 * (d.q * m - Xi j) := by ring
    rw [e]
    constructor
    · intro h
      have := (mul_eq_zero.1 h).resolve_left (by norm_num)
      linarith
    · intro h; rw [h]; ring
  split_ifs with h
  · exact ⟨fun _ => this.1 h, fun _ => rfl⟩
  · exact ⟨fun hh => by simp at hh, fun hh => absurd (this.2 hh) h⟩

theorem nrNew_none (tiny deciding delta : K) (Xb Xw Xi Xr1 Xr2 : Fin n → K) (d : NrDraws K n) (j : Fin n) :
    nrNew tiny deciding delta Xb Xw Xi Xr1 Xr2 d j = none ↔
      UsesRule deciding d ∧ d.q * midMean tiny Xb Xw Xi d = Xi j := by
  rw [← nrStep_none tiny Xb Xw Xi (fun k => d.a * (Xb k - Xi k) + d.b * (Xr1 k - Xr2 k)) d j]
  unfold nrNew UsesRule
  dsimp only
  by_cases h1 : d.tao < deciding
  · rw [if_pos h1]
    by_cases h2 : d.coin > 1 / 2
    · have : ¬ ((0 : K) * 3 * d.v1 + (1 - 0) < 1 / 2) := by norm_num
      rw [if_pos h2, if_neg this]
      constructor
      · intro h; simp at h
      · rintro ⟨h | h, _⟩
        · exact absurd h1 h
        · exact absurd h2 h.1
    · rw [if_neg h2]
      by_cases h3 : (1 : K) * 3 * d.v1 + (1 - 1) < 1 / 2
      · rw [if_pos h3, Option.map_eq_none_iff, Option.map_eq_none_iff]
        exact ⟨fun h => ⟨Or.inr ⟨h2, by linarith⟩, h⟩, fun h => h.2⟩
      · rw [if_neg h3]
        constructor
        · intro h; simp at h
        · rintro ⟨h | h, _⟩
          · exact absurd h1 h
          · exact absurd (by linarith [h.2]) h3
  · rw [if_neg h1, Option.map_eq_none_iff]
    exact ⟨fun h => ⟨Or.inl h1, h⟩, fun h => h.2⟩

theorem nrRepair_spec (xl xu x r1 r2 : K) (hx : xl ≤ x ∧ x ≤ xu) (h1 : 0 ≤ r1 ∧ r1 ≤ 1) (h2 : 0 ≤ r2 ∧ r2 ≤ 1)
    (y : Option K) :
    (nrRepair xl xu x r1 r2 y = none ↔ y = none) ∧
    (∀ v, nrRepair xl xu x r1 r2 y = some v → xl ≤ v ∧ v ≤ xu) ∧
    (∀ w v, y = some w → nrRepair xl xu x r1 r2 y = some v →
      (xl ≤ w → w ≤ xu → v = w) ∧ (w < xl → v ≤ x) ∧ (xu < w → x ≤ v)) := by
  cases y with
  | none => exact ⟨by simp [nrRepair], by simp [nrRepair], by simp⟩
  | some y =>
    refine ⟨by simp [nrRepair], ?_, ?_⟩
    · intro v hv
      simp only [nrRepair, Option.some.injEq] at hv
      subst hv
      by_cases a : y < xl
      · simp only [a, if_true]
        have e1 : xl ≤ xl + r1 * (x - xl) := by nlinarith [mul_nonneg h1.1 (sub_nonneg.2 hx.1)]
        have e2 : xl + r1 * (x - xl) ≤ x := by nlinarith [mul_nonneg (sub_nonneg.2 h1.2) (sub_nonneg.2 hx.1)]
        rw [if_neg (by linarith [hx.2])]
        exact ⟨e1, e2.trans hx.2⟩
      · simp only [a, if_false]
        by_cases b : y > xu
        · rw [if_pos b]
          have e1 : xu - r2 * (xu - x) ≤ xu := by nlinarith [mul_nonneg h2.1 (sub_nonneg.2 hx.2)]
          have e2 : x ≤ xu - r2 * (xu - x) := by nlinarith [mul_nonneg (sub_nonneg.2 h2.2) (sub_nonneg.2 hx.2)]
          exact ⟨hx.1.trans e2, e1⟩
        · rw [if_neg b]
          exact ⟨not_lt.1 a, not_lt.1 b⟩
    · intro w v hw hv
      simp only [Option.some.injEq] at hw
      subst hw
      simp only [nrRepair, Option.some.injEq] at hv
      subst hv
      have e2 : xl + r1 * (x - xl) ≤ x := by nlinarith [mul_nonneg (sub_nonneg.2 h1.2) (sub_nonneg.2 hx.1)]
      have e4 : x ≤ xu - r2 * (xu - x) := by nlinarith [mul_nonneg (sub_nonneg.2 h2.2) (sub_nonneg.2 hx.2)]
      refine ⟨fun a b => by rw [if_neg (not_lt.2 a), if_neg (not_lt.2 b)], fun a => ?_, fun b => ?_⟩
      · simp only [a, if_true]
        rw [if_neg (by linarith [hx.2])]
        exact e2
      · have : ¬ y < xl := by linarith [hx.1, hx.2]
        simp only [this, if_false]
        rw [if_pos b]
        exact e4

theorem nr_mapM_some {A B : Type*} (f : A → B) (g : A → Option B) (l : List A) (h : ∀ a ∈ l, g a = some (f a)) :
    l.mapM g = some (l.map f) := by
  induction l with
  | nil => rfl
  | cons a l ih =>
    rw [List.mapM_cons, h a (by simp), ih fun b hb => h b (by simp [hb])]
    rfl

theorem nr_mapM_none {A B : Type*} (g : A → Option B) (l : List A) (a : A) (ha : a ∈ l) (h : g a = none) :
    l.mapM g = none := by
  induction l with
  | nil => simp at ha
  | cons b l ih =>
    rw [List.mapM_cons]
    rcases List.mem_cons.1 ha with rfl | ha
    · rw [h]; rfl
    · rw [ih ha]
      cases g b <;> rfl

theorem nrOthers_spec (popSize i : ℕ) (hi : i < popSize) :
    (nrOthers popSize i).length = popSize - 1 ∧ (nrOthers popSize i).Nodup ∧
    ∀ k, k ∈ nrOthers popSize i ↔ k < popSize ∧ k ≠ i := by
  unfold nrOthers
  refine ⟨by rw [List.length_eraseIdx_of_lt (by simpa using hi), List.length_range],
    List.nodup_range.eraseIdx i, fun k => ?_⟩
  rw [List.mem_eraseIdx_iff_getElem]
  constructor
  · rintro ⟨m, hm, hne, rfl⟩
    simp only [List.length_range] at hm
    simp only [List.getElem_range]
    exact ⟨hm, hne⟩
  · rintro ⟨a, b⟩
    exact ⟨k, by simpa using a, b, by simp⟩

/-- The draws of an `_infill`: two different other individuals, and random numbers of the repair in `[0, 1]`. -/
structure DrawsOk (popSize : ℕ) (draws : ℕ → NrDraws K n) (p : ℕ → Fin n → K × K) : Prop where
  r1 : ∀ i, i < popSize → (draws i).r1 ∈ nrOthers popSize i
  r2 : ∀ i, i < popSize → (draws i).r2 ∈ nrOthers popSize i
  ne : ∀ i, i < popSize → (draws i).r1 ≠ (draws i).r2
  p : ∀ i j, 0 ≤ (p i j).1 ∧ (p i j).1 ≤ 1 ∧ 0 ≤ (p i j).2 ∧ (p i j).2 ≤ 1

variable (tiny deciding : K) (nIter maxIter popSize best worst : ℕ) (X : List (Fin n → K)) (xl xu : Fin n → K)
  (draws : ℕ → NrDraws K n) (p : ℕ → Fin n → K × K)

/-- **C164** (offspring). With a population of `pop_size ≥ 3` individuals in the bounds, `_infill` returns `pop_size` offspring for
every sequence of random numbers. Every coordinate is in its bounds, except where it is NaN; that is exactly where the offspring
keeps the result of the search rule and `r1 * mean(Z + X_i)` is equal to the coordinate of the parent. A coordinate of the move that
is in the bounds is kept, another one is replaced by one between the violated bound and the parent. -/
theorem C164_offspring (hX : X.length = popSize) (h3 : 3 ≤ popSize) (hb : best < popSize) (hw : worst < popSize)
    (hin : ∀ x ∈ X, ∀ j, xl j ≤ x j ∧ x j ≤ xu j) (hd : DrawsOk popSize draws p) :
    ∃ off, nrInfill tiny deciding nIter maxIter popSize best worst X xl xu draws p = some off ∧ off.length = popSize ∧
      ∀ (i : ℕ) (hi : i < X.length) (hi' : i < off.length) (j : Fin n),
        (∀ v, off[i] j = some v → xl j ≤ v ∧ v ≤ xu j) ∧
        (∀ w v, nrNew tiny deciding (nrDelta nIter maxIter) (X[best]'(hX ▸ hb)) (X[worst]'(hX ▸ hw)) X[i]
            (X.getD (draws i).r1 0) (X.getD (draws i).r2 0) (draws i) j = some w → off[i] j = some v →
          (xl j ≤ w → w ≤ xu j → v = w) ∧ (w < xl j → v ≤ X[i] j) ∧ (xu j < w → X[i] j ≤ v)) ∧
        (off[i] j = none ↔ UsesRule deciding (draws i) ∧
          (draws i).q * midMean tiny (X[best]'(hX ▸ hb)) (X[worst]'(hX ▸ hw)) X[i] (draws i) = X[i] j) := by
  let g : ℕ → Fin n → Option K := fun i j =>
    nrRepair (xl j) (xu j) ((X.getD i 0) j) (p i j).1 (p i j).2
      (nrNew tiny deciding (nrDelta nIter maxIter) (X.getD best 0) (X.getD worst 0) (X.getD i 0) (X.getD (draws i).r1 0)
        (X.getD (draws i).r2 0) (draws i) j)
  have gd : ∀ k, k < X.length → X[k]? = some (X.getD k 0) := by
    intro k hk
    rw [List.getElem?_eq_getElem hk, List.getD_eq_getElem _ _ hk]
  refine ⟨(List.range popSize).map g, ?_, by simp, ?_⟩
  · unfold nrInfill
    rw [gd best (hX ▸ hb), gd worst (hX ▸ hw)]
    dsimp only
    refine nr_mapM_some g _ _ ?_
    intro i h1
    rw [List.mem_range] at h1
    obtain ⟨l1, _, l3⟩ := nrOthers_spec popSize i h1
    rw [if_neg (by omega), gd i (by omega), gd _ (by rw [hX]; exact ((l3 _).1 (hd.r1 i h1)).1),
      gd _ (by rw [hX]; exact ((l3 _).1 (hd.r2 i h1)).1)]
  · intro i hi hi' j
    have hmem : X[i] ∈ X := List.getElem_mem hi
    have e1 : X.getD i 0 = X[i] := List.getD_eq_getElem _ _ hi
    have e2 : X.getD best 0 = X[best]'(hX ▸ hb) := List.getD_eq_getElem _ _ _
    have e3 : X.getD worst 0 = X[worst]'(hX ▸ hw) := List.getD_eq_getElem _ _ _
    obtain ⟨q1, q2, q3, q4⟩ := hd.p i j
    obtain ⟨r1, r2, r3⟩ := nrRepair_spec (xl j) (xu j) (X[i] j) (p i j).1 (p i j).2 (hin _ hmem j) ⟨q1, q2⟩ ⟨q3, q4⟩
      (nrNew tiny deciding (nrDelta nIter maxIter) (X[best]'(hX ▸ hb)) (X[worst]'(hX ▸ hw)) X[i] (X.getD (draws i).r1 0)
        (X.getD (draws i).r2 0) (draws i) j)
    have hg : ((List.range popSize).map g)[i] j = nrRepair (xl j) (xu j) (X[i] j) (p i j).1 (p i j).2
      (nrNew tiny deciding (nrDelta nIter maxIter) (X[best]'(hX ▸ hb)) (X[worst]'(hX ▸ hw)) X[i] (X.getD (draws i).r1 0)
        (X.getD (draws i).r2 0) (draws i) j) := by
      simp only [List.getElem_map, List.getElem_range, g, e1, e2, e3]
    rw [hg]
    exact ⟨r2, r3, by rw [r1, nrNew_none]⟩

theorem nrDx_self (x u : Fin n → K) (j : Fin n) : nrDx x x u j = 0 := by
  unfold nrDx; rw [sub_self, abs_zero, mul_zero]

theorem midMean_best (Xb Xw : Fin n → K) (d : NrDraws K n) : midMean tiny Xb Xw Xb d = 2 * nrMean Xb := by
  unfold midMean nrMean
  have : ∀ k, nrZ tiny Xb Xw Xb d.u d.g1 k + Xb k = 2 * Xb k := by
    intro k
    unfold nrZ
    dsimp only
    rw [nrDx_self]
    simp
    ring
  simp only [this, ← Finset.mul_sum]
  rw [mul_div_assoc]

/-- **C164** (the best individual, refuted). For the best individual itself the search rule divides by zero where its coordinate is
`2 r1` times the mean of its coordinates. If it is the origin, this is every coordinate, for all random numbers: unless the trap
avoidance replaces it, the offspring is NaN. -/
theorem C164_origin_refuted (Xw Xr1 Xr2 : Fin n → K) (delta : K) (d : NrDraws K n) (hu : UsesRule deciding d) (j : Fin n) :
    nrNew tiny deciding delta (fun _ => 0) Xw (fun _ => 0) Xr1 Xr2 d j = none := by
  rw [nrNew_none, midMean_best]
  refine ⟨hu, ?_⟩
  simp [nrMean]

/-- **C164** (the move). Without trap avoidance, a coordinate that is not NaN is
`w (X_i + (1 - w) D - s) + (1 - w) (X_i - delta D)` with `D = X_b - X_i` and
`s = g2 (r1 u D)² / (2 (r1 m - X_i)) - a D - b (X_r1 - X_r2)`, where `m` is the mean of the position plus the corrected one. -/
theorem C164_move (Xb Xw Xi Xr1 Xr2 : Fin n → K) (delta : K) (d : NrDraws K n) (hu : ¬ d.tao < deciding) (j : Fin n)
    (hm : d.q * midMean tiny Xb Xw Xi d ≠ Xi j) :
    nrNew tiny deciding delta Xb Xw Xi Xr1 Xr2 d j = some
      (d.w * (Xi j + (1 - d.w) * (Xb j - Xi j) -
          (d.g2 * (d.q * d.u j * (Xb j - Xi j)) ^ 2 / (2 * (d.q * midMean tiny Xb Xw Xi d - Xi j)) -
            d.a * (Xb j - Xi j) - d.b * (Xr1 j - Xr2 j))) +
        (1 - d.w) * (Xi j - delta * (Xb j - Xi j))) := by
  unfold nrNew
  dsimp only
  rw [if_neg hu]
  have h0 : d.q * midMean tiny Xb Xw Xi d - Xi j ≠ 0 := sub_ne_zero.2 hm
  have hs : nrStep tiny Xb Xw Xi (fun k => d.a * (Xb k - Xi k) + d.b * (Xr1 k - Xr2 k)) d.u d.g1 d.q d.g2 j =
      some (d.g2 * (d.q * d.u j * (Xb j - Xi j)) ^ 2 / (2 * (d.q * midMean tiny Xb Xw Xi d - Xi j)) -
        (d.a * (Xb j - Xi j) + d.b * (Xr1 j - Xr2 j))) := by
    have hne : nrStep tiny Xb Xw Xi (fun k => d.a * (Xb k - Xi k) + d.b * (Xr1 k - Xr2 k)) d.u d.g1 d.q d.g2 j ≠ none := by
      rw [Ne, nrStep_none]; exact hm
    unfold nrStep at hne ⊢
    dsimp only at hne ⊢
    split_ifs at hne ⊢ with hden
    · exact absurd rfl hne
    · congr 2
      change _ = _ / (2 * (d.q * (nrMean fun i => nrZ tiny Xb Xw Xi d.u d.g1 i + Xi i) - Xi j))
      have h0' : d.q * (nrMean fun i => nrZ tiny Xb Xw Xi d.u d.g1 i + Xi i) - Xi j ≠ 0 := h0
      generalize (nrMean fun i => nrZ tiny Xb Xw Xi d.u d.g1 i + Xi i) = m at *
      have hd2 : nrDx Xb Xi d.u j ^ 2 = (d.u j * (Xb j - Xi j)) ^ 2 := by
        unfold nrDx; rw [mul_pow, sq_abs, mul_pow]
      have e1 : d.g2 * ((d.q * (m + d.q * nrDx Xb Xi d.u j) - d.q * (m - d.q * nrDx Xb Xi d.u j)) * nrDx Xb Xi d.u j) =
          2 * (d.g2 * (d.q * d.u j * (Xb j - Xi j)) ^ 2) := by
        have : (d.q * (m + d.q * nrDx Xb Xi d.u j) - d.q * (m - d.q * nrDx Xb Xi d.u j)) * nrDx Xb Xi d.u j =
            2 * d.q ^ 2 * nrDx Xb Xi d.u j ^ 2 := by ring
        rw [this, hd2]; ring
      have e2 : 2 * (d.q * (m + d.q * nrDx Xb Xi d.u j) + d.q * (m - d.q * nrDx Xb Xi d.u j) - 2 * Xi j) =
          2 * (2 * (d.q * m - Xi j)) := by ring
      rw [e1, e2, mul_div_mul_left _ _ (by norm_num)]
  rw [hs, Option.map_some]
  congr 1
  ring

/-- **C164** (the best individual). Without trap avoidance the offspring of the best individual, where it is not NaN, moves along
the difference of the two random individuals only. -/
theorem C164_best_move (Xb Xw Xr1 Xr2 : Fin n → K) (delta : K) (d : NrDraws K n) (hu : ¬ d.tao < deciding) (j : Fin n)
    (hm : d.q * (2 * nrMean Xb) ≠ Xb j) :
    nrNew tiny deciding delta Xb Xw Xb Xr1 Xr2 d j = some (Xb j + d.w * d.b * (Xr1 j - Xr2 j)) := by
  rw [C164_move tiny deciding Xb Xw Xb Xr1 Xr2 delta d hu j (by rw [midMean_best]; exact hm)]
  congr 1
  simp only [sub_self, mul_zero, zero_pow (two_ne_zero), zero_div, add_zero, zero_sub, sub_zero]
  ring

/-- **C164** (trap avoidance). If it is applied with the coin above one half, the offspring does not depend on the search rule: it is
the best position plus `theta1` times the way to it and `theta2 delta` times the way to the mean of the coordinates. -/
theorem C164_trap (Xb Xw Xi Xr1 Xr2 : Fin n → K) (delta : K) (d : NrDraws K n) (hu : d.tao < deciding) (hc : 1 / 2 < d.coin)
    (j : Fin n) :
    nrNew tiny deciding delta Xb Xw Xi Xr1 Xr2 d j =
      some (Xb j + d.theta1 * (Xb j - Xi j) + d.theta2 * delta * (nrMean Xi - Xi j)) := by
  unfold nrNew
  dsimp only
  have : ¬ ((0 : K) * 3 * d.v1 + (1 - 0) < 1 / 2) := by norm_num
  rw [if_pos hu, if_pos hc, if_neg this]
  congr 1
  ring

/-- **C164** (trap avoidance, coin at most one half). With `v1 ≥ 1/6` it starts from the best position, otherwise from the result of
the search rule. -/
theorem C164_trap_scaled (Xb Xw Xi Xr1 Xr2 : Fin n → K) (delta : K) (d : NrDraws K n) (hu : d.tao < deciding)
    (hc : d.coin ≤ 1 / 2) (j : Fin n) :
    nrNew tiny deciding delta Xb Xw Xi Xr1 Xr2 d j =
      (if d.v1 < 1 / 6 then nrNew tiny d.tao delta Xb Xw Xi Xr1 Xr2 d j else some (Xb j)).map fun y =>
        y + (d.theta1 * (3 * d.v1 * Xb j - d.v2 * Xi j) + d.theta2 * delta * (3 * d.v1 * nrMean Xi - d.v2 * Xi j)) := by
  unfold nrNew
  dsimp only
  rw [if_pos hu, if_neg (not_lt.2 hc), if_neg (lt_irrefl d.tao)]
  by_cases h : d.v1 < 1 / 6
  · rw [if_pos h, if_pos (by linarith)]
    congr 1
    funext y
    ring
  · rw [if_neg h, if_neg (by intro h'; exact h (by linarith)), Option.map_some]
    congr 1
    ring

/-- **C164** (converged population). If all individuals are at the same point, an offspring without trap avoidance is at that point
too, where it is not NaN. -/
theorem C164_converged (x : Fin n → K) (delta : K) (d : NrDraws K n) (hu : ¬ d.tao < deciding) (j : Fin n) (v : K)
    (hv : nrNew tiny deciding delta x x x x x d j = some v) : v = x j := by
  unfold nrNew at hv
  dsimp only at hv
  rw [if_neg hu] at hv
  unfold nrStep at hv
  dsimp only at hv
  split_ifs at hv with h
  · simp at hv
  · rw [nrDx_self] at hv
    simp only [sub_self, mul_zero, zero_div, add_zero, Option.map_some, Option.some.injEq, sub_zero] at hv
    rw [← hv]
    ring

/-- **C164** (damping). The factor of the difference between best and current position is between -1 and 1 exactly up to iteration
`max_iteration`. -/
theorem C164_damping (hm : 0 < maxIter) : |(nrDelta nIter maxIter : K)| ≤ 1 ↔ nIter ≤ maxIter := by
  have hm' : (0 : K) < (maxIter : K) := by exact_mod_cast hm
  unfold nrDelta
  rw [abs_pow, pow_le_one_iff_of_nonneg (abs_nonneg _) (by norm_num), abs_le]
  constructor
  · rintro ⟨h, _⟩
    have : 2 * (nIter : K) / (maxIter : K) ≤ 2 := by linarith
    rw [div_le_iff₀ hm'] at this
    have h2 : (nIter : K) ≤ (maxIter : K) := by linarith
    exact_mod_cast h2
  · intro h
    have h2 : (nIter : K) ≤ (maxIter : K) := by exact_mod_cast h
    have h0 : (0 : K) ≤ (nIter : K) := Nat.cast_nonneg _
    have a : 2 * (nIter : K) / (maxIter : K) ≤ 2 := by rw [div_le_iff₀ hm']; linarith
    have b : 0 ≤ 2 * (nIter : K) / (maxIter : K) := by positivity
    constructor <;> linarith

/-- **C164** (damping, refuted). `max_iteration` (100 by default) is not the termination of the run: in a run that the user lets go
on for `k` times as many iterations the factor grows with the fifth power of `k`. -/
theorem C164_damping_refuted (k : ℕ) (hk : 1 ≤ k) (hm : 0 < maxIter) :
    (nrDelta (k * maxIter) maxIter : K) = -(2 * (k : K) - 1) ^ 5 ∧ (k : K) ^ 5 ≤ |(nrDelta (k * maxIter) maxIter : K)| := by
  have hm' : (maxIter : K) ≠ 0 := by
    have : (0 : K) < (maxIter : K) := by exact_mod_cast hm
    exact this.ne'
  have e : (nrDelta (k * maxIter) maxIter : K) = -(2 * (k : K) - 1) ^ 5 := by
    unfold nrDelta
    rw [Nat.cast_mul, ← mul_assoc, mul_div_assoc, div_self hm']
    ring
  refine ⟨e, ?_⟩
  have hk' : (1 : K) ≤ (k : K) := by exact_mod_cast hk
  rw [e, abs_neg, abs_pow]
  refine pow_le_pow_left₀ (by linarith) ?_ 5
  rw [abs_of_nonneg (by linarith)]
  linarith

/-- **C164** (initial population, refuted). `_infill` makes an offspring for each of the positions `0, ..., pop_size - 1`: it raises if
a smaller population was given as `sampling`. -/
theorem C164_small_refuted (hX : X.length < popSize) :
    nrInfill tiny deciding nIter maxIter popSize best worst X xl xu draws p = none := by
  unfold nrInfill
  cases hb : X[best]? with
  | none => rfl
  | some Xb =>
    cases hw : X[worst]? with
    | none => rfl
    | some Xw =>
      dsimp only
      refine nr_mapM_none _ _ X.length (by simpa using hX) ?_
      rw [List.getElem?_eq_none (le_refl X.length)]
      split_ifs <;> rfl

/-- ... and the offspring of a larger one do not match it, so that `tell` raises. -/
theorem C164_large_refuted {ι α β : Type*} [LinearOrder α] [LinearOrder β] [DecidableEq ι] (near : ι → ι → Bool)
    (at' : Attrs ι α β 1) (hc : Bool) (pop infills : List ι) (h : infills.length < pop.length) :
    swarmAdvance near at' hc pop infills = none := by
  unfold swarmAdvance replacementDo
  split_ifs with h1 h2 h3
  · rfl
  · simp only [List.isEmpty_iff] at h1
    exact absurd (List.length_eq_zero_iff.1 h2) h1
  · rfl
  · omega

/-! ### Examples -/

/-- Random numbers for the examples. -/
def nrExample (i : ℕ) : NrDraws ℚ 2 :=
  ⟨(i + 1) % 3, (i + 2) % 3, 1 / 2, 1 / 4, fun _ => 1 / 2, 1, 1 / 3, 1 / 5, 1 / 2, 9 / 10, 0, 0, 0, 0, 0⟩

example : DrawsOk (n := 2) 3 nrExample (fun _ _ => ((1 / 2 : ℚ), 1 / 2)) := by
  refine ⟨?_, ?_, ?_, ?_⟩
  · intro i hi; interval_cases i <;> decide
  · intro i hi; interval_cases i <;> decide
  · intro i hi; interval_cases i <;> decide
  · intro i j; norm_num

example : UsesRule (3 / 5 : ℚ) (nrExample 0) := Or.inl (by norm_num [nrExample])

/-- Three points in the unit square, the first one the best: one coordinate of its offspring is NaN, as `2 · 1/3 · 3/8 = 1/4`. -/
example : (nrInfill (1 / 10 ^ 12 : ℚ) (3 / 5) 2 100 3 0 2 [![1 / 2, 1 / 4], ![1, 0], ![3 / 4, 1]] (fun _ => 0) (fun _ => 1)
    nrExample (fun _ _ => (1 / 2, 1 / 2))).map (fun l => l.map fun f => ((f 0).isSome, (f 1).isSome)) =
    some [(true, false), (true, true), (true, true)] := by
  decide +kernel

end Props
