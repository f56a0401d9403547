import Verif.Lemmas.DecisionMaking
import Verif.Spec.Pareto
import Mathlib.Data.Fin.VecNotation
import Mathlib.Tactic.NormNum
import Mathlib.Tactic.FinCases
import Mathlib.Tactic.Ring
import Mathlib.Tactic.FieldSimp
import Mathlib.Algebra.BigOperators.Field

/-!
# C63: pseudo weights, C64: high trade-off points

C63: pseudo weights are non-negative and sum to one, and the solution returned is the (first) one whose pseudo weights are closest
to the preference given; refuted for a front that is constant in one objective (`nan`): the weights are then ignored.

C64: neighbours in two dimensions, trade-off values, and the outlier rule: the result contains the solution with the largest
trade-off, never skips a larger one, and is a single solution or at most a quarter of the set.
-/

set_option linter.unusedSimpArgs false
set_option linter.unusedVariables false
set_option linter.unusedSectionVars false

namespace Props
open Model Spec Lemmas

variable {m : ℕ}

/-- **Pseudo weights are weights**: for a solution between the ideal and the nadir point and better than the nadir point somewhere,
they are non-negative and sum to one. -/
theorem C63_weights (ideal nadir f : Fin m → ℝ) (hin : ∀ k, ideal k ≤ f k ∧ f k ≤ nadir k) (hr : ∀ k, ideal k < nadir k)
    (hs : ∃ k, f k < nadir k) : (∀ k, 0 ≤ pwRow ideal nadir f k) ∧ ∑ k, pwRow ideal nadir f k = 1 := by
  have h0 : ∀ k, 0 ≤ pwRaw ideal nadir f k := fun k =>
    div_nonneg (sub_nonneg.2 (hin k).2) (sub_nonneg.2 (hr k).le)
  obtain ⟨k0, hk0⟩ := hs
  have hpos : 0 < ∑ j, pwRaw ideal nadir f j := by
    apply Finset.sum_pos' (fun k _ => h0 k)
    exact ⟨k0, Finset.mem_univ _, div_pos (sub_pos.2 hk0) (sub_pos.2 (hr k0))⟩
  refine ⟨fun k => div_nonneg (h0 k) hpos.le, ?_⟩
  unfold pwRow
  rw [← Finset.sum_div, div_self hpos.ne']

/-- A solution that is best in objective `k` and worst in all others has all its weight on `k`. -/
theorem C63_extreme (ideal nadir f : Fin m → ℝ) (hr : ∀ k, ideal k < nadir k) (k : Fin m) (hk : f k = ideal k)
    (hj : ∀ j, j ≠ k → f j = nadir j) : ∀ j, pwRow ideal nadir f j = if j = k then 1 else 0 := by
  have h1 : ∀ j, pwRaw ideal nadir f j = if j = k then 1 else 0 := by
    intro j
    unfold pwRaw
    split_ifs with h
    · subst h; rw [hk, div_self (sub_ne_zero.2 (hr j).ne')]
    · rw [hj j h]; simp
  intro j
  unfold pwRow
  simp [h1]

/-- All objectives have a range in the set of solutions. -/
def HasRange (F : List (Fin m → ℝ)) : Prop := ∀ k, ∃ p ∈ F, ∃ q ∈ F, p k ≠ q k

/-- Mutually non-dominated solutions. -/
def NonDominatedSet (F : List (Fin m → ℝ)) : Prop := ∀ a ∈ F, ∀ b ∈ F, ¬ Dominates a b

/-- The distance of the pseudo weights of solution `f` to the preference `w`, ideal and nadir point taken from the set. -/
noncomputable def prefDist (w lo hi f : Fin m → ℝ) : ℝ := ∑ k, |pwRow lo hi f k - w k|

theorem pw_cost_fin (w : Fin m → ℝ) {F : List (Fin m → ℝ)} {lo hi : Fin m → ℝ} (hlo : ptMin F = some lo)
    (hhi : ptMax F = some hi) (hm : 0 < m) (hr : HasRange F) (hnd : NonDominatedSet F) {f : Fin m → ℝ} (hf : f ∈ F) :
    pwCost w lo hi f = .fin (prefDist w lo hi f) ∧ (∀ k, lo k < hi k) ∧ (∀ k, lo k ≤ f k ∧ f k ≤ hi k) ∧ ∃ k, f k < hi k := by
  have hb : ∀ g ∈ F, ∀ k, lo k ≤ g k ∧ g k ≤ hi k := fun g hg k =>
    ⟨(ptMin_spec hlo k).2 ⟨g, hg, rfl⟩, (ptMax_spec hhi k).2 ⟨g, hg, rfl⟩⟩
  have hlt : ∀ k, lo k < hi k := by
    intro k
    obtain ⟨p, hp, q, hq, hne⟩ := hr k
    rcases lt_or_gt_of_ne hne with h | h
    · exact ((hb p hp k).1.trans_lt h).trans_le (hb q hq k).2
    · exact ((hb q hq k).1.trans_lt h).trans_le (hb p hp k).2
  have hs : ∃ k, f k < hi k := by
    by_contra hc
    push Not at hc
    obtain ⟨p, hp, e⟩ := (ptMin_spec hlo ⟨0, hm⟩).1
    apply hnd p hp f hf
    refine ⟨fun k => (hb p hp k).2.trans (hc k), ⟨0, hm⟩, ?_⟩
    rw [← e]
    exact (hlt _).trans_le (hc _)
  refine ⟨?_, hlt, hb f hf, hs⟩
  unfold pwCost
  rw [if_neg (by rintro ⟨k, hk⟩; linarith [hlt k])]
  have hpos : 0 < ∑ j, pwRaw lo hi f j := by
    obtain ⟨k0, hk0⟩ := hs
    apply Finset.sum_pos' (fun k _ => div_nonneg (sub_nonneg.2 (hb f hf k).2) (sub_nonneg.2 (hlt k).le))
    exact ⟨k0, Finset.mem_univ _, div_pos (sub_pos.2 hk0) (sub_pos.2 (hlt k0))⟩
  rw [if_neg hpos.ne']
  rfl

/-- **The solution returned is the one with the closest pseudo weights** — for every set of mutually non-dominated solutions with a
range in every objective, and every preference. It is a valid position and the first of the closest ones. -/
theorem C63_choice (w : Fin m → ℝ) (F : List (Fin m → ℝ)) (hF : F ≠ []) (hm : 0 < m) (hr : HasRange F)
    (hnd : NonDominatedSet F) : ∃ (i : ℕ) (f lo hi : Fin m → ℝ), pseudoWeights w none none F = some i ∧ F[i]? = some f ∧
      (∀ k, IsLeast {r | ∃ p ∈ F, r = p k} (lo k) ∧ IsGreatest {r | ∃ p ∈ F, r = p k} (hi k)) ∧
      (∀ g ∈ F, prefDist w lo hi f ≤ prefDist w lo hi g) ∧
      (∀ j < i, ∀ g, F[j]? = some g → prefDist w lo hi f < prefDist w lo hi g) ∧
      (∀ g ∈ F, (∀ k, 0 ≤ pwRow lo hi g k) ∧ ∑ k, pwRow lo hi g k = 1) := by
  obtain ⟨lo, hlo⟩ : ∃ lo, ptMin F = some lo := by cases F with | nil => exact absurd rfl hF | cons a l => exact ⟨_, rfl⟩
  obtain ⟨hi, hhi⟩ : ∃ hi, ptMax F = some hi := by cases F with | nil => exact absurd rfl hF | cons a l => exact ⟨_, rfl⟩
  have hc : ∀ f ∈ F, pwCost w lo hi f = .fin (prefDist w lo hi f) := fun f hf => (pw_cost_fin w hlo hhi hm hr hnd hf).1
  have hne : F.isEmpty = false := by simpa using hF
  have hnan : ∀ x ∈ F.map (pwCost w lo hi), x.isNan = false := by
    intro x hx
    obtain ⟨f, hf, rfl⟩ := List.mem_map.1 hx
    rw [hc f hf]; rfl
  obtain ⟨x, h1, h2, h3⟩ := fltArgmin_spec _ hnan (by simpa using hF)
  rw [List.getElem?_map] at h1
  obtain ⟨f, hf, hx⟩ := Option.map_eq_some_iff.1 h1
  have hfm := List.mem_of_getElem? hf
  rw [hc f hfm] at hx
  subst hx
  refine ⟨_, f, lo, hi, ?_, hf, fun k => ⟨ptMin_spec hlo k, ptMax_spec hhi k⟩, ?_, ?_, ?_⟩
  · simp [pseudoWeights, hne, hlo, hhi]
  · intro g hg
    have := h2 _ (List.mem_map_of_mem hg)
    rw [hc g hg] at this
    exact this
  · intro j hj g hg
    have := h3 j hj (pwCost w lo hi g) (by rw [List.getElem?_map, hg]; rfl)
    rw [hc g (List.mem_of_getElem? hg)] at this
    simpa [Flt.lt] using this
  · intro g hg
    obtain ⟨_, a1, a2, a3⟩ := pw_cost_fin w hlo hhi hm hr hnd hg
    exact C63_weights lo hi g a2 a1 a3

/-- An empty set gives no choice. -/
theorem C63_empty (w : Fin m → ℝ) (a b : Option (Fin m → ℝ)) : pseudoWeights w a b [] = none := rfl

/-- **Refuted for a constant objective**: the preference is ignored, the first solution is returned whatever the weights are, although the
set is mutually non-dominated (here the third objective is constant). -/
theorem C63_constant_objective_refuted : ∃ F : List (Fin 3 → ℝ), NonDominatedSet F ∧ F.length = 2 ∧
    ∀ w : Fin 3 → ℝ, pseudoWeights w none none F = some 0 := by
  refine ⟨[![0, 1, 5], ![1, 0, 5]], ?_, rfl, ?_⟩
  · intro a ha b hb hd
    simp only [List.mem_cons, List.not_mem_nil, or_false] at ha hb
    have h0 := hd.1 0
    have h1 := hd.1 1
    obtain ⟨k, hk⟩ := hd.2
    rcases ha with rfl | rfl <;> rcases hb with rfl | rfl
    · exact lt_irrefl _ hk
    · simp at h1; linarith
    · simp at h0; linarith
    · exact lt_irrefl _ hk
  · intro w
    simp only [pseudoWeights, List.isEmpty_cons, Bool.false_eq_true, if_false, ptMin, ptMax, Option.bind_some, Option.map_some,
      Option.getD_none, Option.some.injEq]
    apply fltArgmin_nan
    · simp only [List.map_cons, List.getElem?_cons_zero, Option.map_some, Option.some.injEq]
      unfold pwCost
      rw [if_pos ⟨2, by simp⟩]
      rfl
    · intro j hj; omega

/-- Non-vacuity: a front of three solutions. -/
example : HasRange ([![0, 2], ![1, 1], ![2, 0]] : List (Fin 2 → ℝ)) ∧ NonDominatedSet ([![0, 2], ![1, 1], ![2, 0]] : List (Fin 2 → ℝ)) := by
  constructor
  · intro k
    exact ⟨![0, 2], by simp, ![1, 1], by simp, by fin_cases k <;> simp⟩
  · intro a ha b hb hd
    simp only [List.mem_cons, List.not_mem_nil, or_false] at ha hb
    have h0 := hd.1 0
    have h1 := hd.1 1
    obtain ⟨k, hk⟩ := hd.2
    rcases ha with rfl | rfl | rfl <;> rcases hb with rfl | rfl | rfl <;>
      first
      | exact lt_irrefl _ hk
      | (norm_num at h0 h1; done)
      | (norm_num at h0; done)

/-! ### C64 -/

/-- **Neighbours in two dimensions**: at most two, valid, never the solution itself; the relation is symmetric; no solution lies strictly
between neighbours in the first objective. `rank` is any sorting permutation of the first objective `x`. -/
theorem C64_find2d (n : ℕ) (x : ℕ → ℝ) (rank : List ℕ) (hperm : rank.Perm (List.range n))
    (hsort : rank.Pairwise fun i j => x i ≤ x j) (i : ℕ) (hi : i < n) :
    (find2d rank i).length ≤ 2 ∧ (∀ j ∈ find2d rank i, j < n ∧ j ≠ i ∧ i ∈ find2d rank j) ∧
    (∀ j ∈ find2d rank i, ∀ k < n, ¬ (min (x i) (x j) < x k ∧ x k < max (x i) (x j))) ∧
    (2 ≤ n → find2d rank i ≠ []) := by
  have hlen : rank.length = n := by simpa using hperm.length_eq
  have hnd : rank.Nodup := hperm.nodup_iff.2 List.nodup_range
  have hmem : ∀ k, k ∈ rank ↔ k < n := fun k => by rw [hperm.mem_iff, List.mem_range]
  have hpos : ∀ k < n, rank.idxOf k < n ∧ rank[rank.idxOf k]? = some k := by
    intro k hk
    have h1 := List.idxOf_lt_length_of_mem ((hmem k).2 hk)
    exact ⟨hlen ▸ h1, by rw [List.getElem?_eq_getElem h1]; simp⟩
  have hidx : ∀ p j, rank[p]? = some j → rank.idxOf j = p ∧ j < n := by
    intro p j h
    obtain ⟨hp, rfl⟩ := List.getElem?_eq_some_iff.1 h
    exact ⟨hnd.idxOf_getElem p hp, (hmem _).1 (List.getElem_mem hp)⟩
  -- membership in `find2d`
  have hfind : ∀ a b, a < n → (b ∈ find2d rank a ↔ b < n ∧ (rank.idxOf b + 1 = rank.idxOf a ∨ rank.idxOf a + 1 = rank.idxOf b)) := by
    intro a b ha
    obtain ⟨pa, ga⟩ := hpos a ha
    unfold find2d posInRank
    simp only [List.mem_append]
    constructor
    · rintro (h | h)
      · split_ifs at h with hc
        · simp only [Option.mem_toList] at h
          obtain ⟨e, hb⟩ := hidx _ _ h
          exact ⟨hb, Or.inl (by omega)⟩
        · simp at h
      · split_ifs at h with hc
        · simp only [Option.mem_toList] at h
          obtain ⟨e, hb⟩ := hidx _ _ h
          exact ⟨hb, Or.inr (by omega)⟩
        · simp at h
    · rintro ⟨hb, h⟩
      obtain ⟨pb, gb⟩ := hpos b hb
      rcases h with h | h
      · left
        rw [if_pos (by omega)]
        simp only [Option.mem_toList]
        rw [show rank.idxOf a - 1 = rank.idxOf b by omega]; exact gb
      · right
        rw [if_pos (by omega)]
        simp only [Option.mem_toList]
        rw [h]; exact gb
  have hmono : ∀ a b, a < n → b < n → rank.idxOf a < rank.idxOf b → x a ≤ x b := by
    intro a b ha hb hab
    obtain ⟨pa, ga⟩ := hpos a ha
    obtain ⟨pb, gb⟩ := hpos b hb
    have h1 : rank.idxOf a < rank.length := by omega
    have h2 : rank.idxOf b < rank.length := by omega
    rw [List.getElem?_eq_getElem h1, Option.some.injEq] at ga
    rw [List.getElem?_eq_getElem h2, Option.some.injEq] at gb
    have := List.pairwise_iff_getElem.1 hsort _ _ h1 h2 hab
    rwa [ga, gb] at this
  refine ⟨?_, ?_, ?_, ?_⟩
  · unfold find2d
    simp only [List.length_append]
    have : ∀ o : Option ℕ, o.toList.length ≤ 1 := by intro o; cases o <;> simp
    split_ifs <;> simp <;> (have := this (rank[posInRank rank i - 1]?)) <;>
      grind
  · intro j hj
    obtain ⟨hjn, h⟩ := (hfind i j hi).1 hj
    refine ⟨hjn, ?_, (hfind j i hjn).2 ⟨hi, h.symm⟩⟩
    rintro rfl
    omega
  · intro j hj k hk ⟨hlo, hhi⟩
    obtain ⟨hjn, h⟩ := (hfind i j hi).1 hj
    have key : ∀ a b, a < n → b < n → rank.idxOf a + 1 = rank.idxOf b → x k ≤ x a ∨ x b ≤ x k := by
      intro a b ha hb hab
      rcases Nat.lt_trichotomy (rank.idxOf k) (rank.idxOf a) with h | h | h
      · exact Or.inl (hmono k a hk ha h)
      · left
        have := (hpos k hk).2
        rw [h, (hpos a ha).2, Option.some.injEq] at this
        rw [this]
      · rcases Nat.lt_or_ge (rank.idxOf b) (rank.idxOf k) with h' | h'
        · exact Or.inr (hmono b k hb hk h')
        · have he : rank.idxOf k = rank.idxOf b := by omega
          right
          have := (hpos k hk).2
          rw [he, (hpos b hb).2, Option.some.injEq] at this
          rw [this]
    rcases h with h | h
    · have hji := hmono j i hjn hi (by omega)
      rw [min_eq_right hji] at hlo
      rw [max_eq_left hji] at hhi
      rcases key j i hjn hi h with h | h <;> linarith
    · have hij := hmono i j hi hjn (by omega)
      rw [min_eq_left hij] at hlo
      rw [max_eq_right hij] at hhi
      rcases key i j hi hjn h with h | h <;> linarith
  · intro h2
    obtain ⟨pi, gi⟩ := hpos i hi
    by_cases h0 : rank.idxOf i = 0
    · have hb : 1 < rank.length := by omega
      have hm : rank[1] ∈ find2d rank i := by
        rw [hfind i _ hi]
        obtain ⟨e, hn⟩ := hidx 1 _ (List.getElem?_eq_getElem hb)
        exact ⟨hn, Or.inr (by omega)⟩
      exact List.ne_nil_of_mem hm
    · have hb : rank.idxOf i - 1 < rank.length := by omega
      have hm : rank[rank.idxOf i - 1] ∈ find2d rank i := by
        rw [hfind i _ hi]
        obtain ⟨e, hn⟩ := hidx _ _ (List.getElem?_eq_getElem hb)
        exact ⟨hn, Or.inl (by omega)⟩
      exact List.ne_nil_of_mem hm

theorem sacrifice_pos_iff (f g : Fin m → ℝ) : 0 < sacrifice f g ↔ ∃ k, f k < g k := by
  unfold sacrifice
  constructor
  · intro h
    by_contra hc
    push Not at hc
    have : ∑ k, max 0 (g k - f k) = 0 := Finset.sum_eq_zero fun k _ => max_eq_left (by have := hc k; linarith)
    linarith
  · rintro ⟨k, hk⟩
    apply Finset.sum_pos' (fun k _ => le_max_left _ _)
    exact ⟨k, Finset.mem_univ _, lt_max_of_lt_right (by linarith)⟩

theorem gain_eq (f g : Fin m → ℝ) : gain f g = sacrifice g f := by
  unfold gain sacrifice
  apply Finset.sum_congr rfl
  intro k _
  congr 1
  ring

theorem sacrifice_nonneg (f g : Fin m → ℝ) : 0 ≤ sacrifice f g := Finset.sum_nonneg fun k _ => le_max_left _ _

/-- **Trade-off values of a non-dominated set**: the value of a solution is a positive number, attained by a neighbour with
different objective values and not larger than the loss-to-gain ratio to any other such neighbour. -/
theorem C64_tradeoff (F : List (Fin m → ℝ)) (hnd : NonDominatedSet F) (nb : ℕ → List ℕ) (i : ℕ) (f : Fin m → ℝ)
    (hf : F[i]? = some f) (hnb : ∃ j ∈ nb i, ∃ g, F[j]? = some g ∧ g ≠ f) :
    ∃ v, (tradeoffs nb F)[i]? = some (.fin v) ∧ 0 < v ∧
      (∃ j ∈ nb i, ∃ g, F[j]? = some g ∧ g ≠ f ∧ v * gain f g = sacrifice f g) ∧
      ∀ j ∈ nb i, ∀ g, F[j]? = some g → g ≠ f → v * gain f g ≤ sacrifice f g := by
  have hfm := List.mem_of_getElem? hf
  have hstep : ∀ g ∈ F, (g = f → tradeoff f g = .nan) ∧
      (g ≠ f → 0 < gain f g ∧ 0 < sacrifice f g ∧ tradeoff f g = .fin (sacrifice f g / gain f g)) := by
    intro g hg
    constructor
    · rintro rfl
      simp [tradeoff, gain, sacrifice]
    · intro hne
      have h1 : ∃ k, g k < f k := by
        by_contra hc
        push Not at hc
        apply hnd f hfm g hg
        refine ⟨hc, ?_⟩
        by_contra hc2
        push Not at hc2
        exact hne (funext fun k => le_antisymm (hc2 k) (hc k))
      have h2 : ∃ k, f k < g k := by
        by_contra hc
        push Not at hc
        obtain ⟨k, hk⟩ := h1
        exact hnd g hg f hfm ⟨hc, k, hk⟩
      have hgain : 0 < gain f g := by rw [gain_eq, sacrifice_pos_iff]; exact h1
      have hsac : 0 < sacrifice f g := (sacrifice_pos_iff f g).2 h2
      refine ⟨hgain, hsac, ?_⟩
      unfold tradeoff
      rw [if_neg hgain.ne']
  set L := (nb i).filterMap fun j => (F[j]?).map (tradeoff f) with hL
  have hget : (tradeoffs nb F)[i]? = some (nanmin L) := by
    unfold tradeoffs
    rw [List.getElem?_map, List.getElem?_zipIdx, hf]
    simp [hL]
  have hLm : ∀ t, t ∈ L ↔ ∃ j ∈ nb i, ∃ g, F[j]? = some g ∧ tradeoff f g = t := by
    intro t
    rw [hL, List.mem_filterMap]
    constructor
    · rintro ⟨j, hj, h⟩
      obtain ⟨g, hg, rfl⟩ := Option.map_eq_some_iff.1 h
      exact ⟨j, hj, g, hg, rfl⟩
    · rintro ⟨j, hj, g, hg, rfl⟩
      exact ⟨j, hj, by rw [hg]; rfl⟩
  have hex : ∃ x ∈ L, x.isNan = false := by
    obtain ⟨j, hj, g, hg, hne⟩ := hnb
    refine ⟨_, (hLm _).2 ⟨j, hj, g, hg, rfl⟩, ?_⟩
    rw [((hstep g (List.mem_of_getElem? hg)).2 hne).2.2]; rfl
  obtain ⟨h1, h2, h3⟩ := nanmin_spec L hex
  obtain ⟨j, hj, g, hg, he⟩ := (hLm _).1 h1
  have hgm := List.mem_of_getElem? hg
  have hgf : g ≠ f := by
    rintro rfl
    rw [((hstep g hgm).1 rfl)] at he
    rw [← he] at h2; simp [Flt.isNan] at h2
  obtain ⟨p1, p2, p3⟩ := (hstep g hgm).2 hgf
  rw [p3] at he
  refine ⟨sacrifice f g / gain f g, by rw [hget, he], div_pos p2 p1, ⟨j, hj, g, hg, hgf, by field_simp⟩, ?_⟩
  intro j' hj' g' hg' hne'
  obtain ⟨q1, q2, q3⟩ := (hstep g' (List.mem_of_getElem? hg')).2 hne'
  have := h3 _ ((hLm _).2 ⟨j', hj', g', hg', rfl⟩) (by rw [q3]; rfl)
  rw [← he, q3] at this
  simp only [Flt.Le] at this
  rwa [le_div_iff₀ q1] at this

/-! ### the outlier rule -/

/-- Mean and variance of a list. -/
noncomputable def mean (v : List ℝ) : ℝ := v.sum / v.length
noncomputable def variance (v : List ℝ) : ℝ := (v.map fun x => (x - mean v) ^ 2).sum / v.length

/-- The finite trade-off values. -/
def finiteVals (mu : List Flt) : List ℝ := mu.filterMap fun x => match x with | .fin v => some v | _ => none

theorem outlier_vals (mu : List Flt) :
    (((List.range mu.length).filter fun i => ((mu[i]?).map Flt.isFinite).getD false).map fun i => ((mu[i]?).map Flt.val).getD 0) =
      finiteVals mu := by
  induction mu using List.reverseRecOn with
  | nil => rfl
  | append_singleton mu x ih =>
    have hf : finiteVals (mu ++ [x]) = finiteVals mu ++ finiteVals [x] := by simp [finiteVals]
    rw [hf, ← ih, List.length_append, List.length_singleton, List.range_succ, List.filter_append, List.map_append]
    congr 1
    · have : ∀ i ∈ List.range mu.length, (mu ++ [x])[i]? = mu[i]? := by
        intro i hi; rw [List.getElem?_append_left (List.mem_range.1 hi)]
      rw [List.filter_congr (fun i hi => by rw [this i hi])]
      apply List.map_congr_left
      intro i hi
      rw [this i (List.mem_filter.1 hi).1]
    · cases x <;> simp [finiteVals, Flt.isFinite, Flt.val]

theorem mem_outlier_zip {I : List ℕ} {v : List ℝ} (g : ℕ → ℝ) (hv : v = I.map g) (h : ℝ → ℝ) (i : ℕ) (d : ℝ) :
    (i, d) ∈ I.zip (v.map h) ↔ i ∈ I ∧ d = h (g i) := by
  subst hv
  rw [List.map_map]
  constructor
  · intro hm
    rw [List.zip_map_right, List.mem_map] at hm
    obtain ⟨⟨a, b⟩, hab, he⟩ := hm
    simp only [Prod.map_apply, id, Prod.mk.injEq] at he
    have hab' : a = b ∧ a ∈ I := by
      have : ∀ (l : List ℕ), (a, b) ∈ l.zip l → a = b ∧ a ∈ l := by
        intro l
        induction l with
        | nil => simp
        | cons c l ih =>
          intro h
          simp only [List.zip_cons_cons, List.mem_cons, Prod.mk.injEq] at h
          rcases h with ⟨rfl, rfl⟩ | h
          · exact ⟨rfl, List.mem_cons_self⟩
          · exact ⟨(ih h).1, List.mem_cons_of_mem _ (ih h).2⟩
      exact this I hab
    obtain ⟨rfl, hI⟩ := hab'
    obtain ⟨rfl, rfl⟩ := he
    exact ⟨hI, rfl⟩
  · rintro ⟨hi, rfl⟩
    induction I with
    | nil => simp at hi
    | cons c I ih =>
      simp only [List.map_cons, List.zip_cons_cons, List.mem_cons, Prod.mk.injEq]
      rcases List.mem_cons.1 hi with rfl | hi
      · left; exact ⟨rfl, rfl⟩
      · right; exact ih hi

theorem variance_nonneg (v : List ℝ) : 0 ≤ variance v :=
  div_nonneg (List.sum_nonneg fun x hx => by obtain ⟨y, _, rfl⟩ := List.mem_map.1 hx; exact sq_nonneg _) (Nat.cast_nonneg _)

theorem chebyshev (μ σ : ℝ) (hσ : 0 ≤ σ) : ∀ v : List ℝ,
    ((v.map fun x => (x - μ) / σ).filter fun d => decide (2 ≤ d)).length * (4 * σ ^ 2) ≤ (v.map fun x => (x - μ) ^ 2).sum
  | [] => by simp
  | x :: v => by
    have ih := chebyshev μ σ hσ v
    simp only [List.map_cons, List.filter_cons, List.sum_cons]
    rcases hσ.eq_or_lt with h0 | hpos
    · rw [← h0] at ih ⊢
      have := sq_nonneg (x - μ)
      simp at ih ⊢
      positivity
    split_ifs with h
    · rw [decide_eq_true_eq, le_div_iff₀ hpos] at h
      have : (2 * σ) ^ 2 ≤ (x - μ) ^ 2 := pow_le_pow_left₀ (by positivity) h 2
      simp only [List.length_cons, Nat.cast_add, Nat.cast_one]
      nlinarith
    · have := sq_nonneg (x - μ)
      linarith

/-- **The outlier rule**: positions returned are positions of finite values; if some value exceeds the mean by at least twice the
standard deviation, exactly those are returned, and they are at most a quarter of the finite values; otherwise a single largest
value is returned if it exceeds the mean by more than the standard deviation, else nothing. In every case no value outside the result is
larger than one inside. It raises exactly if there is no finite value. -/
theorem C64_outliers (mu : List Flt) :
    (outliers mu = none ↔ finiteVals mu = []) ∧
    ∀ res, outliers mu = some res →
      (res = none ↔ ∀ x ∈ finiteVals mu, x - mean (finiteVals mu) ≤ Real.sqrt (variance (finiteVals mu)) ) ∧
      ∀ S, res = some S → S ≠ [] ∧
        (∀ i ∈ S, ∃ x, mu[i]? = some (.fin x) ∧ (∀ j y, j ∉ S → mu[j]? = some (.fin y) → y ≤ x)) ∧
        (S.length = 1 ∨ 4 * S.length ≤ (finiteVals mu).length) ∧
        ((∃ x ∈ finiteVals mu, 2 * Real.sqrt (variance (finiteVals mu)) ≤ x - mean (finiteVals mu)) →
          ∀ i x, mu[i]? = some (.fin x) →
            (i ∈ S ↔ 2 * Real.sqrt (variance (finiteVals mu)) ≤ x - mean (finiteVals mu))) := by
  classical
  set I := (List.range mu.length).filter fun i => ((mu[i]?).map Flt.isFinite).getD false with hI
  set g : ℕ → ℝ := fun i => ((mu[i]?).map Flt.val).getD 0 with hg
  have hv : finiteVals mu = I.map g := (outlier_vals mu).symm
  set v := finiteVals mu with hvdef
  have hII : ∀ i, i ∈ I ↔ ∃ x, mu[i]? = some (.fin x) := by
    intro i
    rw [hI, List.mem_filter, List.mem_range]
    constructor
    · rintro ⟨hl, h⟩
      rw [List.getElem?_eq_getElem hl] at h ⊢
      cases hm : mu[i] with
      | fin x => exact ⟨x, rfl⟩
      | nan => rw [hm] at h; simp [Flt.isFinite] at h
      | inf => rw [hm] at h; simp [Flt.isFinite] at h
    · rintro ⟨x, hx⟩
      refine ⟨?_, by rw [hx]; rfl⟩
      by_contra hc
      rw [List.getElem?_eq_none (not_lt.1 hc)] at hx
      simp at hx
  have hgx : ∀ i x, mu[i]? = some (.fin x) → g i = x := by
    intro i x h; simp only [hg, h]; rfl
  have hvm : ∀ x, x ∈ v ↔ ∃ i : ℕ, mu[i]? = some (Flt.fin x) := by
    intro x
    rw [hv, List.mem_map]
    constructor
    · rintro ⟨i, hi, rfl⟩
      obtain ⟨y, hy⟩ := (hII i).1 hi
      exact ⟨i, by rw [hgx i y hy, hy]⟩
    · rintro ⟨i, hi⟩
      exact ⟨i, (hII i).2 ⟨x, hi⟩, hgx i x hi⟩
  have hIe : I = [] ↔ v = [] := by rw [hv]; simp
  have hstd : npStd v = Real.sqrt (variance v) := rfl
  set σ := Real.sqrt (variance v) with hσ
  have hσ0 : 0 ≤ σ := Real.sqrt_nonneg _
  have hmean : v.sum / v.length = mean v := rfl
  -- unfold the definition
  have hout : outliers mu = if I.isEmpty then none else if σ = 0 then some none else
      let S := ((I.zip (v.map fun x => (x - mean v) / σ)).filter fun e => decide (2 ≤ e.2)).map Prod.fst
      if S.isEmpty ∧ (∃ d ∈ v.map fun x => (x - mean v) / σ, 1 < d) then some (some [I.getD (fltArgmin (v.map fun x => Flt.fin (-x))) 0])
      else if S.isEmpty then some none else some (some S) := by
    unfold outliers
    simp only [← hI, ← hg, ← hv, hstd, hmean]
  rw [hout]
  by_cases hIne : I = []
  · have hvn := hIe.1 hIne
    simp [hIne, hvn]
  have hvn : v ≠ [] := fun h => hIne (hIe.2 h)
  have hIb : I.isEmpty = false := by simpa using hIne
  rw [hIb]
  simp only [Bool.false_eq_true, if_false]
  have hlen : (0 : ℝ) < v.length := by
    have : 0 < v.length := List.length_pos_iff.2 hvn
    exact_mod_cast this
  by_cases hs0 : σ = 0
  · rw [if_pos hs0]
    refine ⟨by simp [hvn], ?_⟩
    intro res hres
    simp only [Option.some.injEq] at hres
    subst hres
    refine ⟨⟨fun _ x hx => ?_, fun _ => rfl⟩, by simp⟩
    have hz : variance v = 0 := (Real.sqrt_eq_zero (variance_nonneg v)).1 hs0
    unfold variance at hz
    rw [div_eq_zero_iff] at hz
    rcases hz with hz | hz
    · have := (sum_eq_zero_iff_nonneg _ (fun y hy => by obtain ⟨z, _, rfl⟩ := List.mem_map.1 hy; exact sq_nonneg _)).1 hz
        _ (List.mem_map_of_mem (f := fun x => (x - mean v) ^ 2) hx)
      rw [sq_eq_zero_iff] at this
      rw [this]; exact hσ0
    · exact absurd hz hlen.ne'
  have hσp : 0 < σ := lt_of_le_of_ne hσ0 (Ne.symm hs0)
  rw [if_neg hs0]
  set S := ((I.zip (v.map fun x => (x - mean v) / σ)).filter fun e => decide (2 ≤ e.2)).map Prod.fst with hS
  have hSm : ∀ i, i ∈ S ↔ ∃ x, mu[i]? = some (.fin x) ∧ 2 * σ ≤ x - mean v := by
    intro i
    rw [hS, List.mem_map]
    constructor
    · rintro ⟨⟨i', d⟩, h, rfl⟩
      obtain ⟨h1, h2⟩ := List.mem_filter.1 h
      obtain ⟨h3, rfl⟩ := (mem_outlier_zip g hv (fun x => (x - mean v) / σ) i' d).1 h1
      obtain ⟨x, hx⟩ := (hII i').1 h3
      refine ⟨x, hx, ?_⟩
      simp only [decide_eq_true_eq, hgx i' x hx] at h2
      rwa [le_div_iff₀ hσp] at h2
    · rintro ⟨x, hx, h⟩
      refine ⟨(i, (x - mean v) / σ), ?_, rfl⟩
      rw [List.mem_filter]
      refine ⟨(mem_outlier_zip g hv (fun x => (x - mean v) / σ) i _).2 ⟨(hII i).2 ⟨x, hx⟩, by rw [hgx i x hx]⟩, ?_⟩
      simp only [decide_eq_true_eq]
      rwa [le_div_iff₀ hσp]
  have hbig : (∃ d ∈ v.map fun x => (x - mean v) / σ, 1 < d) ↔ ∃ x ∈ v, σ < x - mean v := by
    simp only [List.mem_map, exists_exists_and_eq_and, one_lt_div hσp]
  simp only [hbig]
  have hSe : S = [] ↔ ∀ x ∈ v, x - mean v < 2 * σ := by
    constructor
    · intro h x hx
      by_contra hc
      obtain ⟨i, hi⟩ := (hvm x).1 hx
      have := (hSm i).2 ⟨x, hi, not_lt.1 hc⟩
      rw [h] at this; simp at this
    · intro h
      rw [List.eq_nil_iff_forall_not_mem]
      intro i hi
      obtain ⟨x, hx, h2⟩ := (hSm i).1 hi
      exact absurd (h x ((hvm x).2 ⟨i, hx⟩)) (not_lt.2 h2)
  by_cases hSn : S = []
  · have hSb : S.isEmpty = true := by simpa using hSn
    have hall := hSe.1 hSn
    simp only [hSb, true_and, if_true]
    by_cases hex : ∃ x ∈ v, σ < x - mean v
    · rw [if_pos hex]
      refine ⟨by simp [hvn], ?_⟩
      intro res hres
      simp only [Option.some.injEq] at hres
      subst hres
      refine ⟨⟨by simp, ?_⟩, ?_⟩
      · intro h
        obtain ⟨x, hx, h1⟩ := hex
        exact absurd (h x hx) (not_le.2 h1)
      · intro S' hS'
        simp only [Option.some.injEq] at hS'
        subst hS'
        obtain ⟨y, h1, h2, _⟩ := fltArgmin_spec (v.map fun x => Flt.fin (-x))
          (by intro x hx; obtain ⟨z, _, rfl⟩ := List.mem_map.1 hx; rfl) (by simpa using hvn)
        rw [List.getElem?_map] at h1
        obtain ⟨b, hb, rfl⟩ := Option.map_eq_some_iff.1 h1
        have hmax : ∀ x ∈ v, x ≤ b := by
          intro x hx
          have := h2 _ (List.mem_map_of_mem hx)
          simp only [Flt.Le] at this
          linarith
        set p := fltArgmin (v.map fun x => Flt.fin (-x)) with hp
        obtain ⟨i0, hi0, hgi0⟩ : ∃ i0, I[p]? = some i0 ∧ g i0 = b := by
          rw [hv, List.getElem?_map] at hb
          exact Option.map_eq_some_iff.1 hb
        have hgd : I.getD p 0 = i0 := by rw [List.getD_eq_getElem?_getD, hi0]; rfl
        rw [hgd]
        obtain ⟨x0, hx0⟩ := (hII i0).1 (List.mem_of_getElem? hi0)
        have hxb : x0 = b := by rw [← hgi0, hgx i0 x0 hx0]
        subst hxb
        refine ⟨by simp, ?_, Or.inl rfl, ?_⟩
        · intro i hi
          simp only [List.mem_singleton] at hi
          subst hi
          exact ⟨x0, hx0, fun j y _ hy => hmax y ((hvm y).2 ⟨j, hy⟩)⟩
        · rintro ⟨x, hx, h⟩
          exact absurd (hall x hx) (not_lt.2 h)
    · rw [if_neg hex]
      push Not at hex
      refine ⟨by simp [hvn], ?_⟩
      intro res hres
      simp only [Option.some.injEq] at hres
      subst hres
      exact ⟨⟨fun _ => hex, fun _ => rfl⟩, by simp⟩
  · have hSb : S.isEmpty = false := by simpa using hSn
    simp only [hSb, Bool.false_eq_true, false_and, if_false]
    refine ⟨by simp [hvn], ?_⟩
    intro res hres
    simp only [Option.some.injEq] at hres
    subst hres
    obtain ⟨i1, hi1⟩ := List.exists_mem_of_ne_nil S hSn
    obtain ⟨x1, hx1, hx1'⟩ := (hSm i1).1 hi1
    refine ⟨⟨by simp, ?_⟩, ?_⟩
    · intro h
      have := h x1 ((hvm x1).2 ⟨i1, hx1⟩)
      linarith
    · intro S' hS'
      simp only [Option.some.injEq] at hS'
      subst hS'
      refine ⟨hSn, ?_, Or.inr ?_, ?_⟩
      · intro i hi
        obtain ⟨x, hx, h2⟩ := (hSm i).1 hi
        refine ⟨x, hx, fun j y hj hy => ?_⟩
        have : ¬ 2 * σ ≤ y - mean v := fun hc => hj ((hSm j).2 ⟨y, hy, hc⟩)
        linarith
      · have hSl : S.length = ((v.map fun x => (x - mean v) / σ).filter fun d => decide (2 ≤ d)).length := by
          have hl : (v.map fun x => (x - mean v) / σ).length ≤ I.length := by rw [hv]; simp
          rw [hS, List.length_map]
          conv_rhs => rw [← List.map_snd_zip hl, List.filter_map, List.length_map]
          rfl
        have hc := chebyshev (mean v) σ hσ0 v
        rw [← hSl] at hc
        have hvar : (v.map fun x => (x - mean v) ^ 2).sum = v.length * σ ^ 2 := by
          rw [hσ, Real.sq_sqrt (variance_nonneg v)]
          unfold variance
          field_simp
        rw [hvar] at hc
        have hσ2 : 0 < σ ^ 2 := by positivity
        have : (4 * S.length : ℝ) ≤ v.length := by
          have : (4 * S.length : ℝ) * σ ^ 2 ≤ v.length * σ ^ 2 := by linarith
          exact le_of_mul_le_mul_right this hσ2
        exact_mod_cast this
      · intro _ i x hx
        rw [hSm]
        constructor
        · rintro ⟨y, hy, h⟩
          rw [hx] at hy
          simp only [Option.some.injEq, Flt.fin.injEq] at hy
          rw [hy]; exact h
        · intro h; exact ⟨x, hx, h⟩

/-- Non-vacuity: one large value among five. -/
example : ∃ S, outliers [.fin 0, .fin 0, .nan, .fin 0, .fin 0, .fin 10] = some (some S) ∧ S ≠ [] := by
  have hv : finiteVals [.fin 0, .fin 0, .nan, .fin 0, .fin 0, .fin 10] = [0, 0, 0, 0, 10] := rfl
  obtain ⟨h1, h2⟩ := C64_outliers [.fin 0, .fin 0, .nan, .fin 0, .fin 0, .fin 10]
  rw [hv] at h1 h2
  cases ho : outliers [.fin 0, .fin 0, .nan, .fin 0, .fin 0, .fin 10] with
  | none => simp at h1; exact absurd ho h1
  | some res =>
    cases res with
    | some S => exact ⟨S, rfl, ((h2 _ ho).2 S rfl).1⟩
    | none =>
      have := ((h2 _ ho).1).1 rfl 10 (by simp)
      exfalso
      have hm : mean [0, 0, 0, 0, 10] = 2 := by simp [mean]; norm_num
      have hva : variance [0, 0, 0, 0, 10] = 4 ^ 2 := by unfold variance; rw [hm]; simp; norm_num
      rw [hm, hva, Real.sqrt_sq (by norm_num)] at this
      norm_num at this

end Props
