import Verif.Model.CompiledPruning
import Verif.Props.Pruning
import Mathlib.Tactic.FieldSimp
import Mathlib.Tactic.Ring
import Mathlib.Tactic.IntervalCases

/-!
# C122: the compiled pruning crowding distance

The compiled `calc_pcd` keeps the sorted columns and recomputes only the neighbours of the removed point. It is greedy pruning as in C91 (with the distances
divided by the number of objectives) *if* no two points agree in an objective and the points to be removed are not more than those which are not extreme.
Otherwise it reads outside of its arrays.
-/

set_option linter.unusedSimpArgs false
set_option linter.unusedVariables false
set_option linter.unusedSectionVars false

namespace Props
open Model Spec Lemmas
open scoped BigOperators

variable {K : Type*} [Field K] [LinearOrder K] [IsStrictOrderedRing K] {M : ℕ}

/-! ### Greedy pruning, independent of how the values are computed -/

/-- `ks` were removed greedily; `d` holds the values of the points left, and of the removed points at the time of their removal. -/
structure PruneTrace (D : List ℕ → ℕ → WithTop K) (E : List ℕ) (N : ℕ) (ks : List ℕ) (d : ℕ → WithTop K) : Prop where
  nodup : ks.Nodup
  lt : ∀ k ∈ ks, k < N
  greedy : GreedyPruning D E N ks
  cur : ∀ i ∈ left N ks, d i = prVal D E (left N ks) i
  kept : ∀ t (ht : t < ks.length), d ks[t] = prVal D E (left N (ks.take t)) ks[t]

theorem mem_left {N : ℕ} {ks : List ℕ} {i : ℕ} : i ∈ left N ks ↔ i < N ∧ i ∉ ks := by simp [left]

theorem left_nodup (N : ℕ) (ks : List ℕ) : (left N ks).Nodup := List.nodup_range.filter _

theorem left_nil (N : ℕ) : left N [] = List.range N := by simp [left]

theorem PruneTrace.start {D : List ℕ → ℕ → WithTop K} {E : List ℕ} {N : ℕ} {d : ℕ → WithTop K} (h : ∀ i < N, d i = prVal D E (List.range N) i) :
    PruneTrace D E N [] d :=
  ⟨by simp, by simp, fun t ht => by simp at ht, fun i hi => by rw [left_nil] at hi ⊢; exact h i (List.mem_range.1 hi), fun t ht => by simp at ht⟩

theorem PruneTrace.snoc {D : List ℕ → ℕ → WithTop K} {E : List ℕ} {N : ℕ} {ks : List ℕ} {d d' : ℕ → WithTop K} (h : PruneTrace D E N ks d) {k : ℕ}
    (hk : k ∈ left N ks) (hmin : ∀ y ∈ left N ks, d k ≤ d y) (hcur : ∀ i ∈ left N (ks ++ [k]), d' i = prVal D E (left N (ks ++ [k])) i)
    (hold : ∀ i ∈ ks ++ [k], d' i = d i) : PruneTrace D E N (ks ++ [k]) d' := by
  obtain ⟨hkN, hkk⟩ := mem_left.1 hk
  have htake : ∀ t, t < ks.length → (ks ++ [k]).take t = ks.take t := fun t ht => List.take_append_of_le_length (by omega)
  refine ⟨?_, ?_, ?_, hcur, ?_⟩
  · rw [List.nodup_append]
    exact ⟨h.nodup, by simp, fun a ha b hb => by simp at hb; subst hb; exact fun h => hkk (h ▸ ha)⟩
  · intro a ha
    rcases List.mem_append.1 ha with h1 | h1
    · exact h.lt a h1
    · simp at h1; rw [h1]; exact hkN
  · intro t ht
    rcases Nat.lt_or_ge t ks.length with h1 | h1
    · rw [htake t h1, List.getElem_append_left h1]; exact h.greedy t h1
    · have : t = ks.length := by simp at ht; omega
      subst this
      rw [List.take_left' rfl, List.getElem_append_right le_rfl]
      simp only [Nat.sub_self, List.getElem_cons_zero]
      refine ⟨hk, fun y hy => ?_⟩
      rw [← h.cur k hk, ← h.cur y hy]
      exact hmin y hy
  · intro t ht
    rw [hold _ (List.getElem_mem _)]
    rcases Nat.lt_or_ge t ks.length with h1 | h1
    · rw [htake t h1, List.getElem_append_left h1]; exact h.kept t h1
    · have : t = ks.length := by simp at ht; omega
      subst this
      rw [List.take_left' rfl, List.getElem_append_right le_rfl]
      simp only [Nat.sub_self, List.getElem_cons_zero]
      exact h.cur k hk

/-- The removed points are in ascending order of their values, and no point left has a smaller value. -/
theorem PruneTrace.ordered {D : List ℕ → ℕ → WithTop K} {E : List ℕ} {N : ℕ} {ks : List ℕ} {d : ℕ → WithTop K} (h : PruneTrace D E N ks d)
    (hD : GrowsWhenRemoved D N) :
    (∀ s t (hst : s ≤ t) (ht : t < ks.length), d (ks[s]'(by omega)) ≤ d ks[t]) ∧ (∀ k ∈ ks, ∀ y ∈ left N ks, d k ≤ d y) := by
  have hgrow : ∀ s t, s ≤ t → ∀ y ∈ left N (ks.take t), prVal D E (left N (ks.take s)) y ≤ prVal D E (left N (ks.take t)) y := by
    intro s t hst y hy
    induction t, hst using Nat.le_induction with
    | base => exact le_rfl
    | succ t hst ih =>
      rcases Nat.lt_or_ge t ks.length with h1 | h1
      · have e : ks.take (t + 1) = ks.take t ++ [ks[t]] := by rw [List.take_append_getElem]
        rw [e, ← left_snoc] at hy ⊢
        obtain ⟨y1, y2⟩ := List.mem_filter.1 hy
        refine (ih y1).trans ?_
        unfold prVal
        split_ifs
        · exact le_rfl
        · exact hD _ _ _ (left_nodup _ _) (fun a ha => (mem_left.1 ha).1) y1 (by simpa using y2)
      · rw [List.take_of_length_le (by omega : ks.length ≤ t + 1)] at hy ⊢
        have e : ks.take t = ks := List.take_of_length_le h1
        rw [e] at ih
        exact ih hy
  constructor
  · intro s t hst ht
    rw [h.kept s (by omega), h.kept t ht]
    have hmem := (h.greedy t ht).1
    have hms : ks[t] ∈ left N (ks.take s) := by
      rw [mem_left] at hmem ⊢
      exact ⟨hmem.1, fun hc => hmem.2 ((List.take_sublist_take_left hst).subset hc)⟩
    exact ((h.greedy s (by omega)).2 _ hms).trans (hgrow s t hst _ hmem)
  · intro k hk y hy
    obtain ⟨t, ht, rfl⟩ := List.getElem_of_mem hk
    rw [h.kept t ht, h.cur y hy]
    have hy' : y ∈ left N (ks.take ks.length) := by rw [List.take_length]; exact hy
    have hyt : y ∈ left N (ks.take t) := by
      rw [mem_left] at hy ⊢
      exact ⟨hy.1, fun hc => hy.2 (List.take_sublist t ks |>.subset hc)⟩
    have := hgrow t ks.length ht.le y hy'
    rw [List.take_length] at this
    exact ((h.greedy t ht).2 y hyt).trans this

/-- `c_get_drop`: a point with the least value, the last one of them. -/
theorem cDrop_spec (d : ℕ → WithTop K) (H : List ℕ) (hH : H ≠ []) : cDrop d H ∈ H ∧ ∀ y ∈ H, d (cDrop d H) ≤ d y := by
  have key : ∀ (L : List ℕ) (s : WithTop K × ℕ), (∀ r : WithTop K × ℕ, r = L.foldl (fun s i => if s.1 < d i then s else (d i, i)) s →
      (r = s ∨ (r.2 ∈ L ∧ r.1 = d r.2)) ∧ r.1 ≤ s.1 ∧ ∀ y ∈ L, r.1 ≤ d y) ∧
      (s.1 = ⊤ → L ≠ [] → (L.foldl (fun s i => if s.1 < d i then s else (d i, i)) s).2 ∈ L ∧
        (L.foldl (fun s i => if s.1 < d i then s else (d i, i)) s).1 = d (L.foldl (fun s i => if s.1 < d i then s else (d i, i)) s).2) := by
    intro L
    induction L with
    | nil => intro s; exact ⟨fun r hr => by subst hr; exact ⟨Or.inl rfl, le_rfl, by simp⟩, fun _ h => absurd rfl h⟩
    | cons a L ih =>
      intro s
      simp only [List.foldl_cons]
      have h1 := (ih (if s.1 < d a then s else (d a, a))).1 _ rfl
      refine ⟨fun r hr => ?_, fun hs _ => ?_⟩
      · subst hr
        obtain ⟨h2, h3, h4⟩ := h1
        by_cases h : d a ≤ s.1
        · simp only [not_lt.2 h, if_false] at h2 h3 h4 ⊢
          refine ⟨Or.inr ?_, h3.trans h, fun y hy => ?_⟩
          · rcases h2 with h2 | ⟨h2, h2'⟩
            · rw [h2]; exact ⟨List.mem_cons_self, rfl⟩
            · exact ⟨List.mem_cons_of_mem _ h2, h2'⟩
          · rcases List.mem_cons.1 hy with rfl | hy
            · exact h3
            · exact h4 y hy
        · simp only [not_le.1 h, if_true] at h2 h3 h4 ⊢
          refine ⟨?_, h3, fun y hy => ?_⟩
          · rcases h2 with h2 | ⟨h2, h2'⟩
            · exact Or.inl h2
            · exact Or.inr ⟨List.mem_cons_of_mem _ h2, h2'⟩
          · rcases List.mem_cons.1 hy with rfl | hy
            · exact h3.trans (not_le.1 h).le
            · exact h4 y hy
      · have ha : d a ≤ s.1 := by rw [hs]; exact le_top
        simp only [not_lt.2 ha, if_false] at h1 ⊢
        rcases h1.1 with h2 | ⟨h2, h2'⟩
        · rw [h2]; exact ⟨List.mem_cons_self, rfl⟩
        · exact ⟨List.mem_cons_of_mem _ h2, h2'⟩
  obtain ⟨h1, h2⟩ := key H (⊤, 0)
  obtain ⟨h3, h4⟩ := h2 rfl hH
  refine ⟨h3, fun y hy => ?_⟩
  have := (h1 _ rfl).2.2 y hy
  rw [h4] at this
  exact this

/-! ### Scans -/

theorem foldlM_skip {β γ : Type*} (f : β → γ → Option β) (L : List γ) (s : β) (h : ∀ n ∈ L, f s n = some s) : L.foldlM f s = some s := by
  induction L with
  | nil => rfl
  | cons a L ih =>
    rw [List.foldlM_cons, h a List.mem_cons_self]
    exact ih fun n hn => h n (List.mem_cons_of_mem _ hn)

/-- A scan over `0 .. N - 1` that does something at one position only. -/
theorem foldlM_hit {β : Type*} (f : β → ℕ → Option β) (N n0 : ℕ) (hn : n0 < N) (s r : β) (hb : ∀ n < n0, f s n = some s) (hat : f s n0 = some r)
    (ha : ∀ n < N, n0 < n → f r n = some r) : (List.range N).foldlM f s = some r := by
  obtain ⟨q, rfl⟩ : ∃ q, N = n0 + (1 + q) := ⟨N - n0 - 1, by omega⟩
  rw [List.range_add, List.foldlM_append, foldlM_skip f (List.range n0) s (fun n hn => hb n (List.mem_range.1 hn))]
  change ((List.range (1 + q)).map (n0 + ·)).foldlM f s = some r
  rw [List.range_add, List.map_append, List.foldlM_append]
  have : (List.map (fun x => n0 + x) (List.range 1)).foldlM f s = some r := by
    simp only [List.range_one, List.map_cons, List.map_nil, Nat.add_zero, List.foldlM_cons, hat]
    rfl
  rw [this]
  refine foldlM_skip f _ r ?_
  intro n hn
  simp only [List.mem_map, List.mem_range] at hn
  obtain ⟨a, ⟨b, hb', rfl⟩, rfl⟩ := hn
  exact ha _ (by omega) (by omega)

/-! ### The neighbours in a column -/

/-- `l`, `i`, `u` are consecutive in `S`. -/
def Nbr (S : List ℕ) (l i u : ℕ) : Prop := ∃ A B, S = A ++ l :: i :: u :: B

theorem Nbr.remove {S : List ℕ} {l i u k : ℕ} (h : Nbr S l i u) (hl : k ≠ l) (hi : k ≠ i) (hu : k ≠ u) : Nbr (S.filter fun a => decide (a ≠ k)) l i u := by
  obtain ⟨A, B, rfl⟩ := h
  refine ⟨A.filter fun a => decide (a ≠ k), B.filter fun a => decide (a ≠ k), ?_⟩
  rw [List.filter_append, List.filter_cons_of_pos (by simpa using Ne.symm hl), List.filter_cons_of_pos (by simpa using Ne.symm hi),
    List.filter_cons_of_pos (by simpa using Ne.symm hu)]

theorem Nbr.unique {S : List ℕ} (hS : S.Nodup) {l i u l' u' : ℕ} (h : Nbr S l i u) (h' : Nbr S l' i u') : l = l' ∧ u = u' := by
  obtain ⟨A, B, rfl⟩ := h
  obtain ⟨A', B', h'⟩ := h'
  have e1 : (A ++ l :: i :: u :: B).idxOf i = A.length + 1 := by
    have h1 : i ∉ A ++ [l] := by
      intro hc
      have : (A ++ [l] ++ i :: u :: B).Nodup := by simpa using hS
      exact (List.nodup_append.1 this).2.2 i hc i (by simp) rfl
    have : A ++ l :: i :: u :: B = (A ++ [l]) ++ i :: u :: B := by simp
    rw [this, List.idxOf_append_of_notMem h1]; simp
  have e2 : (A' ++ l' :: i :: u' :: B').idxOf i = A'.length + 1 := by
    have h1 : i ∉ A' ++ [l'] := by
      intro hc
      have : (A' ++ [l'] ++ i :: u' :: B').Nodup := by rw [h'] at hS; simpa using hS
      exact (List.nodup_append.1 this).2.2 i hc i (by simp) rfl
    have : A' ++ l' :: i :: u' :: B' = (A' ++ [l']) ++ i :: u' :: B' := by simp
    rw [this, List.idxOf_append_of_notMem h1]; simp
  rw [← h', e1] at e2
  have hlen : A.length = A'.length := by omega
  have := List.append_inj h' hlen
  simp only [List.cons.injEq] at this
  exact ⟨this.2.1, this.2.2.2.1⟩

/-- The number of a point in a column with its neighbours, and what is around it; trailing copies of the last entry do not matter. -/
theorem cAround_nbr {S T : List ℕ} {l i u : ℕ} (hS : S.Nodup) (h : Nbr S l i u) (hT : i ∉ T) : ∃ n, 0 < n ∧ n < S.length ∧ (S ++ T)[n]? = some i ∧ cAround (S ++ T) n = some (l, u) ∧
    ∀ n', (S ++ T)[n']? = some i → n' = n := by
  obtain ⟨A, B, rfl⟩ := h
  refine ⟨A.length + 1, by omega, by simp, ?_, ?_, ?_⟩
  · simp [List.getElem?_append_left, List.getElem?_append_right]
  · unfold cAround
    simp [List.getElem?_append_left, List.getElem?_append_right]
  · intro n' hn'
    have h1 : n' < (A ++ l :: i :: u :: B ++ T).length := by
      by_contra hc
      rw [List.getElem?_eq_none (by omega)] at hn'
      cases hn'
    rcases Nat.lt_or_ge n' (A ++ l :: i :: u :: B).length with h2 | h2
    · rw [List.getElem?_append_left h2, List.getElem?_eq_getElem h2] at hn'
      have h3 : (A ++ l :: i :: u :: B)[A.length + 1]'(by simp) = i := by simp [List.getElem_append_right]
      exact (List.Nodup.getElem_inj_iff hS).1 ((Option.some.inj hn').trans h3.symm)
    · rw [List.getElem?_append_right h2] at hn'
      exact absurd (List.mem_of_getElem? hn') hT

/-- Points that are neither first nor last have two neighbours. -/
theorem nbr_exists (v : ℕ → K) (H : List ℕ) (hn : H.Nodup) {e i e' : ℕ} (he : e ∈ H) (hi : i ∈ H) (he' : e' ∈ H) (h1 : v e < v i) (h2 : v i < v e') :
    ∃ l u, Nbr (prSorted v H) l i u ∧ l ∈ H ∧ u ∈ H := by
  have hS := prSorted_before v H hn
  have hperm := prSorted_perm v H
  obtain ⟨A, B, hAB⟩ := List.append_of_mem (hperm.mem_iff.2 hi)
  have hp := hS
  rw [hAB, List.pairwise_append, List.pairwise_cons] at hp
  have heA : e ∈ A := by
    have : e ∈ A ++ i :: B := hAB ▸ hperm.mem_iff.2 he
    rcases List.mem_append.1 this with h | h
    · exact h
    · rcases List.mem_cons.1 h with rfl | h
      · exact absurd h1 (lt_irrefl _)
      · rcases hp.2.1.1 e h with h3 | ⟨h3, -⟩
        · exact absurd h1 (not_lt.2 h3.le)
        · exact absurd h1 (by rw [h3]; exact lt_irrefl _)
  have heB : e' ∈ B := by
    have : e' ∈ A ++ i :: B := hAB ▸ hperm.mem_iff.2 he'
    rcases List.mem_append.1 this with h | h
    · rcases hp.2.2 e' h i (by simp) with h3 | ⟨h3, -⟩
      · exact absurd h2 (not_lt.2 h3.le)
      · exact absurd h2 (by rw [h3]; exact lt_irrefl _)
    · rcases List.mem_cons.1 h with rfl | h
      · exact absurd h2 (lt_irrefl _)
      · exact h
  obtain ⟨A', l, rfl⟩ : ∃ A' l, A = A' ++ [l] := ⟨A.dropLast, A.getLast (List.ne_nil_of_mem heA), (List.dropLast_append_getLast _).symm⟩
  obtain ⟨u, B', rfl⟩ : ∃ u B', B = u :: B' := List.exists_cons_of_ne_nil (List.ne_nil_of_mem heB)
  refine ⟨l, u, ⟨A', B', by rw [hAB]; simp⟩, hperm.mem_iff.1 (by rw [hAB]; simp), hperm.mem_iff.1 (by rw [hAB]; simp)⟩

/-- The two gaps of a point with two neighbours. -/
theorem gaps_nbr (v : ℕ → K) (H : List ℕ) (hn : H.Nodup) {l i u : ℕ} (h : Nbr (prSorted v H) l i u) :
    prLast v H i + prNext v H i = ((v u - v l : K) : WithTop K) := by
  have hS : (prSorted v H).Nodup := (prSorted_perm v H).nodup_iff.2 hn
  obtain ⟨A, B, hAB⟩ := h
  have e1 : (prSorted v H).idxOf i = A.length + 1 := by
    rw [hAB] at hS ⊢
    have h1 : i ∉ A ++ [l] := by
      intro hc
      have : (A ++ [l] ++ i :: u :: B).Nodup := by simpa using hS
      exact (List.nodup_append.1 this).2.2 i hc i (by simp) rfl
    have : A ++ l :: i :: u :: B = (A ++ [l]) ++ i :: u :: B := by simp
    rw [this, List.idxOf_append_of_notMem h1]; simp
  unfold prLast prNext
  simp only [e1]
  rw [if_neg (by omega), if_pos (by rw [hAB]; simp; omega)]
  have e2 : (prSorted v H).getD (A.length + 1 - 1) 0 = l := by rw [hAB]; simp
  have e3 : (prSorted v H).getD (A.length + 1 + 1) 0 = u := by
    rw [hAB, List.getD_eq_getElem?_getD, List.getElem?_append_right (by omega), show A.length + 1 + 1 - A.length = 2 by omega]; simp
  rw [e2, e3, ← WithTop.coe_add]
  congr 1
  ring

/-- The order of a column depends only on the order of its values. -/
theorem prSorted_congr (v w : ℕ → K) (H : List ℕ) (hn : H.Nodup) (h : ∀ a ∈ H, ∀ b ∈ H, (v a < v b ↔ w a < w b)) : prSorted v H = prSorted w H := by
  have h1 := prSorted_before v H hn
  have h2 := prSorted_before w H hn
  have heq : ∀ a ∈ H, ∀ b ∈ H, (v a = v b ↔ w a = w b) := by
    intro a ha b hb
    have e1 := h a ha b hb
    have e2 := h b hb a ha
    constructor
    · intro e
      exact le_antisymm (not_lt.1 fun hc => absurd (e2.2 hc) (by rw [e]; exact lt_irrefl _)) (not_lt.1 fun hc => absurd (e1.2 hc) (by rw [e]; exact lt_irrefl _))
    · intro e
      exact le_antisymm (not_lt.1 fun hc => absurd (e2.1 hc) (by rw [e]; exact lt_irrefl _)) (not_lt.1 fun hc => absurd (e1.1 hc) (by rw [e]; exact lt_irrefl _))
  have h2' : (prSorted w H).Pairwise (Before v) := by
    refine h2.imp_of_mem fun {a b} ha hb hab => ?_
    have ha' := (prSorted_perm w H).mem_iff.1 ha
    have hb' := (prSorted_perm w H).mem_iff.1 hb
    rcases hab with hab | ⟨hab, hab'⟩
    · exact Or.inl ((h a ha' b hb').2 hab)
    · exact Or.inr ⟨(heq a ha' b hb').2 hab, hab'⟩
  exact List.Perm.eq_of_pairwise (le := Before v) (fun a b _ _ h1 h2 => absurd h2 (before_asymm v _ _ h1)) h1 h2' ((prSorted_perm v H).trans (prSorted_perm w H).symm)


theorem prSorted_remove (v : ℕ → K) (H : List ℕ) (hn : H.Nodup) (k : ℕ) :
    (prSorted v H).filter (fun a => decide (a ≠ k)) = prSorted v (H.filter fun a => decide (a ≠ k)) :=
  List.Perm.eq_of_pairwise (le := Before v) (fun a b _ _ h1 h2 => absurd h2 (before_asymm v _ _ h1)) ((prSorted_before v H hn).filter _)
    (prSorted_before v _ (hn.filter _)) (((prSorted_perm v H).filter _).trans (prSorted_perm v _).symm)

/-- If `k` is the neighbour of `i`, then `i` is the neighbour of `k`. -/
theorem Nbr.symm_left {S : List ℕ} (hS : S.Nodup) {k i u l' u' : ℕ} (h : Nbr S k i u) (h' : Nbr S l' k u') : u' = i := by
  obtain ⟨A, B, hAB⟩ := h
  obtain ⟨A', B', hAB'⟩ := h'
  have e2 : S.idxOf k = A'.length + 1 := by
    rw [hAB'] at hS ⊢
    have h1 : k ∉ A' ++ [l'] := by
      intro hc
      have : (A' ++ [l'] ++ k :: u' :: B').Nodup := by simpa using hS
      exact (List.nodup_append.1 this).2.2 k hc k (by simp) rfl
    have : A' ++ l' :: k :: u' :: B' = (A' ++ [l']) ++ k :: u' :: B' := by simp
    rw [this, List.idxOf_append_of_notMem h1]; simp
  rcases List.eq_nil_or_concat A with rfl | ⟨A0, a, rfl⟩
  · rw [hAB] at e2; simp at e2
  · exact (Nbr.unique hS (⟨A', B', hAB'⟩ : Nbr S l' k u') (⟨A0, u :: B, by rw [hAB]; simp⟩ : Nbr S a k i)).2

theorem Nbr.symm_right {S : List ℕ} (hS : S.Nodup) {k i l l' u' : ℕ} (h : Nbr S l i k) (h' : Nbr S l' k u') : l' = i := by
  obtain ⟨A, B, hAB⟩ := h
  obtain ⟨A', B', hAB'⟩ := h'
  have hSl : S.length = A'.length + 3 + B'.length := by rw [hAB']; simp; omega
  have e2 : S.idxOf k = A'.length + 1 := by
    rw [hAB'] at hS ⊢
    have h1 : k ∉ A' ++ [l'] := by
      intro hc
      have : (A' ++ [l'] ++ k :: u' :: B').Nodup := by simpa using hS
      exact (List.nodup_append.1 this).2.2 k hc k (by simp) rfl
    have : A' ++ l' :: k :: u' :: B' = (A' ++ [l']) ++ k :: u' :: B' := by simp
    rw [this, List.idxOf_append_of_notMem h1]; simp
  have e1 : S.idxOf k = A.length + 2 := by
    rw [hAB] at hS ⊢
    have h1 : k ∉ A ++ [l, i] := by
      intro hc
      have : (A ++ [l, i] ++ k :: B).Nodup := by simpa using hS
      exact (List.nodup_append.1 this).2.2 k hc k (by simp) rfl
    have : A ++ l :: i :: k :: B = (A ++ [l, i]) ++ k :: B := by simp
    rw [this, List.idxOf_append_of_notMem h1]; simp
  rcases B with - | ⟨b, B⟩
  · have : S.length = A.length + 3 := by rw [hAB]; simp
    omega
  · exact (Nbr.unique hS (⟨A', B', hAB'⟩ : Nbr S l' k u') (⟨A ++ [l], B, by rw [hAB]; simp⟩ : Nbr S i k b)).1

/-! ### The steps of the compiled routine -/

theorem cpcdEntry_eq (v : ℕ → K) (N M : ℕ) (S T : List ℕ) (hS : S.Nodup) (hlen : (S ++ T).length = N) {l i u : ℕ} (h : Nbr S l i u) (hT : i ∉ T)
    (old : WithTop K) : cpcdEntry v N M (S ++ T) i old = some (((v u - v l) / (M : K) : K) : WithTop K) := by
  obtain ⟨n, -, hn, hget, haround, huniq⟩ := cAround_nbr hS h hT
  unfold cpcdEntry
  refine foldlM_hit _ N n (by rw [← hlen, List.length_append]; omega) _ _ ?_ ?_ ?_
  · intro n' hn'
    rw [if_neg fun hc => by have := huniq n' hc; omega]
  · rw [if_pos hget, haround]; rfl
  · intro n' _ hn'
    rw [if_neg fun hc => by have := huniq n' hc; omega]

theorem cpcdIter_eq (y : ℕ → Fin M → K) (N : ℕ) (I : Fin M → List ℕ) (items : List ℕ) (val : ℕ → Fin M → WithTop K)
    (h : ∀ i ∈ items, ∀ m old, cpcdEntry (fun i => y i m) N M (I m) i old = some (val i m)) (D : ℕ → Fin M → WithTop K) :
    cpcdIter y N I items D = some fun i m => if i ∈ items then val i m else D i m := by
  have key : ∀ (L : List (ℕ × Fin M)) (D : ℕ → Fin M → WithTop K), (∀ p ∈ L, p.1 ∈ items) →
      L.foldlM (fun D p => (cpcdEntry (fun i => y i p.2) N M (I p.2) p.1 (D p.1 p.2)).map fun w => fun i m => if i = p.1 ∧ m = p.2 then w else D i m) D =
        some fun i m => if (i, m) ∈ L then val i m else D i m := by
    intro L
    induction L with
    | nil => intro D _; simp
    | cons p L ih =>
      intro D hL
      rw [List.foldlM_cons, h p.1 (hL p List.mem_cons_self)]
      change List.foldlM _ (fun i m => if i = p.1 ∧ m = p.2 then val p.1 p.2 else D i m) L = _
      rw [ih _ fun q hq => hL q (List.mem_cons_of_mem _ hq)]
      congr 1
      funext i m
      by_cases h1 : (i, m) ∈ L
      · simp [h1]
      · by_cases h2 : i = p.1 ∧ m = p.2
        · obtain ⟨rfl, rfl⟩ := h2
          simp [h1]
        · have h3 : (i, m) ≠ p := fun hc => h2 (by rw [← hc]; exact ⟨rfl, rfl⟩)
          simp only [h1, h2, List.mem_cons, h3, or_self, if_false]
  unfold cpcdIter
  rw [key _ D]
  · congr 1
    funext i m
    have : ((i, m) ∈ items.flatMap fun i => (List.finRange M).map fun m => (i, m)) ↔ i ∈ items := by
      simp [List.mem_flatMap]
    simp only [this]
  · rintro ⟨i, m⟩ hp
    simpa [List.mem_flatMap] using hp

theorem cpcdDropCol_eq (N : ℕ) (S T : List ℕ) (hS : S.Nodup) (hlen : (S ++ T).length = N) {l k u : ℕ} (h : Nbr S l k u) (hT : k ∉ T)
    (hlast : k ∉ (S ++ T).drop (N - 1)) :
    cpcdDropCol N k (S ++ T) = some (S.filter (fun a => decide (a ≠ k)) ++ (T ++ (S ++ T).drop (N - 1)), [l, u]) := by
  obtain ⟨n, hn0, hn, hget, haround, huniq⟩ := cAround_nbr hS h hT
  have hcol : (S ++ T).take n ++ (S ++ T).drop (n + 1) = S.filter (fun a => decide (a ≠ k)) ++ T := by
    obtain ⟨h1, h2⟩ := List.getElem?_eq_some_iff.1 hget
    have h3 : S[n] = k := by rw [← h2, List.getElem_append_left hn]
    rw [List.take_append_of_le_length hn.le, List.drop_append_of_le_length (by omega), ← List.append_assoc]
    congr 1
    have h4 : S = S.take n ++ k :: S.drop (n + 1) := by
      rw [← h3, List.cons_getElem_drop_succ, List.take_append_drop]
    have h5 : k ∉ S.take n ∧ k ∉ S.drop (n + 1) := by
      rw [h4, List.nodup_append, List.nodup_cons] at hS
      exact ⟨fun hc => hS.2.2 k hc k (by simp) rfl, hS.2.1.1⟩
    conv_rhs => rw [h4, List.filter_append, List.filter_cons_of_neg (by simp)]
    rw [List.filter_eq_self.2, List.filter_eq_self.2]
    · intro a ha; simp only [ne_eq, decide_not, Bool.not_eq_true', decide_eq_false_iff_not]; exact fun hc => h5.2 (hc ▸ ha)
    · intro a ha; simp only [ne_eq, decide_not, Bool.not_eq_true', decide_eq_false_iff_not]; exact fun hc => h5.1 (hc ▸ ha)
  unfold cpcdDropCol
  refine foldlM_hit _ N n (by rw [← hlen, List.length_append]; omega) _ _ ?_ ?_ ?_
  · intro n' hn'
    rw [if_neg fun hc => by have := huniq n' hc; omega]
  · dsimp only
    rw [if_pos hget, haround, hcol, List.append_assoc]; rfl
  · intro n' _ hn'
    dsimp only
    rw [if_neg fun hc => ?_]
    have := List.mem_of_getElem? hc
    simp only [List.mem_append, List.mem_filter] at this
    rcases this with h1 | h1 | h1
    · simp at h1
    · exact hT h1
    · exact hlast h1

theorem cpcdDrop_eq (N k : ℕ) (I J : Fin M → List ℕ) (it : Fin M → List ℕ) (h : ∀ m, cpcdDropCol N k (I m) = some (J m, it m)) :
    cpcdDrop N k I = some (J, (List.finRange M).flatMap it) := by
  have key : ∀ (L : List (Fin M)) (A : Fin M → List ℕ) (acc : List ℕ), L.Nodup → (∀ m ∈ L, A m = I m) →
      L.foldlM (fun (s : (Fin M → List ℕ) × List ℕ) m => (cpcdDropCol N k (s.1 m)).map fun r => (Function.update s.1 m r.1, s.2 ++ r.2)) (A, acc) =
        some (fun m => if m ∈ L then J m else A m, acc ++ L.flatMap it) := by
    intro L
    induction L with
    | nil => intro A acc _ _; simp
    | cons m L ih =>
      intro A acc hn hA
      rw [List.nodup_cons] at hn
      rw [List.foldlM_cons]
      dsimp only
      rw [hA m List.mem_cons_self, h m]
      change List.foldlM _ (Function.update A m (J m), acc ++ it m) L = _
      rw [ih _ _ hn.2 fun m' hm' => by
        have hne : m' ≠ m := fun hc => hn.1 (hc ▸ hm')
        rw [Function.update_of_ne hne]; exact hA m' (List.mem_cons_of_mem _ hm')]
      congr 2
      · funext m'
        by_cases h1 : m' ∈ L
        · simp [h1]
        · by_cases h2 : m' = m
          · subst h2; simp [h1]
          · simp [h1, h2, Function.update_of_ne h2]
      · simp
  unfold cpcdDrop
  rw [key _ _ _ (List.nodup_finRange M) fun _ _ => rfl]
  simp

/-! ### Extremes -/

theorem prLo_spec (N : ℕ) (x : ℕ → Fin M → K) (hN : 0 < N) (j : Fin M) : ∃ e ∈ prExtremes N x, e < N ∧ x e j = prLo N x j ∧ ∀ i < N, x e j ≤ x i j := by
  obtain ⟨a1, a2⟩ := npArgmin_spec (fun i => x i j) (List.range N)
  cases hm : npArgmin (fun i => x i j) (List.range N) with
  | none => exact absurd (a1.1 hm) (by simp; omega)
  | some e =>
    obtain ⟨b1, b2⟩ := a2 e hm
    refine ⟨e, ?_, List.mem_range.1 b1, by unfold prLo; rw [hm]; rfl, fun i hi => b2 i (List.mem_range.2 hi)⟩
    unfold prExtremes
    exact List.mem_append_left _ (List.mem_filterMap.2 ⟨j, List.mem_finRange j, hm⟩)

theorem prHi_spec (N : ℕ) (x : ℕ → Fin M → K) (hN : 0 < N) (j : Fin M) : ∃ e ∈ prExtremes N x, e < N ∧ x e j = prHi N x j ∧ ∀ i < N, x i j ≤ x e j := by
  obtain ⟨e, hm, b1, b2⟩ := ctaArgmax_spec (fun i => x i j) (List.range N) (by simp; omega)
  refine ⟨e, ?_, List.mem_range.1 b1, by unfold prHi; rw [hm]; rfl, fun i hi => b2 i (List.mem_range.2 hi)⟩
  unfold prExtremes
  exact List.mem_append_right _ (List.mem_filterMap.2 ⟨j, List.mem_finRange j, hm⟩)

/-- C122: nothing is divided by zero in the normalisation: the divisor of a column is its range, or one for a constant column. -/
theorem C122_divisor (N : ℕ) (hN : 0 < N) (x : ℕ → Fin M → K) (j : Fin M) :
    cNormRange N x j ≠ 0 ∧ ((∀ a < N, ∀ b < N, x a j = x b j) → cNormRange N x j = 1) ∧
    ∀ a < N, ∀ b < N, x a j ≠ x b j → (∀ i < N, x a j ≤ x i j ∧ x i j ≤ x b j) → cNormRange N x j = x b j - x a j := by
  obtain ⟨e, -, he, h1, h2⟩ := prLo_spec N x hN j
  obtain ⟨e', -, he', h3, h4⟩ := prHi_spec N x hN j
  refine ⟨?_, fun h => ?_, fun a ha b hb hab h => ?_⟩
  · unfold cNormRange
    split_ifs with hz
    · exact one_ne_zero
    · exact hz
  · unfold cNormRange
    rw [if_pos (by rw [← h1, ← h3, h e' he' e he, sub_self])]
  · have ea : prLo N x j = x a j := by rw [← h1]; exact le_antisymm (h2 a ha) (h e he).1
    have eb : prHi N x j = x b j := by rw [← h3]; exact le_antisymm (h e' he').2 (h4 b hb)
    unfold cNormRange
    rw [ea, eb, if_neg (sub_ne_zero.2 (Ne.symm hab))]

example : cNormRange (M := 1) 3 (fun i _ => ((i : ℕ) : ℚ)) 0 = 2 ∧ cNormRange (M := 1) 3 (fun _ _ => (7 : ℚ)) 0 = 1 := by decide +kernel

/-- The two normalisations agree. -/
theorem cNormalize_eq (N : ℕ) (x : ℕ → Fin M → K) (i : ℕ) (hi : i < N) (j : Fin M) : cNormalize N x i j = prNorm N x i j := by
  unfold cNormalize cNormRange prNorm
  split_ifs with h
  · obtain ⟨e, -, -, h1, h2⟩ := prLo_spec N x (by omega) j
    obtain ⟨e', -, -, h3, h4⟩ := prHi_spec N x (by omega) j
    have h5 := h2 i hi
    have h6 := h4 i hi
    have h7 : x i j - prLo N x j = 0 := by
      rw [h1] at h5; rw [h3] at h6
      have : prHi N x j = prLo N x j := sub_eq_zero.1 h
      rw [this] at h6
      exact sub_eq_zero.2 (le_antisymm h6 h5)
    rw [h7]; simp
  · rfl

/-- The metric of the compiled `calc_pcd`: that of the other version, divided by the number of objectives. -/
def pcdMean (N : ℕ) (x : ℕ → Fin M → K) (H : List ℕ) (i : ℕ) : WithTop K := (pcdOn N x H i).map fun w => w / (M : K)

theorem pcdMean_nbr (N : ℕ) (x : ℕ → Fin M → K) (H : List ℕ) (hn : H.Nodup) (hlt : ∀ a ∈ H, a < N) (i : ℕ) (hi : i ∈ H) (l u : Fin M → ℕ)
    (hlo : ∀ m, prLo N x m < prHi N x m) (h : ∀ m, Nbr (prSorted (fun i => x i m) H) (l m) i (u m)) :
    pcdMean N x H i = ((List.finRange M).map fun m => (((cNormalize N x (u m) m - cNormalize N x (l m) m) / (M : K) : K) : WithTop K)).sum := by
  have hu : ∀ m, u m ∈ H := fun m => by
    obtain ⟨A, B, hAB⟩ := h m
    exact (prSorted_perm (fun i => x i m) H).mem_iff.1 (by rw [hAB]; simp)
  have hl : ∀ m, l m ∈ H := fun m => by
    obtain ⟨A, B, hAB⟩ := h m
    exact (prSorted_perm (fun i => x i m) H).mem_iff.1 (by rw [hAB]; simp)
  have h1 : pcdOn N x H i = (((List.finRange M).map fun m => cNormalize N x (u m) m - cNormalize N x (l m) m).sum : K) := by
    unfold pcdOn
    rw [show ((((List.finRange M).map fun m => cNormalize N x (u m) m - cNormalize N x (l m) m).sum : K) : WithTop K) =
      ((List.finRange M).map fun m => ((cNormalize N x (u m) m - cNormalize N x (l m) m : K) : WithTop K)).sum by
        generalize List.finRange M = L
        induction L with
        | nil => rfl
        | cons a L ih => rw [List.map_cons, List.map_cons, List.sum_cons, List.sum_cons, WithTop.coe_add, ih]]
    congr 1
    refine List.map_congr_left fun m _ => ?_
    rw [if_neg (hlo m).ne]
    have hs : prSorted (fun i => prNorm N x i m) H = prSorted (fun i => x i m) H := by
      refine prSorted_congr _ _ H hn fun a _ b _ => ?_
      unfold prNorm
      rw [div_lt_div_iff_of_pos_right (sub_pos.2 (hlo m)), sub_lt_sub_iff_right]
    rw [gaps_nbr (fun i => prNorm N x i m) H hn (by rw [hs]; exact h m), cNormalize_eq N x _ (hlt _ (hu m)), cNormalize_eq N x _ (hlt _ (hl m))]
  unfold pcdMean
  rw [h1, WithTop.map_coe]
  generalize List.finRange M = L
  induction L with
  | nil => simp
  | cons a L ih => rw [List.map_cons, List.map_cons, List.sum_cons, List.sum_cons, add_div, WithTop.coe_add, ih]

theorem pcdMean_grows (N : ℕ) (x : ℕ → Fin M → K) : GrowsWhenRemoved (pcdMean N x) N := by
  intro H k i hn hlt hi hik
  have h := pcdOn_grows N x H k i hn hlt hi hik
  unfold pcdMean
  revert h
  generalize pcdOn N x H i = a
  generalize pcdOn N x (H.filter fun a => decide (a ≠ k)) i = b
  intro h
  cases b with
  | top => simp
  | coe b =>
    cases a with
    | top => simp at h
    | coe a =>
      rw [WithTop.coe_le_coe] at h
      rw [WithTop.map_coe, WithTop.map_coe, WithTop.coe_le_coe]
      exact div_le_div_of_nonneg_right h (Nat.cast_nonneg M)

/-! ### The loop -/

/-- What holds after the removal of `ks`. -/
structure CpcdInv (N : ℕ) (x : ℕ → Fin M → K) (ks : List ℕ) (st : CpcdSt K M) : Prop where
  H : st.H = left N ks
  free : ∀ k ∈ ks, k ∉ prExtremes N x
  cols : ∀ m, ∃ T, st.I m = prSorted (fun i => x i m) (left N ks) ++ T ∧ ∀ t ∈ T, t ∈ prExtremes N x
  len : ∀ m, (st.I m).length = N
  last : ∀ m, ∀ t ∈ (st.I m).drop (N - 1), t ∈ prExtremes N x
  D : ∀ i ∈ left N ks, i ∉ prExtremes N x → ∀ m l u, Nbr (prSorted (fun i => x i m) (left N ks)) l i u →
    st.D i m = (((cNormalize N x u m - cNormalize N x l m) / (M : K) : K) : WithTop K)
  trace : PruneTrace (pcdMean N x) (prExtremes N x) N ks st.d

section Loop
variable {N : ℕ} {x : ℕ → Fin M → K}

theorem inner_nbr (hinj : ∀ j a b, a < N → b < N → a ≠ b → x a j ≠ x b j) {ks : List ℕ} (hfree : ∀ k ∈ ks, k ∉ prExtremes N x) {i : ℕ}
    (hi : i ∈ left N ks) (hiE : i ∉ prExtremes N x) (m : Fin M) :
    prLo N x m < prHi N x m ∧ ∃ l u, Nbr (prSorted (fun i => x i m) (left N ks)) l i u := by
  have hiN := (mem_left.1 hi).1
  obtain ⟨e, he, heN, h1, h2⟩ := prLo_spec N x (by omega) m
  obtain ⟨e', he', heN', h3, h4⟩ := prHi_spec N x (by omega) m
  have hel : e ∈ left N ks := mem_left.2 ⟨heN, fun hc => hfree e hc he⟩
  have hel' : e' ∈ left N ks := mem_left.2 ⟨heN', fun hc => hfree e' hc he'⟩
  have hlt : x e m < x i m := lt_of_le_of_ne (h2 i hiN) (hinj m e i heN hiN fun hc => hiE (hc ▸ he))
  have hlt' : x i m < x e' m := lt_of_le_of_ne (h4 i hiN) (hinj m i e' hiN heN' fun hc => hiE (hc ▸ he'))
  refine ⟨by rw [← h1, ← h3]; exact hlt.trans hlt', ?_⟩
  obtain ⟨l, u, h5, -⟩ := nbr_exists (fun i => x i m) (left N ks) (left_nodup N ks) hel hi hel' hlt hlt'
  exact ⟨l, u, h5⟩

theorem cpcdRound_inv (hinj : ∀ j a b, a < N → b < N → a ≠ b → x a j ≠ x b j) {ks : List ℕ} {st : CpcdSt K M} (inv : CpcdInv N x ks st)
    (hroom : ∃ i ∈ left N ks, i ∉ prExtremes N x) :
    ∃ st', cpcdRound (cNormalize N x) N (prExtremes N x) st = some st' ∧ CpcdInv N x (ks ++ [cDrop st.d st.H]) st' := by
  obtain ⟨i0, hi0, hi0E⟩ := hroom
  obtain ⟨hkH, hkmin⟩ := cDrop_spec st.d st.H (by rw [inv.H]; exact List.ne_nil_of_mem hi0)
  set k := cDrop st.d st.H with hk
  rw [inv.H] at hkH hkmin
  -- values of the points left
  have hfin : ∀ {ks : List ℕ} (_ : ∀ k ∈ ks, k ∉ prExtremes N x) {i : ℕ}, i ∈ left N ks → i ∉ prExtremes N x → ∃ l u : Fin M → ℕ,
      (∀ m, Nbr (prSorted (fun i => x i m) (left N ks)) (l m) i (u m)) ∧ prVal (pcdMean N x) (prExtremes N x) (left N ks) i =
        ((List.finRange M).map fun m => (((cNormalize N x (u m) m - cNormalize N x (l m) m) / (M : K) : K) : WithTop K)).sum := by
    intro ks hfree i hi hiE
    have h1 := fun m => inner_nbr hinj hfree hi hiE m
    choose hlo l u hlu using h1
    refine ⟨l, u, hlu, ?_⟩
    rw [prVal, if_neg hiE, pcdMean_nbr N x _ (left_nodup N ks) (fun a ha => (mem_left.1 ha).1) i hi l u hlo hlu]
  have hcoe : ∀ g : Fin M → K, ∃ w : K, ((List.finRange M).map fun m => ((g m : K) : WithTop K)).sum = (w : WithTop K) := by
    intro g
    generalize List.finRange M = L
    induction L with
    | nil => exact ⟨0, rfl⟩
    | cons a L ih => obtain ⟨w, hw⟩ := ih; exact ⟨g a + w, by rw [List.map_cons, List.sum_cons, hw, WithTop.coe_add]⟩
  have hkE : k ∉ prExtremes N x := by
    intro hc
    have h1 := hkmin i0 hi0
    rw [inv.trace.cur k hkH, inv.trace.cur i0 hi0, prVal, if_pos hc, top_le_iff] at h1
    obtain ⟨l, u, -, h2⟩ := hfin inv.free hi0 hi0E
    rw [h2] at h1
    obtain ⟨w, hw⟩ := hcoe fun m => (cNormalize N x (u m) m - cNormalize N x (l m) m) / (M : K)
    rw [hw] at h1
    exact WithTop.coe_ne_top h1
  have hfree' : ∀ a ∈ ks ++ [k], a ∉ prExtremes N x := by
    intro a ha
    rcases List.mem_append.1 ha with h | h
    · exact inv.free a h
    · simp at h; rw [h]; exact hkE
  have hSnd : ∀ m, (prSorted (fun i => x i m) (left N ks)).Nodup := fun m => (prSorted_perm _ _).nodup_iff.2 (left_nodup N ks)
  -- neighbours of `k`
  choose hlok kl ku hkn using fun m => inner_nbr hinj inv.free hkH hkE m
  choose T hT hTE using inv.cols
  have hdrop : cpcdDrop N k st.I = some (fun m => prSorted (fun i => x i m) (left N (ks ++ [k])) ++ (T m ++ (st.I m).drop (N - 1)),
      (List.finRange M).flatMap fun m => [kl m, ku m]) := by
    refine cpcdDrop_eq N k st.I _ _ fun m => ?_
    have hlen := inv.len m
    have hlast := inv.last m
    rw [hT m] at hlen hlast ⊢
    rw [cpcdDropCol_eq N _ (T m) (hSnd m) hlen (hkn m) (fun hc => hkE (hTE m k hc)) (fun hc => hkE (hlast k hc)), prSorted_remove _ _ (left_nodup N ks), left_snoc]
  set items := ((List.finRange M).flatMap fun m => [kl m, ku m]).filter (fun i => decide (i ∉ prExtremes N x)) with hitems
  -- membership
  have hitem : ∀ i ∈ items, i ∈ left N (ks ++ [k]) ∧ i ∉ prExtremes N x := by
    intro i hi
    rw [hitems, List.mem_filter, List.mem_flatMap] at hi
    obtain ⟨⟨m, -, him⟩, hiE⟩ := hi
    refine ⟨?_, by simpa using hiE⟩
    obtain ⟨A, B, hAB⟩ := hkn m
    have hnd := hSnd m
    have hmem : ∀ a ∈ prSorted (fun i => x i m) (left N ks), a ∈ left N ks := fun a ha => (prSorted_perm _ _).mem_iff.1 ha
    rw [hAB] at hnd hmem
    simp only [List.mem_cons, List.not_mem_nil, or_false] at him
    rw [← left_snoc, List.mem_filter]
    rcases him with rfl | rfl
    · refine ⟨hmem _ (by simp), ?_⟩
      have : kl m ≠ k := by
        intro hc
        rw [List.nodup_append, List.nodup_cons] at hnd
        exact hnd.2.1.1 (by simp [hc])
      simpa using this
    · refine ⟨hmem _ (by simp), ?_⟩
      have : ku m ≠ k := by
        intro hc
        rw [List.nodup_append, List.nodup_cons, List.nodup_cons] at hnd
        exact hnd.2.1.2.1 (by simp [hc])
      simpa using this
  have hnew : ∀ m, (prSorted (fun i => x i m) (left N (ks ++ [k])) ++ (T m ++ (st.I m).drop (N - 1))).length = N := by
    intro m
    have hlen := inv.len m
    rw [hT m, List.length_append, (prSorted_perm _ _).length_eq] at hlen
    have h1 : (left N (ks ++ [k])).length + 1 = (left N ks).length := by
      rw [← left_snoc]
      have := (left_nodup N ks).erase_eq_filter k
      have h2 : (left N ks).filter (fun i => decide (i ≠ k)) = (left N ks).erase k := by
        rw [this]; refine List.filter_congr fun a _ => ?_; by_cases h : a = k <;> simp [h]
      rw [h2, List.length_erase_of_mem hkH]
      have := List.length_pos_of_mem hkH
      omega
    rw [List.length_append, List.length_append, (prSorted_perm _ _).length_eq, List.length_drop, inv.len m]
    have : 0 < N := by have := (mem_left.1 hkH).1; omega
    omega
  -- the recomputed entries
  choose! vl vu hv1 hv2 using fun (i : ℕ) (h : i ∈ left N (ks ++ [k]) ∧ i ∉ prExtremes N x) => hfin hfree' h.1 h.2
  have hentry : ∀ i ∈ items, ∀ m old, cpcdEntry (fun i => cNormalize N x i m) N M
      (prSorted (fun i => x i m) (left N (ks ++ [k])) ++ (T m ++ (st.I m).drop (N - 1))) i old =
        some (((cNormalize N x (vu i m) m - cNormalize N x (vl i m) m) / (M : K) : K) : WithTop K) := by
    intro i hi m old
    have h1 := hitem i hi
    refine cpcdEntry_eq (fun i => cNormalize N x i m) N M _ _ ((prSorted_perm _ _).nodup_iff.2 (left_nodup _ _)) (hnew m) (hv1 i h1 m) ?_ old
    intro hc
    rcases List.mem_append.1 hc with hc | hc
    · exact h1.2 (hTE m i hc)
    · exact h1.2 (inv.last m i hc)
  have hiter := cpcdIter_eq (cNormalize N x) N _ items
    (fun i m => (((cNormalize N x (vu i m) m - cNormalize N x (vl i m) m) / (M : K) : K) : WithTop K)) hentry st.D
  -- points that are not recomputed have the same neighbours as before
  have hsame : ∀ i ∈ left N (ks ++ [k]), i ∉ prExtremes N x → i ∉ items → ∀ m l u, Nbr (prSorted (fun i => x i m) (left N ks)) l i u →
      Nbr (prSorted (fun i => x i m) (left N (ks ++ [k]))) l i u := by
    intro i hi hiE hiI m l u hn
    have hki : k ≠ i := by
      rintro rfl
      exact (mem_left.1 hi).2 (by simp)
    rw [← left_snoc, ← prSorted_remove _ _ (left_nodup N ks)]
    have hno : i ≠ kl m ∧ i ≠ ku m := by
      constructor
      · rintro rfl
        exact hiI (List.mem_filter.2 ⟨List.mem_flatMap.2 ⟨m, List.mem_finRange m, by simp⟩, by simpa using hiE⟩)
      · rintro rfl
        exact hiI (List.mem_filter.2 ⟨List.mem_flatMap.2 ⟨m, List.mem_finRange m, by simp⟩, by simpa using hiE⟩)
    refine hn.remove ?_ hki ?_
    · rintro rfl
      exact hno.2 (Nbr.symm_left (hSnd m) hn (hkn m)).symm
    · rintro rfl
      exact hno.1 (Nbr.symm_right (hSnd m) hn (hkn m)).symm
  have hsub : ∀ i ∈ left N (ks ++ [k]), i ∈ left N ks := fun i hi => by rw [← left_snoc] at hi; exact (List.mem_filter.1 hi).1
  refine ⟨_, by unfold cpcdRound; simp only [← hk, hdrop, ← hitems, hiter]; rfl, ?_⟩
  refine ⟨(congrArg (List.filter fun i => decide (i ≠ k)) inv.H).trans (left_snoc N ks k), hfree', ?_, hnew, ?_, ?_, ?_⟩
  · intro m
    refine ⟨_, rfl, fun t ht => ?_⟩
    rcases List.mem_append.1 ht with ht | ht
    · exact hTE m t ht
    · exact inv.last m t ht
  · intro m t ht
    have h1 : (prSorted (fun i => x i m) (left N (ks ++ [k])) ++ T m).length = N - 1 := by
      have h2 := hnew m
      rw [← List.append_assoc, List.length_append, List.length_drop, inv.len m] at h2
      have : 0 < N := by have := (mem_left.1 hkH).1; omega
      omega
    dsimp only at ht
    rw [← List.append_assoc, ← h1, List.drop_left] at ht
    rw [h1] at ht
    exact inv.last m t ht
  · intro i hi hiE m l u hn
    dsimp only
    by_cases hiI : i ∈ items
    · rw [if_pos hiI]
      have := Nbr.unique ((prSorted_perm _ _).nodup_iff.2 (left_nodup _ _)) (hv1 i ⟨hi, hiE⟩ m) hn
      rw [this.1, this.2]
    · rw [if_neg hiI]
      obtain ⟨-, l', u', hn'⟩ := inner_nbr hinj inv.free (hsub i hi) hiE m
      have := Nbr.unique ((prSorted_perm _ _).nodup_iff.2 (left_nodup _ _)) (hsame i hi hiE hiI m l' u' hn') hn
      rw [inv.D i (hsub i hi) hiE m l' u' hn', this.1, this.2]
  · refine inv.trace.snoc hkH hkmin ?_ ?_
    · intro i hi
      by_cases hiE : i ∈ prExtremes N x
      · have hiI : i ∉ items := fun hc => (hitem i hc).2 hiE
        dsimp only [cpcdSum]
        rw [if_neg hiI, inv.trace.cur i (hsub i hi), prVal, prVal, if_pos hiE, if_pos hiE]
      · dsimp only [cpcdSum]
        by_cases hiI : i ∈ items
        · rw [if_pos hiI, hv2 i ⟨hi, hiE⟩]
          congr 1
          refine List.map_congr_left fun m _ => ?_
          rw [if_pos hiI]
        · rw [if_neg hiI, inv.trace.cur i (hsub i hi)]
          obtain ⟨l, u, h1, h2⟩ := hfin inv.free (hsub i hi) hiE
          obtain ⟨l', u', h3, h4⟩ := hfin hfree' hi hiE
          rw [h2, h4]
          congr 1
          refine List.map_congr_left fun m _ => ?_
          have := Nbr.unique ((prSorted_perm _ _).nodup_iff.2 (left_nodup _ _)) (hsame i hi hiE hiI m _ _ (h1 m)) (h3 m)
          rw [this.1, this.2]
    · intro i hi
      have hiI : i ∉ items := fun hc => (mem_left.1 (hitem i hc).1).2 hi
      dsimp only [cpcdSum]
      rw [if_neg hiI]

theorem cpcdLoop_inv (hinj : ∀ j a b, a < N → b < N → a ≠ b → x a j ≠ x b j) : ∀ (r : ℕ) (ks : List ℕ) (st : CpcdSt K M), CpcdInv N x ks st →
    ks.length + r ≤ ((List.range N).filter fun i => decide (i ∉ prExtremes N x)).length →
    ∃ st' ks', cpcdLoop (cNormalize N x) N (prExtremes N x) r st = some st' ∧ ks'.length = ks.length + r ∧ CpcdInv N x ks' st' := by
  intro r
  induction r with
  | zero => intro ks st inv _; exact ⟨st, ks, rfl, rfl, inv⟩
  | succ r ih =>
    intro ks st inv hroom
    have hex : ∃ i ∈ left N ks, i ∉ prExtremes N x := by
      by_contra hall
      push Not at hall
      have hsub : ((List.range N).filter fun i => decide (i ∉ prExtremes N x)).Subperm ks := by
        refine List.subperm_of_subset (List.nodup_range.filter _) fun a ha => ?_
        rw [List.mem_filter] at ha
        by_contra hc
        exact absurd (hall a (mem_left.2 ⟨List.mem_range.1 ha.1, hc⟩)) (by simpa using ha.2)
      have := hsub.length_le
      omega
    obtain ⟨st', h1, h2⟩ := cpcdRound_inv hinj inv hex
    obtain ⟨st'', ks', h3, h4, h5⟩ := ih _ st' h2 (by rw [List.length_append]; simp only [List.length_cons, List.length_nil]; omega)
    refine ⟨st'', ks', ?_, by rw [h4]; simp; omega, h5⟩
    rw [cpcdLoop, h1]
    exact h3

end Loop

/-- C122: the compiled `calc_pcd` is greedy pruning with the crowding distance (the one of the other version divided by the number of objectives), computed
anew after every removal, if no two points agree in an objective and there are enough points that are not extreme. The removed points are in ascending
order of their values and no point left has a smaller value. (Missing: otherwise it accesses memory outside of its arrays, `C122_ties_refuted`,
`C122_extremes_refuted`.) -/
theorem C122_pcd_partial (N : ℕ) (x : ℕ → Fin M → K) (n : ℤ) (hN : 0 < N) (hinj : ∀ j a b, a < N → b < N → a ≠ b → x a j ≠ x b j)
    (hroom : prCount N M n - 1 ≤ ((List.range N).filter fun i => decide (i ∉ prExtremes N x)).length) :
    ∃ d, cCalcPcd N x n = some d ∧ ∃ ks : List ℕ, ks.length = prCount N M n - 1 ∧ ks.Nodup ∧ (∀ k ∈ ks, k < N ∧ k ∉ prExtremes N x) ∧
      GreedyPruning (pcdMean N x) (prExtremes N x) N ks ∧ (∀ i ∈ left N ks, d i = prVal (pcdMean N x) (prExtremes N x) (left N ks) i) ∧
      (∀ t (ht : t < ks.length), d ks[t] = pcdMean N x (left N (ks.take t)) ks[t]) ∧
      (∀ s t (hst : s ≤ t) (ht : t < ks.length), d (ks[s]'(by omega)) ≤ d ks[t]) ∧ (∀ k ∈ ks, ∀ y ∈ left N ks, d k ≤ d y) := by
  have hnil : left N [] = List.range N := left_nil N
  have hinner := fun i (hi : i ∈ left N []) hiE m => inner_nbr (N := N) (x := x) hinj (ks := []) (by simp) (i := i) hi hiE m
  choose! hlo l u hlu using hinner
  set items := (List.range N).filter (fun i => decide (i ∉ prExtremes N x)) with hitems
  have hitem : ∀ i, i ∈ items ↔ i ∈ left N [] ∧ i ∉ prExtremes N x := by
    intro i; rw [hitems, List.mem_filter, hnil]; simp
  have hnd : ∀ m, (prSorted (fun i => x i m) (left N [])).Nodup := fun m => (prSorted_perm _ _).nodup_iff.2 (left_nodup _ _)
  have hlen : ∀ m, (prSorted (fun i => x i m) (left N [])).length = N := fun m => by rw [(prSorted_perm _ _).length_eq, hnil, List.length_range]
  have hiter := cpcdIter_eq (cNormalize N x) N (fun m => prSorted (fun i => x i m) (List.range N)) items
    (fun i m => (((cNormalize N x (u i m) m - cNormalize N x (l i m) m) / (M : K) : K) : WithTop K)) (by
      intro i hi m old
      obtain ⟨h1, h2⟩ := (hitem i).1 hi
      have := cpcdEntry_eq (fun i => cNormalize N x i m) N M (prSorted (fun i => x i m) (left N [])) [] (hnd m) (by simpa using hlen m) (hlu i h1 h2 m) (by simp) old
      rw [List.append_nil, hnil] at this
      exact this) (fun _ _ => ⊤)
  have inv0 : CpcdInv N x [] {
      I := fun m => prSorted (fun i => x i m) (List.range N),
      D := fun i m => if i ∈ items then (((cNormalize N x (u i m) m - cNormalize N x (l i m) m) / (M : K) : K) : WithTop K) else ⊤,
      d := cpcdSum (fun i m => if i ∈ items then (((cNormalize N x (u i m) m - cNormalize N x (l i m) m) / (M : K) : K) : WithTop K) else ⊤) items fun _ => ⊤,
      H := List.range N } := by
    refine ⟨hnil.symm, by simp, fun m => ⟨[], by rw [List.append_nil, hnil], by simp⟩, fun m => by rw [← hnil]; exact hlen m, ?_, ?_, ?_⟩
    · intro m t ht
      dsimp only at ht
      have hS := prSorted_before (fun i => x i m) (List.range N) List.nodup_range
      have hlen' := hlen m
      rw [hnil] at hlen'
      obtain ⟨p, hp, hpt⟩ := List.mem_iff_getElem.1 ht
      rw [List.length_drop, hlen'] at hp
      rw [List.getElem_drop] at hpt
      have hp0 : p = 0 := by omega
      subst hp0
      obtain ⟨e, heE, heN, h1, h2⟩ := prHi_spec N x hN m
      obtain ⟨q, hq, hqe⟩ := List.mem_iff_getElem.1 ((prSorted_perm (fun i => x i m) (List.range N)).mem_iff.2 (List.mem_range.2 heN))
      by_cases hqN : q = N - 1
      · subst hqN
        have : t = e := by rw [← hpt, ← hqe]; simp
        rw [this]; exact heE
      · have hb := List.pairwise_iff_getElem.1 hS q (N - 1) hq (by omega) (by omega)
        have htt : (prSorted (fun i => x i m) (List.range N))[N - 1]'(by omega) = t := by rw [← hpt]; simp
        rw [hqe, htt] at hb
        have htN : t < N := List.mem_range.1 ((prSorted_perm (fun i => x i m) (List.range N)).mem_iff.1 (by rw [← htt]; exact List.getElem_mem _))
        have hle := h2 t htN
        rcases hb with hb | ⟨hb, hb'⟩
        · exact absurd hle (not_le.2 hb)
        · exact absurd hb (hinj m e t heN htN (by omega))
    · intro i hi hiE m l' u' hn
      dsimp only
      rw [if_pos ((hitem i).2 ⟨hi, hiE⟩)]
      have := Nbr.unique (hnd m) (hlu i hi hiE m) hn
      rw [this.1, this.2]
    · refine PruneTrace.start fun i hi => ?_
      have hil : i ∈ left N [] := by rw [hnil]; exact List.mem_range.2 hi
      dsimp only [cpcdSum, prVal]
      by_cases hiE : i ∈ prExtremes N x
      · rw [if_neg (fun hc => ((hitem i).1 hc).2 hiE), if_pos hiE]
      · have hI := (hitem i).2 ⟨hil, hiE⟩
        rw [if_pos hI, if_neg hiE, ← hnil, pcdMean_nbr N x _ (left_nodup N []) (fun a ha => (mem_left.1 ha).1) i hil (l i) (u i) (hlo i hil hiE) (hlu i hil hiE)]
        congr 1
        refine List.map_congr_left fun m _ => ?_
        rw [if_pos hI]
  obtain ⟨st, ks, h1, h2, inv⟩ := cpcdLoop_inv hinj (prCount N M n - 1) [] _ inv0 (by simp only [List.length_nil, Nat.zero_add]; exact hroom)
  refine ⟨st.d, ?_, ks, by simpa using h2, inv.trace.nodup, fun k hk => ⟨inv.trace.lt k hk, inv.free k hk⟩, inv.trace.greedy, inv.trace.cur, ?_, inv.trace.ordered (pcdMean_grows N x)⟩
  · unfold cCalcPcd
    simp only [← hitems, hiter, h1, Option.map_some]
  · intro t ht
    rw [inv.trace.kept t ht, prVal, if_neg (inv.free _ (List.getElem_mem _))]

/-- Non-vacuity: the points of C91; three are to be removed. First point `2` (of the two with the least value the last one) is removed, then point `1`. -/
example : (∀ j a b, a < 5 → b < 5 → a ≠ b → exPr a j ≠ exPr b j) ∧ prCount 5 2 3 - 1 ≤ ((List.range 5).filter fun i => decide (i ∉ prExtremes 5 exPr)).length ∧
    ((cCalcPcd 5 exPr 3).map fun d => (List.range 5).map d) = some [⊤, ((2 / 5 : ℚ) : WithTop ℚ), ((3 / 10 : ℚ) : WithTop ℚ), ((1 : ℚ) : WithTop ℚ), ⊤] := by
  refine ⟨?_, by decide +kernel, by decide +kernel⟩
  intro j a b ha hb hab
  interval_cases a <;> interval_cases b <;> first | exact absurd rfl hab | (revert j; decide +kernel)

/-- Three points of one front, two of which share the greatest value of the first objective. -/
def exPrTie (i : ℕ) : Fin 3 → ℚ := [![2, 0, 3], ![2, 1, 2], ![0, 3, 1]].getD i ![0, 0, 0]

/-- C122, refuted: two points of a front share the greatest value of an objective: the second of them is the last in the order of this objective but is not
taken for extreme, and the entry after it is read, whatever the number of points to be removed. The other version returns the distances. -/
theorem C122_ties_refuted : (∀ a < 3, ∀ b < 3, ¬ Dominates (exPrTie a) (exPrTie b)) ∧ (∀ n, cCalcPcd 3 exPrTie n = none) ∧
    (List.range 3).map (calcPcd 3 exPrTie 0) = [⊤, ⊤, ⊤] := by
  refine ⟨by decide +kernel, fun n => ?_, by decide +kernel⟩
  have h : (cpcdIter (cNormalize 3 exPrTie) 3 (fun m => prSorted (fun i => exPrTie i m) (List.range 3))
      ((List.range 3).filter fun i => decide (i ∉ prExtremes 3 exPrTie)) (fun _ _ => ⊤)).isNone = true := by decide +kernel
  unfold cCalcPcd
  rw [Option.isNone_iff_eq_none] at h
  simp only [h]

/-- Six points of a front, each of which is the best or the worst in one of the three objectives. -/
def exPrAll (i : ℕ) : Fin 3 → ℚ := [![0, 3, 4], ![5, 2, 1], ![3, 0, 2], ![1, 5, 3], ![4, 4, 0], ![2, 1, 5]].getD i ![0, 0, 0]

/-- C122, refuted: no two points agree in an objective and three of six points may be removed, but all are extreme: the routine removes an extreme point and
accesses memory outside of its arrays when it looks for the neighbours of this point. The other version returns a value for each point. -/
theorem C122_extremes_refuted : (∀ a < 6, ∀ b < 6, ¬ Dominates (exPrAll a) (exPrAll b)) ∧ (∀ j a b, a < 6 → b < 6 → a ≠ b → exPrAll a j ≠ exPrAll b j) ∧
    (cCalcPcd 6 exPrAll 3).isNone = true ∧ (List.range 6).map (calcPcd 6 exPrAll 3) = [⊤, ⊤, ⊤, ⊤, ⊤, ⊤] := by
  refine ⟨by decide +kernel, ?_, by decide +kernel, by decide +kernel⟩
  intro j a b ha hb hab
  interval_cases a <;> interval_cases b <;> first | exact absurd rfl hab | (revert j; decide +kernel)

end Props
