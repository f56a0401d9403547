import Mathlib.Algebra.BigOperators.Fin
import Verif.Props.CompiledPruning

/-!
# C123: the compiled nearest-neighbour metrics

The compiled `calc_mnn` and `calc_2nn` keep for every point the numbers of its nearest neighbours and repair these lists after a removal. This is greedy
pruning as in C91 if, seen from a point that is not extreme, no two points have the same distance. With equal distances a neighbour can be entered twice.
-/

set_option linter.unusedSimpArgs false
set_option linter.unusedVariables false
set_option linter.unusedSectionVars false

namespace Props
open Model Spec Lemmas
open scoped BigOperators

variable {K : Type*} [Field K] [LinearOrder K] [IsStrictOrderedRing K] {M : ℕ}

/-- What `np.argpartition(δ, range(1, nb + 1))` returns: an order `P` of the points in which the positions `1 .. nb` are as in the sorted order. -/
def Partitioned (δ : ℕ → K) (N nb : ℕ) (P : List ℕ) : Prop :=
  P.Perm (List.range N) ∧ ∀ p q (hpq : p < q) (hq : q < P.length), (1 ≤ p ∧ p ≤ nb) ∨ (1 ≤ q ∧ q ≤ nb) → δ (P[p]'(by omega)) ≤ δ P[q]

/-- The points of `H` other than `i`, nearest first. -/
def byDist (δ : ℕ → K) (H : List ℕ) (i : ℕ) : List ℕ := (H.filter fun a => decide (a ≠ i)).insertionSort fun a b => δ a ≤ δ b

/-- The `nb` first entries, `none` where there is none. -/
def padded (nb : ℕ) (L : List ℕ) : List (Option ℕ) := (List.range nb).map fun p => L[p]?

theorem padded_succ (nb b : ℕ) (L : List ℕ) : padded (nb + 1) (b :: L) = some b :: padded nb L := by
  unfold padded
  rw [List.range_succ_eq_map, List.map_cons, List.map_map]
  rfl

theorem padded_nil_succ (nb : ℕ) : padded (nb + 1) [] = none :: padded nb [] := by
  unfold padded
  rw [List.range_succ_eq_map, List.map_cons, List.map_map]
  rfl

theorem padded_dropLast (nb : ℕ) (L : List ℕ) : (padded (nb + 1) L).dropLast = padded nb L := by
  unfold padded
  rw [List.range_succ, List.map_append]
  simp

theorem padded_take (nb : ℕ) (L : List ℕ) (h : nb ≤ L.length) : padded nb L = (L.take nb).map some := by
  unfold padded
  refine List.ext_getElem (by simp [h]) fun p h1 h2 => ?_
  simp only [List.length_map, List.length_range] at h1
  simp [List.getElem?_eq_getElem (by omega : p < L.length)]

theorem padded_last (nb : ℕ) (L : List ℕ) (h : 0 < nb) : (padded nb L).getLast? = some L[nb - 1]? := by
  obtain ⟨q, rfl⟩ : ∃ q, nb = q + 1 := ⟨nb - 1, by omega⟩
  unfold padded
  rw [List.range_succ, List.map_append]
  simp

/-- Strictly increasing distances. -/
def Nearer (δ : ℕ → K) (L : List ℕ) : Prop := L.Pairwise fun a b => δ a < δ b

theorem cmnnInsert_mem (δ : ℕ → K) (j : ℕ) : ∀ (nb : ℕ) (L : List ℕ), Nearer δ L → j ∈ L → cmnnInsert δ j (padded nb L) = padded nb L := by
  intro nb
  induction nb with
  | zero => intro L _ _; rfl
  | succ nb ih =>
    intro L hL hj
    cases L with
    | nil => simp at hj
    | cons b L =>
      unfold Nearer at hL
      rw [List.pairwise_cons] at hL
      rw [padded_succ, cmnnInsert]
      rcases List.mem_cons.1 hj with rfl | hj
      · rw [if_pos rfl]
      · have hlt := hL.1 j hj
        rw [if_neg (by rintro rfl; exact lt_irrefl _ hlt), if_neg (not_le.2 hlt), ih L hL.2 hj]

/-- Insertion into a list with increasing distances. -/
def insertNear (δ : ℕ → K) (j : ℕ) (L : List ℕ) : List ℕ := L.orderedInsert (fun a b => δ a ≤ δ b) j

theorem cmnnInsert_new (δ : ℕ → K) (j : ℕ) : ∀ (nb : ℕ) (L : List ℕ), j ∉ L → cmnnInsert δ j (padded nb L) = padded nb (insertNear δ j L) := by
  intro nb
  induction nb with
  | zero => intro L _; rfl
  | succ nb ih =>
    intro L hj
    cases L with
    | nil => rw [padded_nil_succ, cmnnInsert, insertNear, List.orderedInsert_nil, padded_succ]
    | cons b L =>
      rw [padded_succ, cmnnInsert, if_neg (by rintro rfl; simp at hj)]
      unfold insertNear
      rw [List.orderedInsert_cons]
      by_cases h : δ j ≤ δ b
      · rw [if_pos h, if_pos h, padded_succ, ← padded_succ, padded_dropLast]
      · rw [if_neg h, if_neg h, padded_succ, ih L (fun hc => hj (List.mem_cons_of_mem _ hc))]
        rfl

theorem padded_far (δ : ℕ → K) (j : ℕ) : ∀ (nb : ℕ) (L : List ℕ) (b : ℕ), Nearer δ L → L[nb]? = some b → δ b < δ j → padded (nb + 1) (insertNear δ j L) = padded (nb + 1) L := by
  intro nb
  induction nb with
  | zero =>
    intro L b hL hb h
    cases L with
    | nil => simp at hb
    | cons a L =>
      simp at hb; subst hb
      unfold insertNear
      rw [List.orderedInsert_cons, if_neg (not_le.2 h), padded_succ, padded_succ]; rfl
  | succ nb ih =>
    intro L b hL hb h
    cases L with
    | nil => simp at hb
    | cons a L =>
      rw [List.getElem?_cons_succ] at hb
      unfold Nearer at hL
      rw [List.pairwise_cons] at hL
      have hab := hL.1 b (List.mem_of_getElem? hb)
      unfold insertNear
      rw [List.orderedInsert_cons, if_neg (not_le.2 (hab.trans h)), padded_succ, padded_succ]
      congr 1
      exact ih L b hL.2 hb h

theorem cmnnOffer_eq (δ : ℕ → K) (i j nb : ℕ) (hnb : 0 < nb) (L : List ℕ) (hL : Nearer δ L) :
    cmnnOffer δ i (padded nb L) j = padded nb (if j = i ∨ j ∈ L then L else insertNear δ j L) := by
  unfold cmnnOffer
  by_cases hji : j = i
  · rw [if_pos hji, if_pos (Or.inl hji)]
  · rw [if_neg hji, padded_last nb L hnb]
    have hins : cmnnInsert δ j (padded nb L) = padded nb (if j = i ∨ j ∈ L then L else insertNear δ j L) := by
      by_cases hj : j ∈ L
      · rw [if_pos (Or.inr hj), cmnnInsert_mem δ j nb L hL hj]
      · rw [if_neg (by tauto), cmnnInsert_new δ j nb L hj]
    cases hb : L[nb - 1]? with
    | none => exact hins
    | some b =>
      dsimp only
      by_cases h : δ j ≤ δ b
      · rw [if_pos h]; exact hins
      · rw [if_neg h]
        by_cases hj : j ∈ L
        · rw [if_pos (Or.inr hj)]
        · rw [if_neg (by tauto)]
          have := padded_far δ j (nb - 1) L b hL hb (not_le.1 h)
          rw [Nat.sub_add_cancel hnb] at this
          exact this.symm

theorem insertNear_perm (δ : ℕ → K) (j : ℕ) (L : List ℕ) : (insertNear δ j L).Perm (j :: L) := List.perm_orderedInsert _ _ _

theorem insertNear_nearer (δ : ℕ → K) (j : ℕ) : ∀ L : List ℕ, Nearer δ L → (∀ a ∈ L, δ a ≠ δ j) → Nearer δ (insertNear δ j L) := by
  intro L
  induction L with
  | nil => intro _ _; unfold insertNear Nearer; simp
  | cons b L ih =>
    intro hL hj
    unfold insertNear
    rw [List.orderedInsert_cons]
    have hL' := hL
    unfold Nearer at hL'
    rw [List.pairwise_cons] at hL'
    by_cases h : δ j ≤ δ b
    · rw [if_pos h]
      have hlt : δ j < δ b := lt_of_le_of_ne h (Ne.symm (hj b List.mem_cons_self))
      unfold Nearer
      rw [List.pairwise_cons]
      refine ⟨fun a ha => ?_, hL⟩
      rcases List.mem_cons.1 ha with rfl | ha
      · exact hlt
      · exact hlt.trans (hL'.1 a ha)
    · rw [if_neg h]
      have h1 := ih hL'.2 fun a ha => hj a (List.mem_cons_of_mem _ ha)
      unfold Nearer
      rw [List.pairwise_cons]
      refine ⟨fun a ha => ?_, h1⟩
      rcases List.mem_cons.1 ((insertNear_perm δ j L).mem_iff.1 ha) with rfl | ha
      · exact not_le.1 h
      · exact hL'.1 a ha

/-- All points of `H` are offered. -/
theorem cmnnOffer_fold (δ : ℕ → K) (i nb : ℕ) (hnb : 0 < nb) (inj : ℕ → Prop) (hδ : ∀ a b, inj a → inj b → a ≠ b → δ a ≠ δ b) : ∀ (H L : List ℕ), Nearer δ L →
    (∀ a ∈ L, inj a) → (∀ a ∈ H, inj a) → ∃ L', H.foldl (cmnnOffer δ i) (padded nb L) = padded nb L' ∧ Nearer δ L' ∧ ∀ a, a ∈ L' ↔ a ∈ L ∨ (a ∈ H ∧ a ≠ i) := by
  intro H
  induction H with
  | nil => intro L hL _ _; exact ⟨L, rfl, hL, by simp⟩
  | cons j H ih =>
    intro L hL h1 h2
    rw [List.foldl_cons, cmnnOffer_eq δ i j nb hnb L hL]
    have hstep : Nearer δ (if j = i ∨ j ∈ L then L else insertNear δ j L) ∧ ∀ a, a ∈ (if j = i ∨ j ∈ L then L else insertNear δ j L) ↔ a ∈ L ∨ (a = j ∧ a ≠ i) := by
      by_cases h : j = i ∨ j ∈ L
      · rw [if_pos h]
        refine ⟨hL, fun a => ⟨Or.inl, ?_⟩⟩
        rintro (ha | ⟨rfl, ha⟩)
        · exact ha
        · rcases h with h | h
          · exact absurd h ha
          · exact h
      · rw [if_neg h]
        have hji : j ≠ i := fun hc => h (Or.inl hc)
        refine ⟨insertNear_nearer δ j L hL fun a ha => hδ a j (h1 a ha) (h2 j List.mem_cons_self) fun hc => h (Or.inr (hc ▸ ha)), fun a => ?_⟩
        rw [(insertNear_perm δ j L).mem_iff, List.mem_cons]
        constructor
        · rintro (rfl | ha)
          · exact Or.inr ⟨rfl, hji⟩
          · exact Or.inl ha
        · rintro (ha | ⟨ha, -⟩)
          · exact Or.inr ha
          · exact Or.inl ha
    obtain ⟨L', e1, e2, e3⟩ := ih _ hstep.1 (fun a ha => by
      rcases (hstep.2 a).1 ha with ha | ⟨rfl, -⟩
      · exact h1 a ha
      · exact h2 a List.mem_cons_self) fun a ha => h2 a (List.mem_cons_of_mem _ ha)
    refine ⟨L', e1, e2, fun a => ?_⟩
    rw [e3, hstep.2, List.mem_cons]
    constructor
    · rintro ((ha | ⟨ha, ha'⟩) | ⟨ha, ha'⟩)
      · exact Or.inl ha
      · exact Or.inr ⟨Or.inl ha, ha'⟩
      · exact Or.inr ⟨Or.inr ha, ha'⟩
    · rintro (ha | ⟨ha | ha, ha'⟩)
      · exact Or.inl (Or.inl ha)
      · exact Or.inl (Or.inr ⟨ha, ha'⟩)
      · exact Or.inr ⟨ha, ha'⟩

theorem nearer_nodup {δ : ℕ → K} {L : List ℕ} (h : Nearer δ L) : L.Nodup := h.imp fun {a b} hab => by rintro rfl; exact lt_irrefl _ hab

/-- A list with increasing distances is determined by its members. -/
theorem nearer_unique {δ : ℕ → K} {L L' : List ℕ} (h : Nearer δ L) (h' : Nearer δ L') (hm : ∀ a, a ∈ L ↔ a ∈ L') : L = L' :=
  List.Perm.eq_of_pairwise (le := fun a b => δ a < δ b) (fun a b _ _ h1 h2 => absurd h2 (not_lt.2 h1.le)) h h' ((List.perm_ext_iff_of_nodup (nearer_nodup h) (nearer_nodup h')).2 hm)

theorem byDist_mem (δ : ℕ → K) (H : List ℕ) (i a : ℕ) : a ∈ byDist δ H i ↔ a ∈ H ∧ a ≠ i := by
  unfold byDist
  rw [List.mem_insertionSort, List.mem_filter]; simp

theorem byDist_nearer (δ : ℕ → K) (H : List ℕ) (hn : H.Nodup) (i : ℕ) (hδ : ∀ a ∈ H, ∀ b ∈ H, a ≠ b → δ a ≠ δ b) : Nearer δ (byDist δ H i) := by
  have ht : Std.Total (α := ℕ) (fun a b => δ a ≤ δ b) := ⟨fun a b => le_total _ _⟩
  have htr : IsTrans ℕ (fun a b => δ a ≤ δ b) := ⟨fun a b c => le_trans⟩
  have h1 := List.pairwise_insertionSort (fun a b => δ a ≤ δ b) (H.filter fun a => decide (a ≠ i))
  have h2 : (byDist δ H i).Nodup := (List.perm_insertionSort _ _).nodup_iff.2 (hn.filter _)
  refine (h1.and h2).imp_of_mem fun {a b} ha hb hab => ?_
  have ha' := (byDist_mem δ H i a).1 ha
  have hb' := (byDist_mem δ H i b).1 hb
  exact lt_of_le_of_ne hab.1 (hδ a ha'.1 b hb'.1 hab.2)

theorem byDist_length (δ : ℕ → K) (H : List ℕ) (hn : H.Nodup) (i : ℕ) (hi : i ∈ H) : (byDist δ H i).length + 1 = H.length := by
  unfold byDist
  rw [List.length_insertionSort]
  have h2 : H.filter (fun a => decide (a ≠ i)) = H.erase i := by
    rw [hn.erase_eq_filter]; refine List.filter_congr fun a _ => ?_; by_cases h : a = i <;> simp [h]
  rw [h2, List.length_erase_of_mem hi]
  have := List.length_pos_of_mem hi
  omega

/-- The initial neighbours. -/
theorem partitioned_near (δ : ℕ → K) (N nb i : ℕ) (P : List ℕ) (hnb : 0 < nb) (hN : nb < N) (hi : i < N) (h0 : δ i = 0) (hpos : ∀ a < N, 0 ≤ δ a)
    (hδ : ∀ a < N, ∀ b < N, a ≠ b → δ a ≠ δ b) (hP : Partitioned δ N nb P) : (P.drop 1).take nb = (byDist δ (List.range N) i).take nb := by
  obtain ⟨hperm, hsort⟩ := hP
  have hlen : P.length = N := by rw [hperm.length_eq, List.length_range]
  have hnd : P.Nodup := hperm.nodup_iff.2 List.nodup_range
  have hlt : ∀ q (hq : q < P.length), P[q] < N := fun q hq => List.mem_range.1 (hperm.mem_iff.1 (List.getElem_mem hq))
  have hzero : ∀ a < N, δ a ≤ 0 → a = i := by
    intro a ha hle
    by_contra hne
    exact hδ a ha i hi hne (by rw [h0]; exact le_antisymm hle (hpos a ha))
  -- the first entry is the point itself
  have hfirst : P[0]'(by omega) = i := by
    obtain ⟨q, hq, hqi⟩ := List.getElem_of_mem (hperm.mem_iff.2 (List.mem_range.2 hi))
    rcases Nat.eq_zero_or_pos q with rfl | hq0
    · exact hqi
    · rcases Nat.lt_or_ge nb q with hlarge | hsmall
      · have h1 := hsort 1 q (by omega) hq (Or.inl ⟨le_rfl, by omega⟩)
        rw [hqi, h0] at h1
        have h2 := hzero _ (hlt 1 (by omega)) h1
        have := (List.Nodup.getElem_inj_iff hnd).1 (h2.trans hqi.symm)
        omega
      · have h1 := hsort 0 q hq0 hq (Or.inr ⟨hq0, hsmall⟩)
        rw [hqi, h0] at h1
        exact hzero _ (hlt 0 (by omega)) h1
  -- sorted
  have hnear : Nearer δ ((P.drop 1).take nb) := by
    unfold Nearer
    rw [List.pairwise_iff_getElem]
    intro p q hp hq hpq
    simp only [List.length_take, List.length_drop, lt_min_iff] at hp hq
    simp only [List.getElem_take, List.getElem_drop]
    refine lt_of_le_of_ne (hsort (1 + p) (1 + q) (by omega) (by omega) (Or.inl ⟨by omega, by omega⟩)) (hδ _ (hlt _ _) _ (hlt _ _) fun hc => ?_)
    have := (List.Nodup.getElem_inj_iff hnd).1 hc
    omega
  set S := byDist δ (List.range N) i with hS
  have hSn : Nearer δ S := byDist_nearer δ _ List.nodup_range i fun a ha b hb => hδ a (List.mem_range.1 ha) b (List.mem_range.1 hb)
  have hSl : S.length + 1 = N := by rw [hS, byDist_length δ _ List.nodup_range i (List.mem_range.2 hi), List.length_range]
  -- the two lists have the same members
  have hrest : Nearer δ ((P.drop 1).take nb ++ byDist δ ((P.drop 1).drop nb) N) := by
    have htail : ∀ a ∈ (P.drop 1).drop nb, a < N := fun a ha => List.mem_range.1 (hperm.mem_iff.1 (List.mem_of_mem_drop (List.mem_of_mem_drop ha)))
    unfold Nearer
    rw [List.pairwise_append]
    refine ⟨hnear, byDist_nearer δ _ ((hnd.sublist (List.drop_sublist _ _)).sublist (List.drop_sublist _ _)) _ fun a ha b hb => hδ a (htail a ha) b (htail b hb), ?_⟩
    intro a ha b hb
    have hb' := ((byDist_mem δ _ N b).1 hb).1
    obtain ⟨p, hp, rfl⟩ := List.getElem_of_mem ha
    obtain ⟨q, hq, rfl⟩ := List.getElem_of_mem hb'
    simp only [List.length_take, List.length_drop, lt_min_iff] at hp hq
    simp only [List.getElem_take, List.getElem_drop]
    refine lt_of_le_of_ne (hsort (1 + p) _ (by omega) (by omega) (Or.inl ⟨by omega, by omega⟩)) (hδ _ (hlt _ _) _ (hlt _ _) fun hc => ?_)
    have := (List.Nodup.getElem_inj_iff hnd).1 hc
    omega
  have heq : (P.drop 1).take nb ++ byDist δ ((P.drop 1).drop nb) N = S := by
    refine nearer_unique hrest hSn fun a => ?_
    rw [List.mem_append, byDist_mem, hS, byDist_mem, List.mem_range]
    have hPcons : P = i :: P.drop 1 := by
      have h1 := List.cons_getElem_drop_succ (l := P) (n := 0) (h := by omega)
      rw [hfirst, List.drop_zero] at h1
      exact h1.symm
    have hsplit : a ∈ P.drop 1 ↔ a ∈ (P.drop 1).take nb ∨ a ∈ (P.drop 1).drop nb := by
      rw [← List.mem_append, List.take_append_drop]
    have hin : a ∈ P ↔ a < N := by rw [hperm.mem_iff, List.mem_range]
    have hcons : a ∈ P ↔ a = i ∨ a ∈ P.drop 1 := by
      constructor
      · intro h; rw [hPcons] at h; exact List.mem_cons.1 h
      · intro h; rw [hPcons]; exact List.mem_cons.2 h
    have hinotin : i ∉ P.drop 1 := by
      rw [hPcons] at hnd; exact (List.nodup_cons.1 hnd).1
    constructor
    · rintro (h | ⟨h, -⟩)
      · have := hsplit.2 (Or.inl h)
        exact ⟨hin.1 (hcons.2 (Or.inr this)), fun hc => hinotin (hc ▸ this)⟩
      · have := hsplit.2 (Or.inr h)
        exact ⟨hin.1 (hcons.2 (Or.inr this)), fun hc => hinotin (hc ▸ this)⟩
    · rintro ⟨h1, h2⟩
      rcases hcons.1 (hin.2 h1) with h3 | h3
      · exact absurd h3 h2
      · rcases hsplit.1 h3 with h4 | h4
        · exact Or.inl h4
        · exact Or.inr ⟨h4, by omega⟩
  rw [← heq, List.take_append_of_le_length (by simp; omega), List.take_take, min_self]

/-! ### Removal of a neighbour -/

theorem foldl_hit {β : Type*} (f : β → ℕ → β) (N n0 : ℕ) (hn : n0 < N) (s r : β) (hb : ∀ n < n0, f s n = s) (hat : f s n0 = r) (ha : ∀ n < N, n0 < n → f r n = r) :
    (List.range N).foldl f s = r := by
  have := foldlM_hit (fun s n => some (f s n)) N n0 hn s r (fun n hn => by rw [hb n hn]) (by rw [hat]) (fun n hn hn' => by rw [ha n hn hn'])
  have h2 : ∀ (L : List ℕ) (s : β), L.foldlM (fun s n => some (f s n)) s = some (L.foldl f s) := by
    intro L; induction L with
    | nil => intro s; rfl
    | cons a L ih => intro s; rw [List.foldlM_cons]; exact ih _
  rw [h2] at this
  exact Option.some.inj this

theorem foldl_skip {β : Type*} (f : β → ℕ → β) (L : List ℕ) (s : β) (h : ∀ n ∈ L, f s n = s) : L.foldl f s = s := by
  induction L with
  | nil => rfl
  | cons a L ih => rw [List.foldl_cons, h a List.mem_cons_self]; exact ih fun n hn => h n (List.mem_cons_of_mem _ hn)

theorem cmnnDropRow_absent (k : ℕ) (row : List (Option ℕ)) (h : some k ∉ row) : cmnnDropRow k row = (row, false) := by
  unfold cmnnDropRow
  refine foldl_skip _ _ _ fun n _ => ?_
  dsimp only
  rw [if_neg fun hc => h (List.mem_of_getElem? hc)]

theorem cmnnDropRow_present (k nb : ℕ) (L : List ℕ) (hn : L.Nodup) (hk : k ∈ L) (hl : L.length = nb) :
    cmnnDropRow k (L.map some) = (padded nb (L.filter fun a => decide (a ≠ k)), true) := by
  obtain ⟨A, B, rfl⟩ := List.append_of_mem hk
  rw [List.nodup_append, List.nodup_cons] at hn
  have hA : k ∉ A := fun hc => hn.2.2 k hc k (by simp) rfl
  have hB : k ∉ B := hn.2.1.1
  have hf : (A ++ k :: B).filter (fun a => decide (a ≠ k)) = A ++ B := by
    rw [List.filter_append, List.filter_cons_of_neg (by simp), List.filter_eq_self.2, List.filter_eq_self.2]
    · intro a ha; simp only [ne_eq, decide_not, Bool.not_eq_true', decide_eq_false_iff_not]; exact fun hc => hB (hc ▸ ha)
    · intro a ha; simp only [ne_eq, decide_not, Bool.not_eq_true', decide_eq_false_iff_not]; exact fun hc => hA (hc ▸ ha)
  have hpad : padded nb (A ++ B) = (A ++ B).map some ++ [none] := by
    have e : nb = (A ++ B).length + 1 := by rw [← hl]; simp; omega
    rw [e]
    unfold padded
    rw [List.range_succ, List.map_append]
    congr 1
    · refine List.ext_getElem (by simp) fun p h1 h2 => ?_
      simp only [List.length_map, List.length_range] at h1
      simp only [List.getElem_map, List.getElem_range]
      rw [List.getElem?_eq_getElem h1]
    · simp
  rw [hf, hpad]
  unfold cmnnDropRow
  refine foldl_hit _ _ A.length (by simp) _ _ ?_ ?_ ?_
  · intro n hn'
    dsimp only
    rw [if_neg]
    intro hc
    rw [List.map_append, List.getElem?_append_left (by simpa using hn'), List.getElem?_map] at hc
    cases h : A[n]? with
    | none => rw [h] at hc; cases hc
    | some a =>
      rw [h] at hc
      simp only [Option.map_some, Option.some.injEq] at hc
      exact hA (hc ▸ List.mem_of_getElem? h)
  · dsimp only
    rw [if_pos (by simp)]
    simp [List.drop_append]
  · intro n _ _
    dsimp only
    rw [if_neg]
    intro hc
    have := List.mem_of_getElem? hc
    simp only [List.mem_append, List.mem_map, List.mem_singleton] at this
    rcases this with ⟨a, ha, hc'⟩ | hc'
    · rw [Option.some.injEq] at hc'
      subst hc'
      rcases ha with ha | ha
      · exact hA ha
      · exact hB ha
    · cases hc'

theorem cmnnProd_some (δ : ℕ → K) (L : List ℕ) : cmnnProd δ (L.map some) = some (L.map δ).prod := by
  have key : ∀ (L : List ℕ) (c : K), (L.map some).foldlM (fun acc (b : Option ℕ) => b.map fun b => acc * δ b) c = some (c * (L.map δ).prod) := by
    intro L
    induction L with
    | nil => intro c; simp
    | cons a L ih =>
      intro c
      rw [List.map_cons, List.foldlM_cons, Option.map_some]
      change List.foldlM _ (c * δ a) (L.map some) = _
      rw [ih, List.map_cons, List.prod_cons, mul_assoc]
  unfold cmnnProd
  rw [key, one_mul]


/-! ### The metric -/

theorem cmnnDist_eq (N : ℕ) (x : ℕ → Fin M → K) (i a : ℕ) (hi : i < N) (ha : a < N) : cmnnDist (cNormalize N x) i a = mnnDist N x i a := by
  unfold cmnnDist mnnDist
  rw [Fin.sum_univ_def]
  congr 1
  refine List.map_congr_left fun m _ => ?_
  rw [cNormalize_eq N x a ha, cNormalize_eq N x i hi]
  ring

theorem mnnOn_byDist (N nb : ℕ) (x : ℕ → Fin M → K) (H : List ℕ) (hn : H.Nodup) (hlt : ∀ a ∈ H, a < N) (i : ℕ) (hi : i ∈ H) (hnb : nb < H.length) :
    mnnOn (mnnDist N x) nb H i = (((((byDist (cmnnDist (cNormalize N x) i) H i).take nb).map (cmnnDist (cNormalize N x) i)).prod : K) : WithTop K) := by
  obtain ⟨near, h1, h2, h3⟩ := C91_mnn_metric N nb x H i hi
  have hel : (H.erase i).length = H.length - 1 := List.length_erase_of_mem hi
  rw [h3, if_pos (by omega)]
  congr 2
  have hfilter : H.filter (fun a => decide (a ≠ i)) = H.erase i := by
    rw [hn.erase_eq_filter]; refine List.filter_congr fun a _ => ?_; by_cases h : a = i <;> simp [h]
  have hmem : ∀ a ∈ byDist (cmnnDist (cNormalize N x) i) H i, cmnnDist (cNormalize N x) i a = mnnDist N x i a :=
    fun a ha => cmnnDist_eq N x i a (hlt i hi) (hlt a ((byDist_mem _ H i a).1 ha).1)
  have heq : near = (byDist (cmnnDist (cNormalize N x) i) H i).map (cmnnDist (cNormalize N x) i) := by
    refine List.Perm.eq_of_pairwise (le := (· ≤ ·)) (fun a b _ _ h1 h2 => le_antisymm h1 h2) h2 ?_ ?_
    · have ht : Std.Total (α := ℕ) (fun a b => cmnnDist (cNormalize N x) i a ≤ cmnnDist (cNormalize N x) i b) := ⟨fun a b => le_total _ _⟩
      have htr : IsTrans ℕ (fun a b => cmnnDist (cNormalize N x) i a ≤ cmnnDist (cNormalize N x) i b) := ⟨fun a b c => le_trans⟩
      rw [List.pairwise_map]
      exact List.pairwise_insertionSort _ _
    · refine h1.trans ?_
      rw [List.map_congr_left hmem]
      refine List.Perm.map _ ?_
      unfold byDist
      rw [hfilter]
      exact (List.perm_insertionSort _ _).symm
  rw [heq, List.map_take]

/-! ### The loop -/

section Loop
variable {N nb : ℕ} {x : ℕ → Fin M → K} {E : List ℕ}

/-- What holds after the removal of `ks`. -/
structure CmnnInv (N nb : ℕ) (x : ℕ → Fin M → K) (E : List ℕ) (ks : List ℕ) (st : CmnnSt K) : Prop where
  H : st.H = left N ks
  nn : ∀ i ∈ left N ks, i ∉ E → st.nn i = ((byDist (cmnnDist (cNormalize N x) i) (left N ks) i).take nb).map some
  trace : PruneTrace (mnnOn (mnnDist N x) nb) E N ks st.d

theorem cmnnRound_inv (hnb : 0 < nb) (hdist : ∀ i < N, i ∉ E → ∀ a < N, ∀ b < N, a ≠ b → cmnnDist (cNormalize N x) i a ≠ cmnnDist (cNormalize N x) i b) {ks : List ℕ}
    {st : CmnnSt K} (inv : CmnnInv N nb x E ks st) (hroom : ks.length + 1 + nb < N) :
    ∃ st', cmnnRound (cmnnDist (cNormalize N x)) E st = some st' ∧ CmnnInv N nb x E (ks ++ [cDrop st.d st.H]) st' := by
  have hlenl := left_length N ks inv.trace.nodup inv.trace.lt
  obtain ⟨hkH, hkmin⟩ := cDrop_spec st.d st.H (by rw [inv.H]; intro hc; rw [hc] at hlenl; simp at hlenl; omega)
  set k := cDrop st.d st.H with hk
  rw [inv.H] at hkH hkmin
  set dist := cmnnDist (cNormalize N x) with hdistdef
  have hH' : st.H.filter (fun i => decide (i ≠ k)) = left N (ks ++ [k]) := (congrArg (List.filter fun i => decide (i ≠ k)) inv.H).trans (left_snoc N ks k)
  set H' := left N (ks ++ [k]) with hH'def
  have hsub : ∀ i ∈ H', i ∈ left N ks ∧ i ≠ k := by
    intro i hi
    rw [hH'def, ← left_snoc, List.mem_filter] at hi
    exact ⟨hi.1, by simpa using hi.2⟩
  have hltH : ∀ i ∈ H', i < N := fun i hi => (mem_left.1 hi).1
  have hlenH' : H'.length + 1 = (left N ks).length := by
    rw [hH'def, ← left_snoc]
    have h2 : (left N ks).filter (fun i => decide (i ≠ k)) = (left N ks).erase k := by
      rw [(left_nodup N ks).erase_eq_filter k]; refine List.filter_congr fun a _ => ?_; by_cases h : a = k <;> simp [h]
    rw [h2, List.length_erase_of_mem hkH]
    have := List.length_pos_of_mem hkH
    omega
  have hnbH : nb < H'.length := by omega
  -- the neighbours before and after
  have hS : ∀ i ∈ H', i ∉ E → Nearer (dist i) (byDist (dist i) (left N ks) i) := fun i hi hiE =>
    byDist_nearer _ _ (left_nodup N ks) i fun a ha b hb => hdist i (hltH i hi) hiE a (mem_left.1 ha).1 b (mem_left.1 hb).1
  have hS' : ∀ i ∈ H', i ∉ E → Nearer (dist i) (byDist (dist i) H' i) := fun i hi hiE =>
    byDist_nearer _ _ (left_nodup N _) i fun a ha b hb => hdist i (hltH i hi) hiE a (mem_left.1 ha).1 b (mem_left.1 hb).1
  have hlenS : ∀ i ∈ H', nb + 1 ≤ (byDist (dist i) (left N ks) i).length := by
    intro i hi
    have := byDist_length (dist i) (left N ks) (left_nodup N ks) i (hsub i hi).1
    omega
  have hlenS' : ∀ i ∈ H', nb ≤ (byDist (dist i) H' i).length := by
    intro i hi
    have := byDist_length (dist i) H' (left_nodup N _) i hi
    omega
  have hfilt : ∀ i ∈ H', i ∉ E → (byDist (dist i) (left N ks) i).filter (fun a => decide (a ≠ k)) = byDist (dist i) H' i := by
    intro i hi hiE
    refine nearer_unique ((hS i hi hiE).filter _) (hS' i hi hiE) fun a => ?_
    rw [List.mem_filter, byDist_mem, byDist_mem, hH'def, ← left_snoc, List.mem_filter]
    tauto
  set items := H'.filter (fun i => (cmnnDropRow k (st.nn i)).2 && decide (i ∉ E)) with hitems
  set nn0 : ℕ → List (Option ℕ) := fun i => if i ∈ H' then (cmnnDropRow k (st.nn i)).1 else st.nn i with hnn0
  set nn : ℕ → List (Option ℕ) := fun i => if i ∈ items then H'.foldl (cmnnOffer (dist i) i) (nn0 i) else nn0 i with hnn
  have hnew : ∀ i ∈ H', i ∉ E → nn i = ((byDist (dist i) H' i).take nb).map some := by
    intro i hi hiE
    have hrow := inv.nn i (hsub i hi).1 hiE
    set S := byDist (dist i) (left N ks) i with hSdef
    have hStake : (S.take nb).Nodup := (nearer_nodup (hS i hi hiE)).sublist (List.take_sublist _ _)
    by_cases hkS : k ∈ S.take nb
    · have hdrop := cmnnDropRow_present k nb (S.take nb) hStake hkS (by rw [List.length_take]; have := hlenS i hi; rw [← hSdef] at this; omega)
      rw [← hrow] at hdrop
      have hit : i ∈ items := by rw [hitems, List.mem_filter, hdrop]; exact ⟨hi, by simpa using hiE⟩
      rw [hnn]
      dsimp only
      rw [if_pos hit, hnn0]
      dsimp only
      rw [if_pos hi, hdrop]
      dsimp only
      obtain ⟨L', e1, e2, e3⟩ := cmnnOffer_fold (dist i) i nb hnb (fun a => a < N) (fun a b ha hb => hdist i (hltH i hi) hiE a ha b hb) H'
        ((S.take nb).filter fun a => decide (a ≠ k)) (((hS i hi hiE).sublist (List.take_sublist _ _)).filter _)
        (fun a ha => by
          have := (byDist_mem (dist i) (left N ks) i a).1 (List.mem_of_mem_take (List.mem_filter.1 ha).1)
          exact (mem_left.1 this.1).1) hltH
      rw [e1]
      have : L' = byDist (dist i) H' i := by
        refine nearer_unique e2 (hS' i hi hiE) fun a => ?_
        rw [e3, byDist_mem]
        constructor
        · rintro (h | h)
          · rw [List.mem_filter] at h
            have h1 := (byDist_mem (dist i) (left N ks) i a).1 (List.mem_of_mem_take h.1)
            refine ⟨?_, h1.2⟩
            rw [hH'def, ← left_snoc, List.mem_filter]
            exact ⟨h1.1, h.2⟩
          · exact h
        · exact fun h => Or.inr h
      rw [this, padded_take nb _ (hlenS' i hi)]
    · have hdrop := cmnnDropRow_absent k (st.nn i) (by
          rw [hrow]; intro hc; obtain ⟨a, ha, e⟩ := List.mem_map.1 hc; exact hkS (Option.some.inj e ▸ ha))
      have hit : i ∉ items := by rw [hitems, List.mem_filter, hdrop]; simp
      rw [hnn]
      dsimp only
      rw [if_neg hit, hnn0]
      dsimp only
      rw [if_pos hi, hdrop]
      dsimp only
      rw [hrow, ← hfilt i hi hiE, ← hSdef]
      congr 1
      conv_rhs => rw [← List.take_append_drop nb S, List.filter_append]
      have hself : (S.take nb).filter (fun a => decide (a ≠ k)) = S.take nb := by
        rw [List.filter_eq_self]
        intro a ha
        simp only [ne_eq, decide_not, Bool.not_eq_true', decide_eq_false_iff_not]
        exact fun hc => hkS (hc ▸ ha)
      rw [hself, List.take_append_of_le_length (by rw [List.length_take]; have := hlenS i hi; rw [← hSdef] at this; omega), List.take_take, min_self]
  have hitem : ∀ i ∈ items, i ∈ H' ∧ i ∉ E := by
    intro i hi
    rw [hitems, List.mem_filter] at hi
    refine ⟨hi.1, ?_⟩
    have := hi.2
    simp only [Bool.and_eq_true, decide_eq_true_eq] at this
    exact this.2
  have hprod : ∀ i ∈ H', i ∉ E → cmnnProd (dist i) (nn i) = some (((byDist (dist i) H' i).take nb).map (dist i)).prod := fun i hi hiE => by
    rw [hnew i hi hiE, cmnnProd_some]
  have hall : (items.all fun i => (cmnnProd (dist i) (nn i)).isSome) = true := by
    rw [List.all_eq_true]
    intro i hi
    rw [hprod i (hitem i hi).1 (hitem i hi).2]; rfl
  refine ⟨{ nn := nn, d := fun i => if i ∈ items then ((cmnnProd (dist i) (nn i)).map ((↑) : K → WithTop K)).getD 0 else st.d i, H := H' }, ?_, ?_⟩
  · unfold cmnnRound
    simp only [← hk, hH']
    exact if_pos hall
  · refine ⟨rfl, hnew, inv.trace.snoc hkH hkmin ?_ ?_⟩
    · intro i hi
      dsimp only
      by_cases hiE : i ∈ E
      · rw [if_neg fun hc => (hitem i hc).2 hiE, inv.trace.cur i (hsub i hi).1, prVal, prVal, if_pos hiE, if_pos hiE]
      · rw [prVal, if_neg hiE, mnnOn_byDist N nb x H' (left_nodup N _) hltH i hi hnbH]
        by_cases hit : i ∈ items
        · rw [if_pos hit, hprod i hi hiE]; rfl
        · rw [if_neg hit, inv.trace.cur i (hsub i hi).1, prVal, if_neg hiE,
            mnnOn_byDist N nb x (left N ks) (left_nodup N _) (fun a ha => (mem_left.1 ha).1) i (hsub i hi).1 (by omega)]
          have h1 := hnew i hi hiE
          rw [hnn] at h1
          dsimp only at h1
          rw [if_neg hit, hnn0] at h1
          dsimp only at h1
          rw [if_pos hi] at h1
          have hfalse : (cmnnDropRow k (st.nn i)).2 = false := by
            by_contra hc
            refine hit ?_
            rw [hitems, List.mem_filter]
            exact ⟨hi, by simp [Bool.eq_true_of_not_eq_false hc, hiE]⟩
          have hrow := inv.nn i (hsub i hi).1 hiE
          have hkS : k ∉ (byDist (dist i) (left N ks) i).take nb := by
            intro hkS
            have hdrop := cmnnDropRow_present k nb _ ((nearer_nodup (hS i hi hiE)).sublist (List.take_sublist _ _)) hkS (by rw [List.length_take]; have := hlenS i hi; omega)
            rw [← hrow] at hdrop
            rw [hdrop] at hfalse
            cases hfalse
          rw [cmnnDropRow_absent k (st.nn i) (by
          rw [hrow]; intro hc; obtain ⟨a, ha, e⟩ := List.mem_map.1 hc; exact hkS (Option.some.inj e ▸ ha))] at h1
          dsimp only at h1
          rw [hrow] at h1
          have h2 := List.map_injective_iff.2 (Option.some_injective ℕ) h1
          rw [h2]
    · intro i hi
      dsimp only
      have hit : i ∉ items := fun hc => (mem_left.1 (hitem i hc).1).2 hi
      rw [if_neg hit]

theorem cmnnLoop_inv (hnb : 0 < nb) (hdist : ∀ i < N, i ∉ E → ∀ a < N, ∀ b < N, a ≠ b → cmnnDist (cNormalize N x) i a ≠ cmnnDist (cNormalize N x) i b) :
    ∀ (r : ℕ) (ks : List ℕ) (st : CmnnSt K), CmnnInv N nb x E ks st → ks.length + r + nb < N →
    ∃ st' ks', cmnnLoop (cmnnDist (cNormalize N x)) E r st = some st' ∧ ks'.length = ks.length + r ∧ CmnnInv N nb x E ks' st' := by
  intro r
  induction r with
  | zero => intro ks st inv _; exact ⟨st, ks, rfl, rfl, inv⟩
  | succ r ih =>
    intro ks st inv hroom
    obtain ⟨st', h1, h2⟩ := cmnnRound_inv hnb hdist inv (by omega)
    obtain ⟨st'', ks', h3, h4, h5⟩ := ih _ st' h2 (by rw [List.length_append]; simp only [List.length_cons, List.length_nil]; omega)
    refine ⟨st'', ks', ?_, by rw [h4, List.length_append]; simp only [List.length_cons, List.length_nil]; omega, h5⟩
    rw [cmnnLoop, h1]
    exact h3

theorem cmnnRun_spec (P : ℕ → List ℕ) (count : ℕ) (hnb : 0 < nb) (hN : nb < N) (hcount : count - 1 + nb < N)
    (hdist : ∀ i < N, i ∉ E → ∀ a < N, ∀ b < N, a ≠ b → mnnDist N x i a ≠ mnnDist N x i b)
    (hP : ∀ i < N, Partitioned (mnnDist N x i) N nb (P i)) :
    ∃ d, cmnnRun (cmnnDist (cNormalize N x)) (fun i => ((P i).drop 1).take nb) E N nb count = some d ∧ ∃ ks : List ℕ, ks.length = count - 1 ∧
      PruneTrace (mnnOn (mnnDist N x) nb) E N ks d := by
  have hd' : ∀ i < N, ∀ a < N, cmnnDist (cNormalize N x) i a = mnnDist N x i a := fun i hi a ha => cmnnDist_eq N x i a hi ha
  have hdist' : ∀ i < N, i ∉ E → ∀ a < N, ∀ b < N, a ≠ b → cmnnDist (cNormalize N x) i a ≠ cmnnDist (cNormalize N x) i b := by
    intro i hi hiE a ha b hb hab
    rw [hd' i hi a ha, hd' i hi b hb]; exact hdist i hi hiE a ha b hb hab
  have hP' : ∀ i < N, Partitioned (cmnnDist (cNormalize N x) i) N nb (P i) := by
    intro i hi
    refine ⟨(hP i hi).1, fun p q hpq hq h => ?_⟩
    have hm : ∀ q (hq : q < (P i).length), (P i)[q] < N := fun q hq => List.mem_range.1 ((hP i hi).1.mem_iff.1 (List.getElem_mem hq))
    rw [hd' i hi _ (hm _ _), hd' i hi _ (hm _ _)]
    exact (hP i hi).2 p q hpq hq h
  have hnear : ∀ i < N, i ∉ E → ((P i).drop 1).take nb = (byDist (cmnnDist (cNormalize N x) i) (left N []) i).take nb := by
    intro i hi hiE
    rw [left_nil]
    refine partitioned_near _ N nb i (P i) hnb hN hi ?_ ?_ (hdist' i hi hiE) (hP' i hi)
    · rw [hd' i hi i hi]; simp [mnnDist]
    · intro a ha; rw [hd' i hi a ha]; exact Finset.sum_nonneg fun j _ => sq_nonneg _
  set items := (List.range N).filter (fun i => decide (i ∉ E)) with hitems
  have hitem : ∀ i, i ∈ items ↔ i < N ∧ i ∉ E := by intro i; rw [hitems, List.mem_filter, List.mem_range]; simp
  have inv0 : CmnnInv N nb x E [] { nn := fun i => (((P i).drop 1).take nb).map some, d := fun i => if i ∈ items then
      (((((P i).drop 1).take nb).map (cmnnDist (cNormalize N x) i)).prod : K) else (⊤ : WithTop K), H := List.range N } := by
    refine ⟨(left_nil N).symm, fun i hi hiE => ?_, PruneTrace.start fun i hi => ?_⟩
    · dsimp only
      rw [hnear i (mem_left.1 hi).1 hiE]
    · dsimp only [prVal]
      by_cases hiE : i ∈ E
      · rw [if_neg fun hc => ((hitem i).1 hc).2 hiE, if_pos hiE]
      · rw [if_pos ((hitem i).2 ⟨hi, hiE⟩), if_neg hiE, mnnOn_byDist N nb x _ List.nodup_range (fun a ha => List.mem_range.1 ha) i (List.mem_range.2 hi) (by simpa using hN),
          hnear i hi hiE, left_nil]
  obtain ⟨st, ks, h1, h2, inv⟩ := cmnnLoop_inv hnb hdist' (count - 1) [] _ inv0 (by simpa using hcount)
  refine ⟨st.d, ?_, ks, by simpa using h2, inv.trace⟩
  unfold cmnnRun
  rw [if_neg (by omega)]
  simp only [← hitems, h1, Option.map_some]

end Loop

/-- C123: the compiled `calc_mnn` is greedy pruning with the product of the distances to the nearest neighbours, computed anew after every removal, if seen from
a point that is not extreme no two points have the same distance. `P i` is the result of `np.argpartition` for row `i`. (Missing: with equal distances the
claim is false, `C123_equal_distances_refuted`.) -/
theorem C123_mnn_partial (N : ℕ) (x : ℕ → Fin M → K) (n : ℤ) (P : ℕ → List ℕ) (hM : 0 < M) (hN : M < N)
    (hdist : ∀ i < N, i ∉ prExtremes N x → ∀ a < N, ∀ b < N, a ≠ b → mnnDist N x i a ≠ mnnDist N x i b)
    (hP : ∀ i < N, Partitioned (mnnDist N x i) N M (P i)) :
    ∃ d, cCalcMnn (fun i => ((P i).drop 1).take M) N x n = some d ∧ ∃ ks : List ℕ, ks.length = prCount N M n - 1 ∧ ks.Nodup ∧ (∀ k ∈ ks, k < N) ∧
      GreedyPruning (mnnOn (mnnDist N x) M) (prExtremes N x) N ks ∧
      (∀ i ∈ left N ks, d i = prVal (mnnOn (mnnDist N x) M) (prExtremes N x) (left N ks) i) ∧
      (∀ t (ht : t < ks.length), d ks[t] = prVal (mnnOn (mnnDist N x) M) (prExtremes N x) (left N (ks.take t)) ks[t]) ∧
      (∀ s t (hst : s ≤ t) (ht : t < ks.length), d (ks[s]'(by omega)) ≤ d ks[t]) ∧ (∀ k ∈ ks, ∀ y ∈ left N ks, d k ≤ d y) := by
  have hc := (prCount_le N M n).1
  obtain ⟨d, h1, ks, h2, h3⟩ := cmnnRun_spec (nb := M) (E := prExtremes N x) P (prCount N M n) hM hN (by omega) hdist hP
  refine ⟨d, by unfold cCalcMnn; rw [if_neg (by omega)]; exact h1, ks, h2, h3.nodup, h3.lt, h3.greedy, h3.cur, h3.kept, h3.ordered ?_⟩
  exact mnnOn_grows _ (fun i a => Finset.sum_nonneg fun j _ => sq_nonneg _) _ N

/-- C123: the same for `calc_2nn` with the two nearest neighbours, for two or more objectives and three or more points. -/
theorem C123_2nn_partial (N : ℕ) (x : ℕ → Fin M → K) (n : ℤ) (P : ℕ → List ℕ) (hM : 2 ≤ M) (hN : 2 < N)
    (hdist : ∀ i < N, i ∉ prExtremes N x → ∀ a < N, ∀ b < N, a ≠ b → mnnDist N x i a ≠ mnnDist N x i b)
    (hP : ∀ i < N, Partitioned (mnnDist N x i) N 2 (P i)) :
    ∃ d, cCalc2nn (fun i => ((P i).drop 1).take 2) N x n = some d ∧ ∃ ks : List ℕ, ks.length = prCount N M n - 1 ∧ ks.Nodup ∧ (∀ k ∈ ks, k < N) ∧
      GreedyPruning (mnnOn (mnnDist N x) 2) (prExtremes N x) N ks ∧
      (∀ i ∈ left N ks, d i = prVal (mnnOn (mnnDist N x) 2) (prExtremes N x) (left N ks) i) ∧
      (∀ t (ht : t < ks.length), d ks[t] = prVal (mnnOn (mnnDist N x) 2) (prExtremes N x) (left N (ks.take t)) ks[t]) ∧
      (∀ s t (hst : s ≤ t) (ht : t < ks.length), d (ks[s]'(by omega)) ≤ d ks[t]) ∧ (∀ k ∈ ks, ∀ y ∈ left N ks, d k ≤ d y) := by
  have hc := (prCount_le N M n).1
  obtain ⟨d, h1, ks, h2, h3⟩ := cmnnRun_spec (nb := 2) (E := prExtremes N x) P (prCount N M n) (by omega) hN (by omega) hdist hP
  refine ⟨d, h1, ks, h2, h3.nodup, h3.lt, h3.greedy, h3.cur, h3.kept, h3.ordered ?_⟩
  exact mnnOn_grows _ (fun i a => Finset.sum_nonneg fun j _ => sq_nonneg _) _ N

/-- Five points on a line; seen from points `1`, `2` and `3` all distances differ. -/
def exMnn (i : ℕ) : Fin 2 → ℚ := ![[0, 1, 3, 7, 15].getD i 0, 15 - [0, 1, 3, 7, 15].getD i 0]

def exMnnP (i : ℕ) : List ℕ := [[0, 1, 2, 3, 4], [1, 0, 2, 3, 4], [2, 1, 0, 3, 4], [3, 2, 1, 0, 4], [4, 3, 2, 1, 0]].getD i []

theorem partitioned_sorted (δ : ℕ → K) (N nb : ℕ) (P : List ℕ) (h1 : P.Perm (List.range N)) (h2 : P.Pairwise fun a b => δ a ≤ δ b) : Partitioned δ N nb P :=
  ⟨h1, fun p q hpq hq _ => List.pairwise_iff_getElem.1 h2 p q (by omega) hq hpq⟩

example : (∀ i < 5, i ∉ prExtremes 5 exMnn → ∀ a < 5, ∀ b < 5, a ≠ b → mnnDist 5 exMnn i a ≠ mnnDist 5 exMnn i b) ∧
    (∀ i < 5, Partitioned (mnnDist 5 exMnn i) 5 2 (exMnnP i)) ∧
    ((cCalcMnn (fun i => ((exMnnP i).drop 1).take 2) 5 exMnn 3).map fun d => (List.range 5).map d) =
      some [⊤, ((16 / 50625 : ℚ) : WithTop ℚ), ((64 / 5625 : ℚ) : WithTop ℚ), ((12544 / 50625 : ℚ) : WithTop ℚ), ⊤] := by
  have h : ((List.range 5).all fun i => (List.range 5).all fun a => (List.range 5).all fun b => decide (i ∈ prExtremes 5 exMnn) || decide (a = b) ||
      !decide (mnnDist 5 exMnn i a = mnnDist 5 exMnn i b)) = true := by decide +kernel
  simp only [List.all_eq_true, List.mem_range, Bool.or_eq_true, decide_eq_true_eq, Bool.not_eq_true', decide_eq_false_iff_not, or_assoc] at h
  refine ⟨fun i hi hiE a ha b hb hab => ?_, fun i hi => partitioned_sorted _ _ _ _ ?_ ?_, by decide +kernel⟩
  · rcases h i hi a ha b hb with h | h | h
    · exact absurd h hiE
    · exact absurd h hab
    · exact h
  · interval_cases i <;> decide +kernel
  · interval_cases i <;> decide +kernel

/-- Six points of a front with integer coordinates. -/
def exMnnTie (i : ℕ) : Fin 3 → ℚ := [![4, 0, 1], ![1, 2, 4], ![2, 2, 1], ![4, 4, 0], ![1, 3, 1], ![2, 1, 2]].getD i ![0, 0, 0]

def exMnnTieP (i : ℕ) : List ℕ := [[0, 5, 2, 3, 4, 1], [1, 5, 4, 2, 0, 3], [2, 5, 4, 1, 0, 3], [3, 2, 0, 4, 5, 1], [4, 2, 5, 1, 3, 0], [5, 2, 1, 4, 0, 3]].getD i []

/-- C123, refuted: point `2` has the only least value and is removed. Points `1` and `4` are equally far from point `5`, and point `4` is entered twice as a
neighbour of point `5`: its value is not the product of the distances to its three nearest neighbours. -/
theorem C123_equal_distances_refuted : (∀ a < 6, ∀ b < 6, ¬ Dominates (exMnnTie a) (exMnnTie b)) ∧ (∀ i < 6, Partitioned (mnnDist 6 exMnnTie i) 6 3 (exMnnTieP i)) ∧
    (∀ b < 6, b ≠ 2 → prVal (mnnOn (mnnDist 6 exMnnTie) 3) (prExtremes 6 exMnnTie) (List.range 6) 2 < prVal (mnnOn (mnnDist 6 exMnnTie) 3) (prExtremes 6 exMnnTie) (List.range 6) b) ∧
    (∀ d, cCalcMnn (fun i => ((exMnnTieP i).drop 1).take 3) 6 exMnnTie 2 = some d → d 5 ≠ mnnOn (mnnDist 6 exMnnTie) 3 (left 6 [2]) 5) ∧
    (cCalcMnn (fun i => ((exMnnTieP i).drop 1).take 3) 6 exMnnTie 2).isSome = true := by
  have h : ((cCalcMnn (fun i => ((exMnnTieP i).drop 1).take 3) 6 exMnnTie 2).map fun d => decide (d 5 = mnnOn (mnnDist 6 exMnnTie) 3 (left 6 [2]) 5)) = some false := by
    decide +kernel
  refine ⟨by decide +kernel, fun i hi => partitioned_sorted _ _ _ _ ?_ ?_, by decide +kernel, fun d hd => ?_, by decide +kernel⟩
  · interval_cases i <;> decide +kernel
  · interval_cases i <;> decide +kernel
  · rw [hd] at h
    simpa using h

/-- C123, refuted: `calc_2nn` fails for two points (the other version and `calc_mnn` return infinity for as many points as objectives). -/
theorem C123_2nn_few_refuted (near : ℕ → List ℕ) (N : ℕ) (x : ℕ → Fin M → K) (n : ℤ) (hN : N ≤ 2) (hM : N ≤ M) :
    cCalc2nn near N x n = none ∧ cCalcMnn near N x n = (some fun _ => ⊤) ∧ calcMnn N x n true = some fun _ => ⊤ := by
  refine ⟨?_, ?_, ?_⟩
  · unfold cCalc2nn cmnnRun; rw [if_pos hN]
  · unfold cCalcMnn; rw [if_pos hM]
  · unfold calcMnn; rw [if_pos hM]

end Props
