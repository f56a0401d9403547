import Verif.Props.Plots

/-!
# Properties of the plots: order, labels and drawing again
-/

set_option linter.unusedSimpArgs false
set_option linter.unusedVariables false

namespace Props

open Model Spec

/-- The comparison is the lexicographic order. -/
theorem heatLE_iff {n : ℕ} (L : List (Fin n)) (a b : Fin n → ℝ) : heatLE L a b ↔ StrictlyBefore L a b ∨ AgreeOn L a b := by
  induction L with
  | nil => simp [heatLE, AgreeOn]
  | cons k L ih =>
    simp only [heatLE, ih]
    constructor
    · rintro (h | ⟨e, h | h⟩)
      · exact Or.inl ⟨0, k, rfl, h, fun q m hq => absurd hq (Nat.not_lt_zero q)⟩
      · obtain ⟨p, m, hp, hlt, heq⟩ := h
        refine Or.inl ⟨p + 1, m, by simpa using hp, hlt, ?_⟩
        intro q m' hq hm
        cases q with
        | zero => simp at hm; rw [← hm]; exact e
        | succ q => exact heq q m' (by omega) (by simpa using hm)
      · right
        intro m hm
        rcases List.mem_cons.1 hm with rfl | hm
        · exact e
        · exact h m hm
    · rintro (⟨p, m, hp, hlt, heq⟩ | h)
      · cases p with
        | zero => left; simp at hp; rw [hp]; exact hlt
        | succ p =>
          right
          refine ⟨heq 0 k (by omega) rfl, Or.inl ⟨p, m, by simpa using hp, hlt, ?_⟩⟩
          intro q m' hq hm
          exact heq (q + 1) m' (by omega) (by simpa using hm)
      · right
        exact ⟨h k (by simp), Or.inr fun m hm => h m (by simp [hm])⟩

theorem heatLE_total {n : ℕ} (L : List (Fin n)) (a b : Fin n → ℝ) : heatLE L a b ∨ heatLE L b a := by
  induction L with
  | nil => simp [heatLE]
  | cons k L ih =>
    simp only [heatLE]
    rcases lt_trichotomy (a k) (b k) with h | h | h
    · left; left; exact h
    · rcases ih with i | i
      · left; right; exact ⟨h, i⟩
      · right; right; exact ⟨h.symm, i⟩
    · right; left; exact h

theorem heatLE_trans {n : ℕ} (L : List (Fin n)) {a b c : Fin n → ℝ} (h1 : heatLE L a b) (h2 : heatLE L b c) : heatLE L a c := by
  induction L with
  | nil => simp [heatLE]
  | cons k L ih =>
    simp only [heatLE] at *
    rcases h1 with h1 | ⟨e1, h1⟩ <;> rcases h2 with h2 | ⟨e2, h2⟩
    · left; linarith
    · left; linarith
    · left; linarith
    · right; exact ⟨e1.trans e2, ih h1 h2⟩

theorem heatLE_agree {n : ℕ} (L : List (Fin n)) {a b : Fin n → ℝ} (h : AgreeOn L a b) : heatLE L b a :=
  (heatLE_iff L b a).2 (Or.inr fun m hm => (h m hm).symm)

/-- A stable sort. -/
theorem plots_stable (r : ℕ → ℕ → Prop) [DecidableRel r] (ht : ∀ a b, r a b ∨ r b a) (htr : ∀ a b c, r a b → r b c → r a c) (l : List ℕ) (hl : l.Pairwise (· < ·)) :
    (l.insertionSort r).Pairwise fun i j => r i j ∧ (r j i → i < j) := by
  have ins : ∀ (a : ℕ) (s : List ℕ), (∀ x ∈ s, a < x) → s.Pairwise (fun i j => r i j ∧ (r j i → i < j)) → (s.orderedInsert r a).Pairwise fun i j => r i j ∧ (r j i → i < j) := by
    intro a s
    induction s with
    | nil => intro _ _; simp
    | cons b s ih =>
      intro ha hs
      simp only [List.orderedInsert]
      split_ifs with h
      · refine List.pairwise_cons.2 ⟨?_, hs⟩
        intro x hx
        refine ⟨?_, fun _ => ha x hx⟩
        rcases List.mem_cons.1 hx with rfl | hx
        · exact h
        · exact htr _ _ _ h ((List.pairwise_cons.1 hs).1 x hx).1
      · refine List.pairwise_cons.2 ⟨?_, ih (fun x hx => ha x (by simp [hx])) (List.pairwise_cons.1 hs).2⟩
        intro x hx
        rw [List.mem_orderedInsert] at hx
        rcases hx with rfl | hx
        · exact ⟨(ht _ _).resolve_left h, fun hc => absurd hc h⟩
        · exact (List.pairwise_cons.1 hs).1 x hx
  induction l with
  | nil => simp
  | cons a l ih =>
    rw [List.insertionSort_cons]
    refine ins a _ ?_ (ih (List.pairwise_cons.1 hl).2)
    intro x hx
    rw [List.mem_insertionSort] at hx
    exact (List.pairwise_cons.1 hl).1 x hx

theorem heatIndices_perm {n : ℕ} (o : HeatOrder n) (F : PlotSet n) : (heatIndices o F).Perm (List.range F.length) := by
  classical
  unfold heatIndices
  split
  · exact List.Perm.refl _
  · exact List.perm_insertionSort _ _

/-- Picking rows by valid numbers. -/
theorem plots_pick {A : Type} (L : List A) (idx : List ℕ) (h : ∀ i ∈ idx, i < L.length) (p : ℕ) : (idx.filterMap (L[·]?))[p]? = (idx[p]?).bind (L[·]?) := by
  induction idx generalizing p with
  | nil => simp
  | cons i idx ih =>
    have hi := h i (by simp)
    rw [List.filterMap_cons, List.getElem?_eq_getElem hi]
    cases p with
    | zero => simp [hi]
    | succ p => simpa using ih (fun j hj => h j (by simp [hj])) p

theorem heatDo_parts {n : ℕ} {Lab : Type} {num : ℕ → Lab} {b : Option (UserBounds n)} {rev : Bool} {o : HeatOrder n} {lab lab' : HeatLabels Lab} {data : PlotData n} {rows labels}
    (h : heatDo num b rev o lab data = some ((rows, labels), lab')) :
    ∃ F N bb, data = [F] ∧ plotNormalize (b.map parseBounds) rev data = some ([N], bb) ∧ N.length = F.2.length ∧ rows = (heatIndices o N).filterMap (N[·]?) ∧
      heatLabels num lab (heatIndices o N) = some (labels, lab') := by
  unfold heatDo at h
  split_ifs at h with h1
  push Not at h1
  obtain ⟨F, rfl⟩ := List.length_eq_one_iff.1 h1
  simp only [Option.bind_eq_bind] at h
  rw [Option.bind_eq_some_iff] at h
  obtain ⟨r, hr, h⟩ := h
  rw [Option.bind_eq_some_iff] at h
  obtain ⟨l, hl, h⟩ := h
  simp only [Option.some.injEq, Prod.mk.injEq] at h
  obtain ⟨⟨rfl, rfl⟩, rfl⟩ := h
  obtain ⟨N, hN, hlen⟩ : ∃ N, r.1 = [N] ∧ N.length = F.2.length := by
    unfold plotNormalize at hr
    rw [if_neg (by simp)] at hr
    generalize stacked [F] = S at hr
    cases hb : Option.map parseBounds b
    on_goal 1 => cases S
    all_goals rw [hb] at hr
    all_goals simp only [Option.bind_eq_bind, Option.bind_some, Option.bind_none, reduceCtorEq] at hr
    all_goals split at hr
    all_goals simp only [Option.some.injEq, reduceCtorEq] at hr
    all_goals rw [← hr]
    all_goals exact ⟨_, rfl, by simp⟩
  refine ⟨F, N, r.2, rfl, ?_, hlen, ?_, ?_⟩
  · rw [hr, ← hN]
  · rw [hN]; rfl
  · rw [hN] at hl
    exact hl

/-- **C148 (rows and labels of a heatmap).** The rows of the picture are the normalised solutions in some order, every solution once, and the label at a row is the label of the solution drawn there: its
number (from 1) for `True`, the given label otherwise, nothing for `None`. Without ordering the order is that of the solutions. With an order the rows ascend lexicographically (in the values that are
drawn) by the objectives in the order of their priority, solutions that agree stay in their order; the priorities are the given list if it names as many objectives as there are, and for one objective this
objective and then the others. -/
theorem C148_heatmap {n : ℕ} {Lab : Type} (num : ℕ → Lab) (b : Option (UserBounds n)) (rev : Bool) (o : HeatOrder n) (lab lab' : HeatLabels Lab) (data : PlotData n) (rows : PlotSet n)
    (labels : Option (List Lab)) (h : heatDo num b rev o lab data = some ((rows, labels), lab')) :
    ∃ F N bb σ, data = [F] ∧ plotNormalize (b.map parseBounds) rev data = some ([N], bb) ∧ List.Perm σ (List.range F.2.length) ∧ rows.length = F.2.length ∧
      (∀ (p i : ℕ), σ[p]? = some i → rows[p]? = N[i]? ∧
        (lab = .none → labels = none) ∧ (lab = .bool true → ∃ L, labels = some L ∧ L[p]? = some (num (i + 1))) ∧ (∀ G, lab = .given G → ∃ L, labels = some L ∧ L[p]? = G[i]?)) ∧
      (o = .off → σ = List.range F.2.length) ∧
      ∀ K, (o = .list K ∧ K.length = n ∨ (∃ k, o = .one k ∧ K = k :: (List.finRange n).filter (· ≠ k))) →
        ∀ (p q i j : ℕ) x y, p < q → σ[p]? = some i → σ[q]? = some j → rows[p]? = some x → rows[q]? = some y → StrictlyBefore K x y ∨ (AgreeOn K x y ∧ i < j) := by
  obtain ⟨F, N, bb, hd, hn, hlen, hrows, hlab⟩ := heatDo_parts h
  have hperm := heatIndices_perm o N
  have hmem : ∀ i ∈ heatIndices o N, i < N.length := fun i hi => by simpa using hperm.mem_iff.1 hi
  have hlen2 : (heatIndices o N).length = N.length := by simpa using hperm.length_eq
  have hrow : ∀ (p i : ℕ), (heatIndices o N)[p]? = some i → rows[p]? = N[i]? := by
    intro p i hp
    rw [hrows, plots_pick N _ hmem p, hp]; rfl
  refine ⟨F, N, bb, heatIndices o N, hd, hn, hlen ▸ hperm, ?_, ?_, ?_, ?_⟩
  · have : rows.length = (heatIndices o N).length := by
      rw [hrows]
      have : ∀ idx : List ℕ, (∀ i ∈ idx, i < N.length) → (idx.filterMap (N[·]?)).length = idx.length := by
        intro idx
        induction idx with
        | nil => simp
        | cons i idx ih =>
          intro hi
          rw [List.filterMap_cons, List.getElem?_eq_getElem (hi i (by simp))]
          simp [ih fun j hj => hi j (by simp [hj])]
      exact this _ hmem
    omega
  · intro p i hp
    have hiN : i < N.length := hmem i (List.mem_of_getElem? hp)
    refine ⟨hrow p i hp, ?_, ?_, ?_⟩
    · rintro rfl
      simp [heatLabels] at hlab
      exact hlab.1.symm
    · rintro rfl
      simp only [heatLabels, Option.some.injEq, Prod.mk.injEq] at hlab
      refine ⟨_, hlab.1.symm, ?_⟩
      rw [plots_pick _ _ (by simpa [hlen2] using hmem), hp]
      simp [hlen2, hiN]
    · rintro G rfl
      simp only [heatLabels] at hlab
      split_ifs at hlab with hG
      simp only [Option.some.injEq, Prod.mk.injEq] at hlab
      refine ⟨_, hlab.1.symm, ?_⟩
      rw [plots_pick _ _ (by simpa [hG, hlen2] using hmem), hp]
      rfl
  · rintro rfl
    rw [← hlen]; rfl
  · intro K hK p q i j x y hpq hp hq hx hy
    classical
    have hkeys : heatKeys o = some K := by
      rcases hK with ⟨rfl, hl⟩ | ⟨k, rfl, rfl⟩
      · simp [heatKeys, hl]
      · rfl
    have hs : heatIndices o N = (List.range N.length).insertionSort fun i j => heatLE K (N.getD i fun _ => 0) (N.getD j fun _ => 0) := by
      unfold heatIndices; rw [hkeys]
    have hst := plots_stable (fun i j => heatLE K (N.getD i fun _ => 0) (N.getD j fun _ => 0)) (fun _ _ => heatLE_total _ _ _) (fun _ _ _ h1 h2 => heatLE_trans _ h1 h2)
      (List.range N.length) List.pairwise_lt_range
    rw [← hs] at hst
    obtain ⟨hp', ep⟩ := List.getElem?_eq_some_iff.1 hp
    obtain ⟨hq', eq⟩ := List.getElem?_eq_some_iff.1 hq
    have := List.pairwise_iff_getElem.1 hst p q hp' hq' hpq
    rw [ep, eq] at this
    rw [hrow p i hp] at hx
    rw [hrow q j hq] at hy
    rw [List.getD_eq_getElem?_getD, List.getD_eq_getElem?_getD, hx, hy] at this
    simp only [Option.getD_some] at this
    rcases (heatLE_iff K x y).1 this.1 with h1 | h1
    · exact Or.inl h1
    · exact Or.inr ⟨h1, this.2 (heatLE_agree K h1)⟩

/-- Drawing succeeds for one set with bounds. -/
theorem heatDo_given {n : ℕ} {Lab : Type} (num : ℕ → Lab) (rev : Bool) (o : HeatOrder n) (G : List Lab) (F : PlotSet n) (hG : G.length = F.length) :
    heatDo num (some (.flat 0 1)) rev o (.given G) [(false, F)] =
      let N := F.map fun x j => if rev then 1 - x j else x j
      some (((heatIndices o N).filterMap (N[·]?), some ((heatIndices o N).filterMap (G[·]?))), .given ((heatIndices o N).filterMap (G[·]?))) := by
  have hn := plots_normalize_given (n := n) (parseBounds (.flat 0 1)) rev [(false, F)] (by simp) (by intro j; simp [parseBounds])
  have hN : ([(false, F)].map fun F : Bool × PlotSet n => F.2.map fun x j =>
      if rev then 1 - axisHeight F.1 ((parseBounds (.flat 0 1) : AxisBounds n).1 j) ((parseBounds (.flat 0 1) : AxisBounds n).2 j) (x j) else axisHeight F.1 ((parseBounds (.flat 0 1) : AxisBounds n).1 j) ((parseBounds (.flat 0 1) : AxisBounds n).2 j) (x j))
      = [F.map fun x j => if rev then 1 - x j else x j] := by
    simp [axisHeight, parseBounds]
  rw [hN] at hn
  have hl : (heatIndices o (F.map fun x j => if rev then 1 - x j else x j)).length = F.length := by
    simpa using (heatIndices_perm o (F.map fun x j => if rev then 1 - x j else x j)).length_eq
  simp only [heatDo, List.length_singleton, ne_eq, not_true_eq_false, if_false, Option.map_some, hn, Option.bind_eq_bind, Option.bind_some, List.headD_cons, heatLabels, hl, hG, if_true]

/-- A heatmap with two solutions, ordered by the second objective, meets the hypotheses. -/
example : ∃ r, heatDo id (some (.flat 0 1)) true (.one 1) (.given [7, 8]) [(false, ([![1, 0], ![0, 1]] : PlotSet 2))] = some r := ⟨_, heatDo_given id true (.one 1) [7, 8] _ rfl⟩

/-- **C148 (the direction of the order).** With bounds and `reverse=True`, the default, the values of an objective that orders the heatmap descend from top to bottom; with `reverse=False` they ascend. -/
theorem C148_direction {n : ℕ} {Lab : Type} (num : ℕ → Lab) (rev : Bool) (k : Fin n) (G : List Lab) (F : PlotSet n) (hG : G.length = F.length) (rows : PlotSet n)
    (labels : Option (List Lab)) (lab' : HeatLabels Lab) (h : heatDo num (some (.flat 0 1)) rev (.one k) (.given G) [(false, F)] = some ((rows, labels), lab')) :
    ∃ σ : List ℕ, List.Perm σ (List.range F.length) ∧ (∀ L, labels = some L → ∀ (p i : ℕ), σ[p]? = some i → L[p]? = G[i]?) ∧
      ∀ (p q i j : ℕ) x y, p < q → σ[p]? = some i → σ[q]? = some j → F[i]? = some x → F[j]? = some y → if rev then y k ≤ x k else x k ≤ y k := by
  obtain ⟨F', N, bb, σ, hd, hn, hperm, _, hrow, _, hsort⟩ := C148_heatmap num _ rev _ _ _ _ _ _ h
  simp only [List.cons.injEq, and_true] at hd
  subst hd
  have e := heatDo_given num rev (.one k) G F hG
  have hN : N = F.map fun x j => if rev then 1 - x j else x j := by
    have hn2 := plots_normalize_given (n := n) (parseBounds (.flat 0 1)) rev [(false, F)] (by simp) (by intro j; simp [parseBounds])
    rw [Option.map_some, hn2] at hn
    simp only [Option.some.injEq, Prod.mk.injEq, List.map_cons, List.map_nil, List.cons.injEq, and_true] at hn
    rw [← hn.1]
    simp [axisHeight, parseBounds]
  refine ⟨σ, hperm, ?_, ?_⟩
  · intro L hL p i hp
    obtain ⟨L', hL', e'⟩ := (hrow p i hp).2.2.2 G rfl
    rw [hL] at hL'
    simp only [Option.some.injEq] at hL'
    rw [hL']; exact e'
  · intro p q i j x y hpq hp hq hx hy
    have h1 := (hrow p i hp).1
    have h2 := (hrow q j hq).1
    rw [hN, List.getElem?_map, hx] at h1
    rw [hN, List.getElem?_map, hy] at h2
    have := hsort _ (Or.inr ⟨k, rfl, rfl⟩) p q i j _ _ hpq hp hq h1 h2
    have hk : (fun j => if rev then 1 - x j else x j) k ≤ (fun j => if rev then 1 - y j else y j) k := by
      rcases this with ⟨p', m, hm, hlt, heq⟩ | ⟨ha, _⟩
      · cases p' with
        | zero => simp at hm; rw [hm]; exact hlt.le
        | succ p' => exact (heq 0 k (by omega) rfl).le
      · exact (ha k (by simp)).le
    cases rev
    · simpa using hk
    · simp only [if_true] at hk ⊢; linarith

/-- **C148 (refuted).** `solution_labels=False`, documented as "no labels", raises. -/
theorem C148_false_refuted : ∀ {n : ℕ} {Lab : Type} (num : ℕ → Lab) (b : Option (UserBounds n)) (rev : Bool) (o : HeatOrder n) (data : PlotData n), heatDo num b rev o (.bool false) data = none := by
  intro n Lab num b rev o data
  cases h : heatDo num b rev o (.bool false) data with
  | none => rfl
  | some r =>
    obtain ⟨_, _, _, _, _, _, _, hl⟩ := heatDo_parts (rows := r.1.1) (labels := r.1.2) (lab' := r.2) h
    simp [heatLabels] at hl

theorem plots_two_rows (x y : Fin 2 → ℝ) (o : HeatOrder 2) (K : List (Fin 2)) (ho : heatKeys o = some K) (h : ¬ heatLE K x y) : heatIndices o [x, y] = [1, 0] := by
  classical
  unfold heatIndices
  rw [ho]
  show (List.insertionSort _ [0, 1]) = [1, 0]
  rw [List.insertionSort_cons, List.insertionSort_cons, List.insertionSort_nil, List.orderedInsert_nil, List.orderedInsert]
  rw [if_neg (by simpa using h)]
  rfl

/-- **C148 (refuted).** Drawing an ordered heatmap a second time labels the rows wrongly: the labels were reordered by the first drawing and are reordered again. -/
theorem C148_redraw_refuted :
    ¬ ∀ (n : ℕ) (F : PlotSet n) (G : List ℕ) (k : Fin n) r r' l l', heatDo id (some (.flat 0 1)) false (.one k) (.given G) [(false, F)] = some (r, l) →
      heatDo id (some (.flat 0 1)) false (.one k) l [(false, F)] = some (r', l') → r' = r := by
  intro H
  have hi : heatIndices (.one 0) ([fun _ => 1, fun _ => 0] : PlotSet 2) = [1, 0] :=
    plots_two_rows _ _ _ _ rfl (by norm_num [heatLE])
  have h1 := heatDo_given (id : ℕ → ℕ) false (.one 0) [7, 8] ([fun _ => 1, fun _ => 0] : PlotSet 2) rfl
  have h2 := heatDo_given (id : ℕ → ℕ) false (.one 0) [8, 7] ([fun _ => 1, fun _ => 0] : PlotSet 2) rfl
  simp only [List.map_cons, List.map_nil, Bool.false_eq_true, if_false, hi] at h1 h2
  have := H 2 _ [7, 8] 0 _ _ _ _ h1 h2
  simp only [Prod.mk.injEq, Option.some.injEq] at this
  have := congrArg List.head? this.2
  simp at this

/-- **C148 (refuted).** A list that names fewer objectives than there are is ignored: ordering by objective 1 orders by objective 0. -/
theorem C148_short_list_refuted :
    ¬ ∀ (F : PlotSet 2) (G : List ℕ) (K : List (Fin 2)) rows labels l, K ≠ [] → heatDo id (some (.flat 0 1)) false (.list K) (.given G) [(false, F)] = some ((rows, labels), l) →
      ∀ x y, rows = [x, y] → StrictlyBefore K x y ∨ AgreeOn K x y := by
  intro H
  have hi : heatIndices (.list [1]) ([![1, 0], ![0, 1]] : PlotSet 2) = [1, 0] := by
    refine plots_two_rows _ _ _ (List.finRange 2) (by simp [heatKeys]) ?_
    have : (List.finRange 2) = [0, 1] := rfl
    rw [this]
    norm_num [heatLE]
  have h1 := heatDo_given (id : ℕ → ℕ) false (.list [1]) [7, 8] ([![1, 0], ![0, 1]] : PlotSet 2) rfl
  have hm : (([![1, 0], ![0, 1]] : PlotSet 2).map fun x j => if false = true then 1 - x j else x j) = [![1, 0], ![0, 1]] := by simp
  simp only [hm, hi] at h1
  have := H _ _ _ _ _ _ (by simp) h1 ![0, 1] ![1, 0] (by simp)
  have hle := (heatLE_iff [1] (![0, 1] : Fin 2 → ℝ) ![1, 0]).2 this
  norm_num [heatLE] at hle

/-- **C148 (sets of different dimensions).** Drawing raises exactly if two sets with different numbers of objectives were added. -/
theorem C148_dimensions (l : List ℕ) : plotDim l = none ↔ ∃ a ∈ l, ∃ b ∈ l, a ≠ b := by
  cases l with
  | nil => simp [plotDim]
  | cons d l =>
    simp only [plotDim]
    split_ifs with h
    · simp only [reduceCtorEq, false_iff]
      rintro ⟨a, ha, b, hb, hab⟩
      have hall : ∀ x ∈ d :: l, x = d := by
        intro x hx
        rcases List.mem_cons.1 hx with rfl | hx
        · rfl
        · simpa using List.all_eq_true.1 h x hx
      exact hab ((hall a ha).trans (hall b hb).symm)
    · simp only [true_iff]
      rw [List.all_eq_true] at h
      push Not at h
      obtain ⟨x, hx, hne⟩ := h
      exact ⟨x, by simp [hx], d, by simp, by simpa using hne⟩

example : plotDim [2, 3] = none := by decide

/-- **C148 (drawing method of a scatter plot).** The first drawing uses the method the user asked for: `plot_type` (with `line` for `plot` and `surface` for `plot_trisurf`), else `mode`, else `scatter`. -/
theorem C148_scatter (o : ScatterOpts) :
    (∀ m, o.plotType = none → o.mode = some m → (scatterDo o).1 = m) ∧ (o.plotType = none → o.mode = none → (scatterDo o).1 = "scatter") ∧
    (o.plotType = some "line" → (scatterDo o).1 = "plot") ∧ (o.plotType = some "surface" → (scatterDo o).1 = "plot_trisurf") ∧
    ∀ p, p ≠ "line" → p ≠ "surface" → o.plotType = some p → (scatterDo o).1 = p := by
  refine ⟨?_, ?_, ?_, ?_, ?_⟩
  · intro m h1 h2; simp [scatterDo, h1, h2]
  · intro h1 h2; simp [scatterDo, h1, h2]
  · intro h; simp [scatterDo, h]
  · intro h; simp [scatterDo, h]
  · intro p h1 h2 h; simp [scatterDo, h, h1, h2]

/-- **C148 (refuted).** Drawing a scatter plot again forgets the method: a set added with `plot_type="line"` is drawn as points. -/
theorem C148_scatter_refuted : ¬ ∀ o : ScatterOpts, (scatterDo (scatterDo o).2).1 = (scatterDo o).1 := by
  intro H
  have := H ⟨none, some "line"⟩
  simp [scatterDo] at this

end Props
