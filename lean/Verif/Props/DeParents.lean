import Verif.Props.DESelection

/-!
# C40: the parents of the DE algorithm
-/

set_option linter.unusedSimpArgs false

namespace Props
open Model

theorem ffAssign_length (draw : ℕ → ℕ) : ∀ (rem : List ℕ) (k : ℕ) (col : List ℕ), (ffAssign draw k rem col).length = col.length
  | [], _, _ => rfl
  | r :: rem, k, col => by rw [ffAssign, ffAssign_length draw rem]; simp

theorem ffAssign_lt (N : ℕ) (draw : ℕ → ℕ) (hd : ∀ k, draw k < N) : ∀ (rem : List ℕ) (k : ℕ) (col : List ℕ),
    (∀ c ∈ col, c < N) → ∀ c ∈ ffAssign draw k rem col, c < N
  | [], _, _, h => h
  | r :: rem, k, col, h => by
    rw [ffAssign]
    refine ffAssign_lt N draw hd rem _ _ fun c hc => ?_
    rcases List.mem_or_eq_of_mem_set hc with h1 | rfl
    · exact h c h1
    · exact hd k

theorem ffLoop_length (draws : ℕ → ℕ → ℕ) (forb : List (List ℕ)) : ∀ (fuel t : ℕ) (rem col : List ℕ),
    (ffLoop draws forb fuel t rem col).length = col.length
  | 0, _, _, _ => rfl
  | fuel + 1, t, rem, col => by
    rw [ffLoop]
    split
    · exact ffAssign_length _ _ _ _
    · rw [ffLoop_length draws forb fuel, ffAssign_length]

theorem ffLoop_lt (N : ℕ) (draws : ℕ → ℕ → ℕ) (hd : ∀ t k, draws t k < N) (forb : List (List ℕ)) : ∀ (fuel t : ℕ) (rem col : List ℕ),
    (∀ c ∈ col, c < N) → ∀ c ∈ ffLoop draws forb fuel t rem col, c < N
  | 0, _, _, _, h => h
  | fuel + 1, t, rem, col, h => by
    rw [ffLoop]
    split
    · exact ffAssign_lt N _ (hd t) _ _ _ h
    · exact ffLoop_lt N draws hd forb fuel _ _ _ (ffAssign_lt N _ (hd t) _ _ _ h)

theorem fastFill_shape (N : ℕ) (hN : 0 < N) (draws : ℕ → ℕ → ℕ → ℕ) (hd : ∀ j t k, draws j t k < N) (xp : List (List ℕ)) :
    ∀ (cols j : ℕ) (rows : List (List ℕ)), (∀ r ∈ rows, r.length = j ∧ ∀ c ∈ r, c < N) →
      (fastFill draws xp cols j rows).length = rows.length ∧
        ∀ r ∈ fastFill draws xp cols j rows, r.length = j + cols ∧ ∀ c ∈ r, c < N
  | 0, j, rows, h => ⟨rfl, fun r hr => by simpa using h r hr⟩
  | cols + 1, j, rows, h => by
    rw [fastFill]
    set col := ffLoop (draws j) (List.zipWith (· ++ ·) rows xp) 10 0 (List.range rows.length) (rows.map fun _ => 0) with hcol
    have hl : col.length = rows.length := by rw [hcol, ffLoop_length]; simp
    have hlt : ∀ c ∈ col, c < N := by
      rw [hcol]
      refine ffLoop_lt N _ (hd j) _ _ _ _ _ fun c hc => ?_
      simp only [List.mem_map] at hc
      obtain ⟨_, _, rfl⟩ := hc
      exact hN
    obtain ⟨h1, h2⟩ := fastFill_shape N hN draws hd xp cols (j + 1) (List.zipWith (fun r c => r ++ [c]) rows col) (by
      intro r hr
      obtain ⟨i, hi, rfl⟩ := List.getElem_of_mem hr
      simp only [List.length_zipWith] at hi
      rw [List.getElem_zipWith]
      obtain ⟨a1, a2⟩ := h rows[i] (List.getElem_mem _)
      refine ⟨by simp [a1], fun c hc => ?_⟩
      rcases List.mem_append.1 hc with hc | hc
      · exact a2 c hc
      · rw [List.mem_singleton.1 hc]; exact hlt _ (List.getElem_mem _))
    refine ⟨by rw [h1]; simp [hl], fun r hr => ?_⟩
    obtain ⟨b1, b2⟩ := h2 r hr
    exact ⟨by omega, b2⟩

/-- C40, DE algorithm with selection `rand`: whatever is drawn, every target gets `nParents` members of the population as parents. -/
theorem C40_de_rand_shape (N : ℕ) (hN : 0 < N) (nParents : ℕ) (draws : ℕ → ℕ → ℕ → ℕ) (hd : ∀ j t k, draws j t k < N) (targets : List ℕ) :
    (deRandParents nParents draws targets).length = targets.length ∧
      ∀ r ∈ deRandParents nParents draws targets, r.length = nParents ∧ ∀ c ∈ r, c < N := by
  obtain ⟨h1, h2⟩ := fastFill_shape N hN draws hd (targets.map fun t => [t]) nParents 0 (targets.map fun _ => []) (by
    intro r hr
    simp only [List.mem_map] at hr
    obtain ⟨_, _, rfl⟩ := hr
    exact ⟨rfl, by simp⟩)
  exact ⟨by rw [deRandParents, h1]; simp, fun r hr => by simpa using h2 r hr⟩

example : (0 : ℕ) < 5 ∧ ∀ j t k : ℕ, (fun j t k => (j + 2 * t + k) % 5 : ℕ → ℕ → ℕ → ℕ) j t k < 5 :=
  ⟨by omega, fun _ _ _ => Nat.mod_lt _ (by omega)⟩

/-! ### No repetition in the first attempts -/

theorem ffAssign_range_aux (draw : ℕ → ℕ) : ∀ (n a : ℕ) (col : List ℕ), a + n = col.length →
    ffAssign draw a (List.range' a n) col = col.take a ++ (List.range' a n).map draw
  | 0, a, col, h => by
    simp only [List.range'_zero, ffAssign, List.map_nil, List.append_nil]
    rw [List.take_of_length_le (by omega)]
  | n + 1, a, col, h => by
    rw [List.range'_succ, ffAssign, ffAssign_range_aux draw n (a + 1) (col.set a (draw a)) (by simp; omega)]
    have : (col.set a (draw a)).take (a + 1) = col.take a ++ [draw a] := by
      rw [List.take_add_one, List.take_set_of_le (by omega)]
      simp [List.getElem?_set, show a < col.length by omega]
    rw [this, List.map_cons, List.append_assoc]
    rfl

theorem ffAssign_range (draw : ℕ → ℕ) (col : List ℕ) : ffAssign draw 0 (List.range col.length) col = (List.range col.length).map draw := by
  have := ffAssign_range_aux draw col.length 0 col (by omega)
  simpa [List.range_eq_range'] using this

/-- The rows with the first draws of the columns from `j` on. -/
theorem fastFill_first (draws : ℕ → ℕ → ℕ → ℕ) (xp : List (List ℕ)) : ∀ (cols j : ℕ) (rows : List (List ℕ)), rows.length = xp.length →
    (∀ (i : ℕ) (hi : i < rows.length) (hx : i < xp.length), ∀ c < cols,
      draws (j + c) 0 i ∉ rows[i] ++ (List.range c).map (fun d => draws (j + d) 0 i) ++ xp[i]) →
    fastFill draws xp cols j rows = (List.range rows.length).zipWith (fun i r => r ++ (List.range cols).map fun c => draws (j + c) 0 i) rows
  | 0, j, rows, hl, _ => by
    refine List.ext_getElem (by simp [fastFill]) fun i h1 h2 => ?_
    simp [fastFill]
  | cols + 1, j, rows, hl, h => by
    rw [fastFill]
    have hcol : ffLoop (draws j) (List.zipWith (· ++ ·) rows xp) 10 0 (List.range rows.length) (rows.map fun _ => 0) = (List.range rows.length).map (draws j 0) := by
      have e0 : ffAssign (draws j 0) 0 (List.range rows.length) (rows.map fun _ => 0) = (List.range rows.length).map (draws j 0) := by
        have := ffAssign_range (draws j 0) (rows.map fun _ => 0)
        simpa using this
      rw [C40_fast_fill_first, e0]
      rw [e0]
      unfold ffRem
      rw [List.filter_eq_nil_iff]
      intro p hp
      simp only [List.length_range, List.mem_range] at hp
      have := h p hp (by omega) 0 (by omega)
      simp only [Nat.add_zero, List.range_zero, List.map_nil, List.append_nil] at this
      simp [List.getD_eq_getElem?_getD, hp, show p < xp.length by omega, List.getElem?_zipWith]
      simpa using this
    rw [hcol, fastFill_first draws xp cols (j + 1)]
    · refine List.ext_getElem (by simp) fun i h1 h2 => ?_
      simp only [List.length_zipWith, List.length_range, List.length_map] at h1
      simp only [List.getElem_zipWith, List.getElem_range, List.getElem_map, List.append_assoc, List.singleton_append]
      have e : (List.range (cols + 1)).map (fun c => draws (j + c) 0 i) = draws j 0 i :: (List.range cols).map fun c => draws (j + 1 + c) 0 i := by
        rw [List.range_succ_eq_map, List.map_cons, List.map_map]
        congr 1
        refine List.map_congr_left fun c _ => ?_
        simp [Function.comp, Nat.add_assoc, Nat.add_comm 1]
      exact congrArg (rows[i]'(by omega) ++ ·) e.symm
    · simp [hl]
    · intro i hi hx c hc
      simp only [List.length_zipWith, List.length_range, List.length_map] at hi
      have := h i (by omega) hx (c + 1) (by omega)
      rw [List.range_succ_eq_map, List.map_cons, List.map_map] at this
      simp only [List.getElem_zipWith, List.getElem_map, List.getElem_range]
      rw [show j + 1 + c = j + (c + 1) by omega]
      intro hm
      apply this
      simp only [List.append_assoc, List.mem_append, List.mem_cons, List.mem_singleton, List.mem_map, Function.comp, Nat.add_zero, List.not_mem_nil, or_false] at hm ⊢
      rcases hm with h1 | h1 | ⟨d, d1, d2⟩ | h1
      · exact .inl h1
      · exact .inr (.inl (.inl h1))
      · exact .inr (.inl (.inr ⟨d, d1, by rw [show j + d.succ = j + 1 + d by omega]; exact d2⟩))
      · exact .inr (.inr h1)

/-- C40, DE algorithm with selection `rand`, the part that holds: if for every target the first draws of the columns differ from
each other and from the target, the parents of the target are these draws, and so all of them and the target differ. -/
theorem C40_de_rand_partial (nParents : ℕ) (draws : ℕ → ℕ → ℕ → ℕ) (targets : List ℕ)
    (h : ∀ (i : ℕ) (hi : i < targets.length), (targets[i] :: (List.range nParents).map fun j => draws j 0 i).Nodup) :
    (deRandParents nParents draws targets).length = targets.length ∧
      ∀ (i : ℕ) (hi : i < targets.length), (deRandParents nParents draws targets)[i]? = some ((List.range nParents).map fun j => draws j 0 i) ∧
        (targets[i] :: (List.range nParents).map fun j => draws j 0 i).Nodup := by
  have key := fastFill_first draws (targets.map fun t => [t]) nParents 0 (targets.map fun _ => []) (by simp) (by
    intro i hi hx c hc
    simp only [List.length_map] at hi
    obtain ⟨h1, h2⟩ := List.nodup_cons.1 (h i hi)
    simp only [List.getElem_map, List.nil_append, List.mem_append, List.mem_singleton, Nat.zero_add, not_or]
    constructor
    · intro hm
      obtain ⟨d, d1, d2⟩ := List.mem_map.1 hm
      have := List.mem_range.1 d1
      have := List.inj_on_of_nodup_map h2 (List.mem_range.2 (show d < nParents by omega)) (List.mem_range.2 hc) d2
      omega
    · intro e
      exact h1 (List.mem_map.2 ⟨c, List.mem_range.2 hc, e⟩))
  unfold deRandParents
  rw [key]
  refine ⟨by simp, fun i hi => ⟨?_, h i hi⟩⟩
  simp [List.getElem?_zipWith, hi]

example : let draws : ℕ → ℕ → ℕ → ℕ := fun j _ i => [[1, 2, 3], [2, 3, 4], [3, 4, 0]].getD i [] |>.getD j 0
    (∀ (i : ℕ) (hi : i < [0, 1, 2].length), ([0, 1, 2][i] :: (List.range 3).map fun j => draws j 0 i).Nodup) ∧
    deRandParents 3 draws [0, 1, 2] = [[1, 2, 3], [2, 3, 4], [3, 4, 0]] := by
  refine ⟨?_, by decide⟩
  intro i hi
  simp only [List.length_cons, List.length_nil] at hi
  match i, hi with
  | 0, _ => simp [List.range_succ]
  | 1, _ => simp [List.range_succ]
  | 2, _ => simp [List.range_succ]

/-- C40 for `best` and `target-to-best` of the DE algorithm: the fixed columns come first, the rest is filled as for `rand`. -/
theorem C40_de_best_target (nParents : ℕ) (draws : ℕ → ℕ → ℕ → ℕ) (best targets : List ℕ) (hl : best.length = targets.length) (i : ℕ)
    (hi : i < targets.length) : ∃ r s, (deRandParents (nParents - 1) draws targets)[i]? = some r ∧ (deRandParents (nParents - 2) draws targets)[i]? = some s ∧
      (deBestParents nParents draws best targets)[i]? = some (best[i] :: r) ∧
      (deTargetParents nParents draws best targets)[i]? = some (targets[i] :: best[i] :: s) := by
  have hlen : ∀ (cols j : ℕ) (xp rows : List (List ℕ)), (fastFill draws xp cols j rows).length = rows.length := by
    intro cols
    induction cols with
    | zero => intro j xp rows; rfl
    | succ cols ih => intro j xp rows; rw [fastFill]; rw [ih]; simp [ffLoop_length]
  have h1 : i < (deRandParents (nParents - 1) draws targets).length := by unfold deRandParents; rw [hlen]; simpa using hi
  have h2 : i < (deRandParents (nParents - 2) draws targets).length := by unfold deRandParents; rw [hlen]; simpa using hi
  refine ⟨_, _, List.getElem?_eq_getElem h1, List.getElem?_eq_getElem h2, ?_, ?_⟩
  · unfold deBestParents
    rw [List.getElem?_zipWith, List.getElem?_eq_getElem (by omega), ← deRandParents, List.getElem?_eq_getElem h1]
  · unfold deTargetParents
    rw [List.getElem?_zipWith, List.getElem?_zipWith, List.getElem?_eq_getElem hi, List.getElem?_eq_getElem (by omega), ← deRandParents,
      List.getElem?_eq_getElem h2]

example : deTargetParents 3 (fun _ _ i => [3, 4].getD i 0) [2, 2] [0, 1] = [[0, 2, 3], [1, 2, 4]] := by decide

/-- C40 is false for `target-to-best`: the best individual can be drawn again in its own row, or be the target itself. -/
theorem C40_de_target_duplicate : ∃ (draws : ℕ → ℕ → ℕ → ℕ) (best targets : List ℕ), (∀ j t k, draws j t k < 5) ∧
    deTargetParents 3 draws best targets = [[0, 2, 2], [1, 1, 3]] := by
  refine ⟨fun _ _ k => if k = 0 then 2 else 3, [2, 1], [0, 1], ?_, by decide⟩
  intro j t k
  dsimp only
  split_ifs <;> omega

end Props
