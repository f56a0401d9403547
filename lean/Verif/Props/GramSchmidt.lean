import Verif.Spec.DirQuality
import Verif.Model.DirQuality
import Verif.Props.Distances
import Mathlib.LinearAlgebra.Dimension.OrzechProperty
import Mathlib.LinearAlgebra.Dimension.Constructions
import Mathlib.LinearAlgebra.FiniteDimensional.Basic
import Mathlib.Tactic.FinCases

/-!
C153, `gram_schmidt` and `project_onto_one_dim_less`.
-/

set_option linter.unusedSimpArgs false
set_option linter.unusedVariables false

namespace Props
open Model Spec

variable {d : ℕ}

/-- The rows of a list as a set. -/
abbrev rowSet (Y : List (Fin d → ℝ)) : Set (Fin d → ℝ) := {y | y ∈ Y}

theorem rowLen_zero_iff (y : Fin d → ℝ) : rowLen y = 0 ↔ y = 0 := by
  constructor
  · intro h
    by_contra hy
    exact absurd h (rowLen_pos y hy).ne'
  · rintro rfl
    simp [rowLen]

theorem rowLen_sq_dot (y : Fin d → ℝ) : rowLen y ^ (2 : ℕ) = ∑ k, y k * y k := by
  rw [rowLen_sq]
  exact Finset.sum_congr rfl fun k _ => by ring

theorem listsum_dot (c : (Fin d → ℝ) → ℝ) (y' : Fin d → ℝ) : ∀ Y : List (Fin d → ℝ),
    ∑ k, (Y.map fun y => c y * y k).sum * y' k = (Y.map fun y => c y * ∑ k, y k * y' k).sum
  | [] => by simp
  | y :: Y => by
    simp only [List.map_cons, List.sum_cons, add_mul, Finset.sum_add_distrib, listsum_dot c y' Y, Finset.mul_sum, mul_assoc]

theorem orth_pick (c : (Fin d → ℝ) → ℝ) (y' : Fin d → ℝ) : ∀ Y : List (Fin d → ℝ), Y.Pairwise (fun y y' => ∑ k, y k * y' k = 0) → y' ∈ Y →
    (Y.map fun y => c y * ∑ k, y k * y' k).sum = c y' * ∑ k, y' k * y' k
  | [], _, h => by simp at h
  | y :: Y, hp, h => by
    rw [List.pairwise_cons] at hp
    rw [List.map_cons, List.sum_cons]
    rcases List.mem_cons.1 h with rfl | h
    · have : (Y.map fun y => c y * ∑ k, y k * y' k).sum = 0 := by
        apply List.sum_eq_zero
        intro v hv
        obtain ⟨y, hy, rfl⟩ := List.mem_map.1 hv
        have := hp.1 y hy
        rw [show (∑ k, y k * y' k) = ∑ k, y' k * y k from Finset.sum_congr rfl fun k _ => mul_comm _ _, this, mul_zero]
      rw [this, add_zero]
    · rw [hp.1 y' h, mul_zero, zero_add]
      exact orth_pick c y' Y hp.2 h

theorem listsum_apply (c : (Fin d → ℝ) → ℝ) : ∀ Y : List (Fin d → ℝ),
    (fun k => (Y.map fun y => c y * y k).sum) = (Y.map fun y => c y • y).sum
  | [] => by funext k; simp
  | y :: Y => by
    rw [List.map_cons, List.sum_cons, ← listsum_apply c Y]
    funext k
    simp

/-- The row appended by a step is the old row minus something in the span of the previous ones, and orthogonal to them. -/
theorem gsStep_spec {Y Y' : List (Fin d → ℝ)} {x : Fin d → ℝ} (h : gsStep Y x = some Y') (hp : Y.Pairwise fun y y' => ∑ k, y k * y' k = 0) :
    (∀ y ∈ Y, y ≠ 0) ∧ ∃ p ∈ Submodule.span ℝ (rowSet Y), Y' = Y ++ [x - p] ∧ Y'.Pairwise fun y y' => ∑ k, y k * y' k = 0 := by
  classical
  unfold gsStep at h
  split_ifs at h with h0
  have hne : ∀ y ∈ Y, y ≠ 0 := fun y hy hz => h0 (List.mem_map.2 ⟨y, hy, (rowLen_zero_iff y).2 hz⟩)
  refine ⟨hne, ?_⟩
  set c : (Fin d → ℝ) → ℝ := fun y => (∑ m, x m * y m) / rowLen y ^ (2 : ℕ) with hc
  set p : Fin d → ℝ := fun k => (Y.map fun y => c y * y k).sum with hpdef
  have hpl : p = (Y.map fun y => c y • y).sum := by
    rw [hpdef]
    exact listsum_apply _ _
  have hmem : p ∈ Submodule.span ℝ (rowSet Y) := by
    rw [hpl]
    apply list_sum_mem
    intro v hv
    obtain ⟨y, hy', rfl⟩ := List.mem_map.1 hv
    exact Submodule.smul_mem _ _ (Submodule.subset_span hy')
  refine ⟨p, hmem, ?_, ?_⟩
  · rw [← Option.some.inj h]
    rfl
  · rw [← Option.some.inj h, List.pairwise_append]
    refine ⟨hp, by simp, ?_⟩
    intro y hy z hz
    rw [List.mem_singleton] at hz
    subst hz
    have e : ∑ k, y k * (x k - (Y.map fun y => c y * y k).sum) = ∑ k, x k * y k - ∑ k, (Y.map fun y => c y * y k).sum * y k := by
      rw [← Finset.sum_sub_distrib]
      exact Finset.sum_congr rfl fun k _ => by ring
    show ∑ k, y k * (x k - (Y.map fun y => c y * y k).sum) = 0
    rw [e, listsum_dot, orth_pick c y Y hp hy, hc]
    have hz : rowLen y ^ (2 : ℕ) ≠ 0 := pow_ne_zero _ fun h => hne y hy ((rowLen_zero_iff y).1 h)
    dsimp only
    rw [← rowLen_sq_dot, div_mul_cancel₀ _ hz, sub_self]

/-- What holds between the rows read and the rows made. -/
structure GsInv (done Y : List (Fin d → ℝ)) : Prop where
  len : Y.length = done.length
  orth : Y.Pairwise fun y y' => ∑ k, y k * y' k = 0
  span : ∀ m, Submodule.span ℝ (rowSet (Y.take m)) = Submodule.span ℝ (rowSet (done.take m))
  last : ∀ i (h : i < Y.length) (h' : i < done.length), done[i] - Y[i] ∈ Submodule.span ℝ (rowSet (done.take i))

theorem span_append_sub {done Y : List (Fin d → ℝ)} (hs : Submodule.span ℝ (rowSet Y) = Submodule.span ℝ (rowSet done)) {x p : Fin d → ℝ}
    (hp : p ∈ Submodule.span ℝ (rowSet Y)) :
    Submodule.span ℝ (rowSet (Y ++ [x - p])) = Submodule.span ℝ (rowSet (done ++ [x])) := by
  have hY : Submodule.span ℝ (rowSet Y) ≤ Submodule.span ℝ (rowSet (Y ++ [x - p])) := Submodule.span_mono fun y hy => List.mem_append_left _ hy
  have hD : Submodule.span ℝ (rowSet done) ≤ Submodule.span ℝ (rowSet (done ++ [x])) := Submodule.span_mono fun y hy => List.mem_append_left _ hy
  apply le_antisymm
  · rw [Submodule.span_le]
    intro y hy
    rcases List.mem_append.1 hy with hy | hy
    · exact hD (hs ▸ Submodule.subset_span hy)
    · rw [List.mem_singleton] at hy
      subst hy
      exact Submodule.sub_mem _ (Submodule.subset_span (by simp)) (hD (hs ▸ hp))
  · rw [Submodule.span_le]
    intro y hy
    rcases List.mem_append.1 hy with hy | hy
    · exact hY (hs ▸ Submodule.subset_span hy)
    · rw [List.mem_singleton] at hy
      subst hy
      have h1 : y - p ∈ Submodule.span ℝ (rowSet (Y ++ [y - p])) := Submodule.subset_span (by simp)
      have := Submodule.add_mem _ h1 (hY hp)
      rwa [sub_add_cancel] at this

theorem GsInv.step {done Y Y' : List (Fin d → ℝ)} {x : Fin d → ℝ} (h : GsInv done Y) (hs : gsStep Y x = some Y') : GsInv (done ++ [x]) Y' := by
  obtain ⟨hne, p, hp, rfl, ho⟩ := gsStep_spec hs h.orth
  have hall : Submodule.span ℝ (rowSet Y) = Submodule.span ℝ (rowSet done) := by
    have := h.span Y.length
    rwa [List.take_length, h.len, List.take_length] at this
  refine ⟨by simp [h.len], ho, ?_, ?_⟩
  · intro m
    rcases Nat.lt_or_ge Y.length m with hm | hm
    · rw [List.take_of_length_le (by simp; omega), List.take_of_length_le (by simp [← h.len]; omega)]
      exact span_append_sub hall hp
    · rw [List.take_append_of_le_length hm, List.take_append_of_le_length (by rw [← h.len]; exact hm)]
      exact h.span m
  · intro i hi hi'
    rcases Nat.lt_or_ge i Y.length with hlt | hge
    · rw [List.getElem_append_left hlt, List.getElem_append_left (by rw [← h.len]; exact hlt),
        List.take_append_of_le_length (by rw [← h.len]; omega)]
      exact h.last i hlt _
    · have hi2 : i = Y.length := by simp at hi; omega
      subst hi2
      rw [List.getElem_append_right le_rfl, List.getElem_append_right (by rw [h.len])]
      simp only [h.len, Nat.sub_self, List.getElem_cons_zero, sub_sub_cancel]
      rw [List.take_append_of_le_length le_rfl, List.take_length, ← hall]
      exact hp

theorem gsFold_inv : ∀ (rest done Y Y' : List (Fin d → ℝ)), GsInv done Y → rest.foldlM gsStep Y = some Y' → GsInv (done ++ rest) Y'
  | [], done, Y, Y', h, e => by
    simp only [List.foldlM_nil] at e
    obtain rfl : Y = Y' := Option.some.inj e
    simpa using h
  | x :: rest, done, Y, Y', h, e => by
    rw [List.foldlM_cons] at e
    cases hs : gsStep Y x with
    | none => rw [hs] at e; simp at e
    | some Z =>
      rw [hs] at e
      have := gsFold_inv rest (done ++ [x]) Z Y' (h.step hs) e
      simpa using this

theorem gsInv_init (X : List (Fin d → ℝ)) : GsInv (X.take 1) (X.take 1) :=
  ⟨rfl, by cases X <;> simp, fun _ => rfl, fun i h h' => by simp⟩

/-- Independent rows never meet a division by zero. -/
theorem GsInv.ne_zero {done Y : List (Fin d → ℝ)} (h : GsInv done Y)
    (hli : ∀ i (h : i < done.length), done[i] ∉ Submodule.span ℝ (rowSet (done.take i))) : ∀ y ∈ Y, y ≠ 0 := by
  intro y hy hz
  obtain ⟨i, hi, rfl⟩ := List.getElem_of_mem hy
  have hi' : i < done.length := by rw [← h.len]; exact hi
  have := h.last i hi hi'
  rw [hz, sub_zero] at this
  exact hli i hi' this

theorem gsFold_total : ∀ (rest done Y : List (Fin d → ℝ)), GsInv done Y →
    (∀ i (h : i < (done ++ rest).length), (done ++ rest)[i] ∉ Submodule.span ℝ (rowSet ((done ++ rest).take i))) →
    ∃ Y', rest.foldlM gsStep Y = some Y'
  | [], done, Y, h, _ => ⟨Y, rfl⟩
  | x :: rest, done, Y, h, hli => by
    have hd : ∀ i (h : i < done.length), done[i] ∉ Submodule.span ℝ (rowSet (done.take i)) := by
      intro i hi
      have := hli i (by simp; omega)
      rwa [List.getElem_append_left hi, List.take_append_of_le_length (by omega)] at this
    have hne := h.ne_zero hd
    have hs : ∃ Z, gsStep Y x = some Z := by
      unfold gsStep
      rw [if_neg]
      · exact ⟨_, rfl⟩
      · intro h0
        obtain ⟨y, hy, h0⟩ := List.mem_map.1 h0
        exact hne y hy ((rowLen_zero_iff y).1 h0)
    obtain ⟨Z, hZ⟩ := hs
    obtain ⟨Y', hY'⟩ := gsFold_total rest (done ++ [x]) Z (h.step hZ) (by simpa using hli)
    exact ⟨Y', by rw [List.foldlM_cons, hZ]; exact hY'⟩

theorem not_span_of_indep {X : List (Fin d → ℝ)} (hX : LinearIndependent ℝ fun i : Fin X.length => X[i]) :
    ∀ i (h : i < X.length), X[i] ∉ Submodule.span ℝ (rowSet (X.take i)) := by
  intro i hi hmem
  have := hX.notMem_span_image (s := {j | j < ⟨i, hi⟩}) (x := ⟨i, hi⟩) (by simp)
  apply this
  refine Submodule.span_mono ?_ hmem
  intro y hy
  obtain ⟨j, hj, rfl⟩ := List.getElem_of_mem hy
  have hj' : j < i ∧ j < X.length := by simpa using hj
  exact ⟨⟨j, hj'.2⟩, by simpa [Fin.lt_def] using hj'.1, by simp⟩

theorem orth_indep {Y : List (Fin d → ℝ)} (ho : Y.Pairwise fun y y' => ∑ k, y k * y' k = 0) (hne : ∀ y ∈ Y, y ≠ 0) :
    LinearIndependent ℝ fun i : Fin Y.length => Y[i] := by
  have hij : ∀ i j : Fin Y.length, i ≠ j → ∑ k, Y[i] k * Y[j] k = 0 := by
    intro i j h
    rcases lt_or_gt_of_ne h with h | h
    · exact List.pairwise_iff_getElem.1 ho i j i.2 j.2 h
    · have := List.pairwise_iff_getElem.1 ho j i j.2 i.2 h
      rw [← this]
      exact Finset.sum_congr rfl fun k _ => mul_comm _ _
  rw [Fintype.linearIndependent_iff]
  intro g hg i
  have h0 : ∑ k, (∑ j, g j • Y[j]) k * Y[i] k = 0 := by
    rw [show (∑ j, g j • Y[j]) = 0 from hg]
    simp
  have h1 : ∑ k, (∑ j, g j • Y[j]) k * Y[i] k = ∑ j, g j * ∑ k, Y[j] k * Y[i] k := by
    simp only [Finset.sum_apply, Pi.smul_apply, smul_eq_mul, Finset.sum_mul, Finset.mul_sum]
    rw [Finset.sum_comm]
    exact Finset.sum_congr rfl fun j _ => Finset.sum_congr rfl fun k _ => by ring
  rw [h1, Finset.sum_eq_single i (fun j _ hj => by rw [hij j i hj, mul_zero]) (by simp)] at h0
  rcases mul_eq_zero.1 h0 with h | h
  · exact h
  · exfalso
    rw [← rowLen_sq_dot] at h
    exact hne Y[i] (List.getElem_mem i.2) ((rowLen_zero_iff _).1 (pow_eq_zero_iff (two_ne_zero)|>.1 h))

theorem range_rows (Y : List (Fin d → ℝ)) : Set.range (fun i : Fin Y.length => Y[i]) = rowSet Y := by
  ext y
  constructor
  · rintro ⟨i, rfl⟩
    exact List.getElem_mem i.2
  · intro hy
    obtain ⟨i, hi, rfl⟩ := List.getElem_of_mem hy
    exact ⟨⟨i, hi⟩, rfl⟩

theorem span_scaled (Y : List (Fin d → ℝ)) (hne : ∀ y ∈ Y, y ≠ 0) :
    Submodule.span ℝ (rowSet (Y.map fun y k => 1 / rowLen y * y k)) = Submodule.span ℝ (rowSet Y) := by
  apply le_antisymm
  · rw [Submodule.span_le]
    intro y hy
    obtain ⟨y, hy', rfl⟩ := List.mem_map.1 hy
    exact Submodule.smul_mem _ (1 / rowLen y) (Submodule.subset_span hy')
  · rw [Submodule.span_le]
    intro y hy
    have h1 : (fun k => 1 / rowLen y * y k) ∈ Submodule.span ℝ (rowSet (Y.map fun y k => 1 / rowLen y * y k)) :=
      Submodule.subset_span (List.mem_map.2 ⟨y, hy, rfl⟩)
    have := Submodule.smul_mem _ (rowLen y) h1
    have hz : rowLen y ≠ 0 := fun h => hne y hy ((rowLen_zero_iff y).1 h)
    have e : (rowLen y • fun k => 1 / rowLen y * y k) = y := by
      funext k
      simp [hz]
    rw [e] at this
    exact this

/-- **C153** (`gram_schmidt`). Linearly independent rows become as many orthonormal rows, and the first `m` of them span the same space
as the first `m` rows given, for every `m`. With dependent rows - and only then - a division by zero occurs. -/
theorem C153_gram_schmidt (X : List (Fin d → ℝ)) :
    (LinearIndependent ℝ (fun i : Fin X.length => X[i]) ↔ (gramSchmidt X).isSome) ∧
    ∀ O, gramSchmidt X = some O → O.length = X.length ∧ OrthonormalRows O ∧
      ∀ m, Submodule.span ℝ (rowSet (O.take m)) = Submodule.span ℝ (rowSet (X.take m)) := by
  classical
  have hXe : X.take 1 ++ X.drop 1 = X := List.take_append_drop 1 X
  have main : ∀ O, gramSchmidt X = some O → O.length = X.length ∧ OrthonormalRows O ∧
      (∀ m, Submodule.span ℝ (rowSet (O.take m)) = Submodule.span ℝ (rowSet (X.take m))) ∧ ∀ y ∈ O, y ≠ 0 := by
    intro O hO
    unfold gramSchmidt at hO
    cases hf : (X.drop 1).foldlM gsStep (X.take 1) with
    | none => rw [hf] at hO; simp at hO
    | some Y =>
      rw [hf] at hO
      have hI := gsFold_inv _ _ _ _ (gsInv_init X) hf
      rw [hXe] at hI
      simp only [Option.bind_eq_bind, Option.bind_some, if_true] at hO
      split_ifs at hO with h0
      have hne : ∀ y ∈ Y, y ≠ 0 := fun y hy hz => h0 (List.mem_map.2 ⟨y, hy, (rowLen_zero_iff y).2 hz⟩)
      obtain rfl := Option.some.inj hO
      have hlen : ∀ y ∈ Y, ∑ k, (1 / rowLen y * y k) ^ (2 : ℕ) = 1 := by
        intro y hy
        have hz : rowLen y ≠ 0 := fun h => hne y hy ((rowLen_zero_iff y).1 h)
        simp only [mul_pow, ← Finset.mul_sum, ← rowLen_sq]
        field_simp
      refine ⟨by simp [hI.len], ⟨?_, ?_⟩, ?_, ?_⟩
      · intro y hy
        obtain ⟨y, hy', rfl⟩ := List.mem_map.1 hy
        exact hlen y hy'
      · rw [List.pairwise_map]
        refine hI.orth.imp fun {a b} hab => ?_
        have : ∑ k, 1 / rowLen a * a k * (1 / rowLen b * b k) = 1 / rowLen a * (1 / rowLen b) * ∑ k, a k * b k := by
          rw [Finset.mul_sum]
          exact Finset.sum_congr rfl fun k _ => by ring
        rw [this, hab, mul_zero]
      · intro m
        rw [← List.map_take, span_scaled _ fun y hy => hne y (List.mem_of_mem_take hy), hI.span]
      · intro y hy hz
        obtain ⟨y, hy', rfl⟩ := List.mem_map.1 hy
        have := hlen y hy'
        rw [Finset.sum_eq_zero fun k _ => by rw [show 1 / rowLen y * y k = 0 from congrFun hz k]; norm_num] at this
        exact zero_ne_one this
  refine ⟨⟨?_, ?_⟩, fun O hO => ⟨(main O hO).1, (main O hO).2.1, (main O hO).2.2.1⟩⟩
  · intro hli
    have hns := not_span_of_indep hli
    obtain ⟨Y, hY⟩ := gsFold_total (X.drop 1) (X.take 1) (X.take 1) (gsInv_init X) (by
      intro i hi
      simpa only [hXe] using hns i (by simpa only [hXe] using hi))
    have hI := gsFold_inv _ _ _ _ (gsInv_init X) hY
    rw [hXe] at hI
    have hne := hI.ne_zero hns
    unfold gramSchmidt
    rw [hY]
    simp only [Option.bind_eq_bind, Option.bind_some, if_true]
    rw [if_neg]
    · rfl
    · intro h0
      obtain ⟨y, hy, h0⟩ := List.mem_map.1 h0
      exact hne y hy ((rowLen_zero_iff y).1 h0)
  · intro hs
    obtain ⟨O, hO⟩ := Option.isSome_iff_exists.1 hs
    obtain ⟨h1, h2, h3, h4⟩ := main O hO
    have hOi := orth_indep h2.2 h4
    have hsp : Submodule.span ℝ (rowSet O) = Submodule.span ℝ (rowSet X) := by
      have := h3 X.length
      rwa [List.take_length, ← h1, List.take_length] at this
    rw [linearIndependent_iff_card_eq_finrank_span, range_rows, Set.finrank, ← hsp, ← range_rows, Fintype.card_fin, ← h1,
      finrank_span_eq_card hOi, Fintype.card_fin]

/-- Two independent rows, and two dependent ones. -/
example : (gramSchmidt ([![3, 4], ![1, 0]] : List (Fin 2 → ℝ))).isSome ∧ gramSchmidt ([![1, 2], ![2, 4]] : List (Fin 2 → ℝ)) = none := by
  constructor
  · rw [← (C153_gram_schmidt _).1, Fintype.linearIndependent_iff]
    intro g hg i
    have h0 := congrFun hg 0
    have h1 := congrFun hg 1
    simp [Fin.sum_univ_two] at h0 h1
    fin_cases i
    · simpa using h1
    · rw [h1] at h0
      simpa using h0
  · rw [← Option.not_isSome_iff_eq_none, ← (C153_gram_schmidt _).1, Fintype.linearIndependent_iff]
    intro h
    have := h ![2, -1] (by funext k; fin_cases k <;> simp [Fin.sum_univ_two] <;> norm_num) 0
    simp at this

theorem simplexEdges_get (n : ℕ) (i : ℕ) (h : i < (simplexEdges n).length) (h' : i < n) :
    (simplexEdges n)[i] = fun k => (Pi.single (Fin.succ ⟨i, h'⟩) 1 : Fin (n + 1) → ℝ) k - (Pi.single 0 1 : Fin (n + 1) → ℝ) k := by
  have e : (simplexEdges n)[i]? = some (fun k => (Pi.single (Fin.succ ⟨i, h'⟩) 1 : Fin (n + 1) → ℝ) k - (Pi.single 0 1 : Fin (n + 1) → ℝ) k) := by
    unfold simplexEdges
    rw [List.getElem?_map, List.getElem?_eq_getElem (by simpa using h'), List.getElem_finRange]
    rfl
  rw [List.getElem?_eq_getElem h] at e
  exact Option.some.inj e

theorem simplexEdges_indep (n : ℕ) : LinearIndependent ℝ fun i : Fin (simplexEdges n).length => (simplexEdges n)[i] := by
  rw [Fintype.linearIndependent_iff]
  intro g hg i
  have hl : (simplexEdges n).length = n := by simp [simplexEdges]
  have h := congrFun hg (Fin.succ ⟨i, by have := i.2; omega⟩)
  rw [Finset.sum_apply, Finset.sum_eq_single i] at h
  · rw [Pi.smul_apply, Fin.getElem_fin, simplexEdges_get n i i.2 (by have := i.2; omega)] at h
    simpa [Pi.single_apply] using h
  · intro j _ hj
    have : ¬ (i : ℕ) = (j : ℕ) := fun e => hj (Fin.ext e.symm)
    rw [Pi.smul_apply, Fin.getElem_fin, simplexEdges_get n j j.2 (by have := j.2; omega)]
    simp [Pi.single_apply, this]
  · simp

theorem parseval {O : List (Fin d → ℝ)} (h : OrthonormalRows O) : ∀ v ∈ Submodule.span ℝ (rowSet O),
    (O.map fun o => (∑ k, v k * o k) ^ (2 : ℕ)).sum = ∑ k, v k ^ (2 : ℕ) := by
  have key : ∀ (O : List (Fin d → ℝ)), OrthonormalRows O → ∀ v ∈ Submodule.span ℝ (rowSet O),
      (fun k => (O.map fun o => (∑ m, v m * o m) * o k).sum) = v := by
    intro O hO v hv
    induction hv using Submodule.span_induction with
    | mem y hy =>
      funext k
      have := orth_pick (fun o => o k) y O hO.2 hy
      rw [← show (O.map fun o => (∑ m, y m * o m) * o k).sum = (O.map fun o => o k * ∑ m, o m * y m).sum from by
        congr 1; apply List.map_congr_left; intro o _; rw [mul_comm]; congr 1; exact Finset.sum_congr rfl fun m _ => mul_comm _ _] at this
      rw [this, show ∑ m, y m * y m = 1 from by rw [← hO.1 y hy]; exact Finset.sum_congr rfl fun m _ => by ring, mul_one]
    | zero => funext k; simp
    | add x y _ _ hx hy =>
      funext k
      have e1 := congrFun hx k
      have e2 := congrFun hy k
      rw [Pi.add_apply, ← e1, ← e2, ← List.sum_map_add]
      congr 1
      apply List.map_congr_left
      intro o _
      rw [← add_mul, ← Finset.sum_add_distrib]
      congr 1
      refine Finset.sum_congr rfl fun m _ => ?_
      rw [Pi.add_apply]
      ring
    | smul a x _ hx =>
      funext k
      have e1 := congrFun hx k
      rw [Pi.smul_apply, ← e1, smul_eq_mul, ← List.sum_map_mul_left]
      congr 1
      apply List.map_congr_left
      intro o _
      rw [← mul_assoc]
      congr 1
      rw [Finset.mul_sum]
      refine Finset.sum_congr rfl fun m _ => ?_
      rw [Pi.smul_apply, smul_eq_mul]
      ring
  intro v hv
  have hk := key O h v hv
  have h1 := listsum_dot (fun o => ∑ m, v m * o m) v O
  have h2 : ∑ k, (O.map fun o => (∑ m, v m * o m) * o k).sum * v k = ∑ k, v k ^ (2 : ℕ) :=
    Finset.sum_congr rfl fun k _ => by rw [show (O.map fun o => (∑ m, v m * o m) * o k).sum = v k from congrFun hk k]; ring
  rw [← h2, h1]
  congr 1
  apply List.map_congr_left
  intro o _
  rw [pow_two]
  congr 1
  exact Finset.sum_congr rfl fun m _ => mul_comm _ _

theorem sumzero_span (n : ℕ) (v : Fin (n + 1) → ℝ) (hv : ∑ k, v k = 0) : v ∈ Submodule.span ℝ (rowSet (simplexEdges n)) := by
  have e : v = ∑ i : Fin n, v i.succ • (fun k => (Pi.single i.succ 1 : Fin (n + 1) → ℝ) k - (Pi.single 0 1 : Fin (n + 1) → ℝ) k) := by
    funext k
    rw [Finset.sum_apply]
    simp only [Pi.smul_apply, smul_eq_mul]
    refine Fin.cases ?_ (fun j => ?_) k
    · rw [Fin.sum_univ_succ] at hv
      simp only [Pi.single_apply, Fin.succ_ne_zero, (Fin.succ_ne_zero _).symm, if_false, if_true, zero_sub, mul_neg, mul_one,
        Finset.sum_neg_distrib]
      linarith
    · rw [Finset.sum_eq_single j]
      · simp [Pi.single_apply]
      · intro i _ hi
        simp [Pi.single_apply, Fin.succ_inj, hi.symm]
      · simp
  rw [e]
  refine Submodule.sum_mem _ fun i _ => Submodule.smul_mem _ _ (Submodule.subset_span ?_)
  exact List.mem_map.2 ⟨i, List.mem_finRange i, rfl⟩

/-- **C153** (`project_onto_one_dim_less`). The projection never fails, has one coordinate less, sends the first corner to the origin, and
keeps all distances between points with the same coordinate sum, in particular on the unit simplex. -/
theorem C153_projection {n : ℕ} (x y : Fin (n + 1) → ℝ) :
    ∃ p q, projectRow x = some p ∧ projectRow y = some q ∧ p.length = n ∧ q.length = n ∧
      ((x = fun k => (Pi.single 0 1 : Fin (n + 1) → ℝ) k) → ∀ c ∈ p, c = 0) ∧
      (∑ k, x k = ∑ k, y k → (∑ j : Fin n, (p.getD j 0 - q.getD j 0) ^ (2 : ℕ)) = ∑ k, (x k - y k) ^ (2 : ℕ)) := by
  obtain ⟨O, hO⟩ := Option.isSome_iff_exists.1 ((C153_gram_schmidt (simplexEdges n)).1.1 (simplexEdges_indep n))
  obtain ⟨h1, h2, h3⟩ := (C153_gram_schmidt (simplexEdges n)).2 O hO
  have hl : O.length = n := by rw [h1]; simp [simplexEdges]
  refine ⟨_, _, by simp only [projectRow, hO, Option.map_some]; rfl, by simp only [projectRow, hO, Option.map_some]; rfl, by simp [hl], by simp [hl], ?_, ?_⟩
  · rintro rfl c hc
    obtain ⟨o, ho, rfl⟩ := List.mem_map.1 hc
    simp
  · intro hs
    have hsp : Submodule.span ℝ (rowSet O) = Submodule.span ℝ (rowSet (simplexEdges n)) := by
      have := h3 (simplexEdges n).length
      rwa [List.take_length, ← h1, List.take_length] at this
    have := parseval h2 (fun k => x k - y k) (hsp ▸ sumzero_span n _ (by rw [Finset.sum_sub_distrib, hs, sub_self]))
    rw [← this]
    have key : ∀ m, O.length = m → (∑ j : Fin m, ((O.map fun o => ∑ k, (x k - (Pi.single 0 1 : Fin (n + 1) → ℝ) k) * o k).getD j 0 -
        (O.map fun o => ∑ k, (y k - (Pi.single 0 1 : Fin (n + 1) → ℝ) k) * o k).getD j 0) ^ (2 : ℕ)) =
        (O.map fun o => (∑ k, (x k - y k) * o k) ^ (2 : ℕ)).sum := by
      rintro m rfl
      have e : (O.map fun o => (∑ k, (x k - y k) * o k) ^ (2 : ℕ)).sum = ∑ j : Fin O.length, (∑ k, (x k - y k) * O[j] k) ^ (2 : ℕ) := by
        rw [← List.sum_ofFn]
        congr 1
        apply List.ext_getElem <;> simp
      rw [e]
      refine Finset.sum_congr rfl fun j _ => ?_
      congr 1
      rw [List.getD_eq_getElem?_getD, List.getD_eq_getElem?_getD, List.getElem?_map, List.getElem?_map, List.getElem?_eq_getElem j.2, Option.map_some,
        Option.map_some, Option.getD_some, Option.getD_some, ← Finset.sum_sub_distrib]
      refine Finset.sum_congr rfl fun k _ => ?_
      rw [Fin.getElem_fin]
      ring
    exact key n hl

example : ∃ p q, projectRow (![1/2, 1/2, 0] : Fin 3 → ℝ) = some p ∧ projectRow (![0, 0, 1] : Fin 3 → ℝ) = some q ∧
    (∑ j : Fin 2, (p.getD j 0 - q.getD j 0) ^ (2 : ℕ)) = 3 / 2 := by
  obtain ⟨p, q, h1, h2, -, -, -, h⟩ := C153_projection (![1/2, 1/2, 0] : Fin 3 → ℝ) ![0, 0, 1]
  refine ⟨p, q, h1, h2, ?_⟩
  rw [h (by simp [Fin.sum_univ_three]; norm_num)]
  simp [Fin.sum_univ_three]
  norm_num

end Props
