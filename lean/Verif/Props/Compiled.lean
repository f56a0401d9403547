import Verif.Model.Compiled
import Verif.Props.FastNDS
import Verif.Props.ENS
import Verif.Props.OtherNDS

/-!
# C120: the compiled sorting routines agree with the Python ones
-/

set_option linter.unusedSimpArgs false
set_option linter.unusedVariables false
set_option linter.unusedSectionVars false

namespace Props
open Model Spec Lemmas

variable {α : Type*} [LinearOrder α] {m n : ℕ}

section Relation
variable [AddCommGroup α]

theorem cRelLoop_zero (a b : Fin m → α) : ∀ (l : List (Fin m)) (v : ℤ), cRelLoop 0 a b l v = relLoop a b l v := by
  intro l
  induction l with
  | nil => intro v; rfl
  | cons i l ih => intro v; simp only [cRelLoop, relLoop, add_zero, gt_iff_lt, ih]

theorem cRelation_zero (a b : Fin m → α) : cRelation 0 a b = getRelation a b (none : Option ℤ) none := cRelLoop_zero a b _ 0

/-- C120: without tolerance the compiled relation is Pareto dominance. -/
theorem C120_relation (a b : Fin m → α) :
    (cRelation 0 a b = 1 ↔ Dominates a b) ∧ (cRelation 0 a b = -1 ↔ Dominates b a) ∧ (cRelation 0 a b = 0 ↔ ¬ Dominates a b ∧ ¬ Dominates b a) := by
  rw [cRelation_zero]
  obtain ⟨h1, h2, h3⟩ := C01_get_relation a b (none : Option ℤ) none
  exact ⟨h1, h2, h3⟩

variable [IsOrderedAddMonoid α]

theorem cRelLoop_spec (eps : α) (he : 0 ≤ eps) (a b : Fin m → α) : ∀ (l : List (Fin m)),
    (cRelLoop eps a b l 1 = if ∃ c ∈ l, b c + eps < a c then 0 else 1) ∧
    (cRelLoop eps a b l (-1) = if ∃ c ∈ l, a c + eps < b c then 0 else -1) ∧
    (cRelLoop eps a b l 0 = if (∃ c ∈ l, a c + eps < b c) then (if ∃ c ∈ l, b c + eps < a c then 0 else 1)
      else if ∃ c ∈ l, b c + eps < a c then -1 else 0) := by
  intro l
  induction l with
  | nil => simp [cRelLoop]
  | cons i l ih =>
    obtain ⟨h1, h2, h3⟩ := ih
    have hx : a i + eps < b i → ¬ b i + eps < a i := fun h h' => by
      have e1 : a i ≤ a i + eps := le_add_of_nonneg_right he
      have e2 : b i ≤ b i + eps := le_add_of_nonneg_right he
      exact absurd ((e1.trans_lt h).trans (e2.trans_lt h')) (lt_irrefl _)
    simp only [cRelLoop, List.mem_cons, exists_eq_or_imp, gt_iff_lt]
    by_cases hs : a i + eps < b i
    · have hl := hx hs
      simp only [hs, hl, if_true, false_or, true_or, if_false]
      refine ⟨by simpa using h1, by simp, by simpa using h1⟩
    · by_cases hl : b i + eps < a i
      · simp only [hs, hl, if_true, if_false, false_or, true_or]
        refine ⟨by simp, by simpa using h2, ?_⟩
        simp only [show ¬ (0:ℤ) = 1 by decide, if_false]
        rw [h2]
      · simp only [hs, hl, if_false, false_or]
        exact ⟨h1, h2, h3⟩

/-- C120: with a tolerance: an entry of the domination matrix of the Python version. -/
theorem C120_relation_epsilon (eps : α) (he : 0 ≤ eps) (F : Fin n → Fin m → α) (i j : Fin n) :
    cRelation eps (F i) (F j) = dominationMatrix F F eps i j := by
  have h := (cRelLoop_spec eps he (F i) (F j) (List.finRange m)).2.2
  simp only [List.mem_finRange, true_and] at h
  rw [cRelation, h]
  simp only [dominationMatrix]
  have e1 : ((List.finRange m).any fun c => decide (F i c + eps < F j c)) = decide (∃ c, F i c + eps < F j c) := by
    rw [Bool.eq_iff_iff]; simp
  have e2 : ((List.finRange m).any fun c => decide (F i c > F j c + eps)) = decide (∃ c, F j c + eps < F i c) := by
    rw [Bool.eq_iff_iff]; simp
  rw [e1, e2]
  by_cases h1 : ∃ c, F i c + eps < F j c <;> by_cases h2 : ∃ c, F j c + eps < F i c <;> simp [h1, h2]

/-- C120: `find_non_dominated` of both versions return the same indices in the same order. -/
theorem C120_find (eps : α) (he : 0 ≤ eps) (F : Fin n → Fin m → α) : cFindNonDominated eps F = findNonDominated eps F := by
  unfold cFindNonDominated
  have hm := C07_find_epsilon eps he F
  unfold findNonDominated at hm ⊢
  refine List.filter_congr fun i _ => ?_
  have h := hm i
  simp only [List.mem_filter, List.mem_finRange, true_and] at h
  rw [Bool.eq_iff_iff, h]
  simp only [Bool.not_eq_true', List.any_eq_false, List.mem_finRange, true_implies, Bool.and_eq_true, decide_eq_true_eq]
  rw [not_exists]
  refine forall_congr' fun j => ?_
  rw [C120_relation_epsilon eps he, (C02_matrix_entry F F eps j i).1, ne_comm]

end Relation

section Fast
variable [AddCommGroup α]

theorem peelDecs_ranked (T : List (Fin n)) : ∀ s : PeelState n,
    (T.foldl peelDec s).nRanked + s.nextFront.length = s.nRanked + (T.foldl peelDec s).nextFront.length := by
  induction T with
  | nil => intro s; rfl
  | cons j T ih =>
    intro s
    rw [List.foldl_cons]
    have := ih (peelDec s j)
    simp only [peelDec] at this ⊢
    split_ifs at this ⊢ with hc
    · simp at this ⊢; omega
    · exact this

theorem peelRound_ranked (isDom : Fin n → List (Fin n)) (cur : List (Fin n)) (nd : Fin n → ℤ) (r : ℕ) :
    (peelRound isDom cur nd r).nRanked = r + (peelRound isDom cur nd r).nextFront.length := by
  have key : ∀ (l : List (Fin n)) (s : PeelState n), (l.foldl (fun s i => (isDom i).foldl peelDec s) s).nRanked + s.nextFront.length =
      s.nRanked + (l.foldl (fun s i => (isDom i).foldl peelDec s) s).nextFront.length := by
    intro l
    induction l with
    | nil => intro s; rfl
    | cons i l ih =>
      intro s
      rw [List.foldl_cons]
      have h1 := ih ((isDom i).foldl peelDec s)
      have h2 := peelDecs_ranked (isDom i) s
      omega
  have := key cur { nDominated := nd, nextFront := [], nRanked := r }
  simpa [peelRound] using this

theorem cPeelLoop_spec (isDom : Fin n → List (Fin n)) (stop nFronts : Option ℕ) : ∀ (fuel : ℕ) (cur : List (Fin n)) (nd : Fin n → ℤ) (r : ℕ)
    (fronts all : List (List (Fin n))), r = fronts.flatten.length → peelLoop isDom fuel cur nd r fronts = some all →
    ∃ res, cPeelLoop isDom stop nFronts fuel cur nd r fronts = some res ∧ fronts <+: res ∧ res <+: all ∧
      ((∃ k ∈ stop, k ≤ res.flatten.length) ∨ (∃ k ∈ nFronts, k ≤ res.length) ∨ res = all) ∧
      ∀ p, fronts <+: p → p <+: res → p ≠ res → (∀ k ∈ stop, p.flatten.length < k) ∧ ∀ k ∈ nFronts, p.length < k := by
  intro fuel
  induction fuel with
  | zero =>
    intro cur nd r fronts all hr h
    rw [peelLoop] at h
    by_cases hrn : r < n
    · simp [hrn] at h
    · simp only [hrn, if_false, Option.some.injEq] at h
      refine ⟨fronts, by rw [cPeelLoop]; simp [hrn], List.prefix_rfl, h ▸ List.prefix_rfl, Or.inr (Or.inr h), fun p h1 h2 h3 => ?_⟩
      exact absurd (h2.eq_of_length (le_antisymm h2.length_le h1.length_le)) h3
  | succ fuel ih =>
    intro cur nd r fronts all hr h
    rw [peelLoop] at h
    by_cases hrn : r < n
    · rw [if_pos hrn] at h
      by_cases hc : (∀ k ∈ stop, r < k) ∧ ∀ k ∈ nFronts, fronts.length < k
      · obtain ⟨res, h1, h2, h3, h4, h5⟩ := ih _ _ _ _ all (by
          rw [peelRound_ranked]; simp [hr]) h
        refine ⟨res, ?_, (List.prefix_append _ _).trans h2, h3, h4, fun p p1 p2 p3 => ?_⟩
        · rw [cPeelLoop, if_pos ⟨hrn, by simpa [Option.all_eq_true] using hc.1, by simpa [Option.all_eq_true] using hc.2⟩]; exact h1
        · by_cases hp : p = fronts
          · rw [hp, ← hr]; exact hc
          · refine h5 p ?_ p2 p3
            refine List.prefix_of_prefix_length_le h2 p2 ?_
            have : fronts.length ≠ p.length := fun he => hp (p1.eq_of_length he).symm
            have := p1.length_le
            simp; omega
      · refine ⟨fronts, ?_, List.prefix_rfl, ?_, ?_, fun p h1 h2 h3 => absurd (h2.eq_of_length (le_antisymm h2.length_le h1.length_le)) h3⟩
        · rw [cPeelLoop, if_neg]
          rintro ⟨-, h1, h2⟩
          exact hc ⟨by simpa [Option.all_eq_true] using h1, by simpa [Option.all_eq_true] using h2⟩
        · obtain ⟨res, -, h2, h3, -⟩ := ih _ _ _ _ all (by rw [peelRound_ranked]; simp [hr]) h
          exact (List.prefix_append _ _).trans (h2.trans h3)
        · rw [not_and_or] at hc
          rcases hc with hc | hc
          · push Not at hc; obtain ⟨k, hk, hle⟩ := hc; exact Or.inl ⟨k, hk, hr ▸ hle⟩
          · push Not at hc; obtain ⟨k, hk, hle⟩ := hc; exact Or.inr (Or.inl ⟨k, hk, hle⟩)
    · rw [if_neg hrn] at h
      obtain rfl := Option.some.inj h
      refine ⟨fronts, by rw [cPeelLoop]; simp [hrn], List.prefix_rfl, List.prefix_rfl, Or.inr (Or.inr rfl), fun p h1 h2 h3 => ?_⟩
      exact absurd (h2.eq_of_length (le_antisymm h2.length_le h1.length_le)) h3

/-- What the compiled sorting has to return for the limits `n_stop_if_ranked` and `n_fronts`: the shortest non-empty beginning of the fronts that reaches
one of the limits, all fronts if none is reached. -/
structure StoppedFronts {ι : Type*} (stop nFronts : Option ℕ) (all res : List (List ι)) : Prop where
  isPrefix : res <+: all
  nonempty : all ≠ [] → res ≠ []
  enough : (∃ k ∈ stop, k ≤ res.flatten.length) ∨ (∃ k ∈ nFronts, k ≤ res.length) ∨ res = all
  minimal : ∀ p, p <+: all → p ≠ [] → p.length < res.length → (∀ k ∈ stop, p.flatten.length < k) ∧ ∀ k ∈ nFronts, p.length < k

theorem peelLoop_prefix (isDom : Fin n → List (Fin n)) : ∀ (fuel : ℕ) (cur : List (Fin n)) (nd : Fin n → ℤ) (r : ℕ)
    (fronts all : List (List (Fin n))), peelLoop isDom fuel cur nd r fronts = some all → fronts <+: all := by
  intro fuel
  induction fuel with
  | zero => intro cur nd r fronts all h; rw [peelLoop] at h; split_ifs at h; obtain rfl := Option.some.inj h; exact List.prefix_rfl
  | succ fuel ih =>
    intro cur nd r fronts all h
    rw [peelLoop] at h
    split_ifs at h
    · exact (List.prefix_append _ _).trans (ih _ _ _ _ _ h)
    · obtain rfl := Option.some.inj h; exact List.prefix_rfl

/-- C120: the compiled `fast_non_dominated_sort` returns, without tolerance, the Pareto fronts up to the limits. -/
theorem C120_fast (F : Fin n → Fin m → α) (stop nFronts : Option ℕ) (fuel : ℕ) (hf : n ≤ fuel) :
    ∃ all res, CanonicalFronts (fun i j => Dominates (F i) (F j)) all ∧ cFastSort fuel 0 stop nFronts F = some res ∧
      StoppedFronts stop nFronts all res := by
  set M : Fin n → Fin n → ℤ := fun i j => cRelation 0 (F i) (F j) with hMdef
  have hdom : (fun i j => M i j = 1) = fun i j => Dominates (F i) (F j) := by
    funext i j; exact propext (C120_relation _ _).1
  have hskew : ∀ a b, M b a = - M a b := fun a b => by
    simp only [hMdef, cRelation_zero]; exact C01_antisymmetric _ _ _ _
  have hpo : StrictPO (fun i j => M i j = 1) := by
    rw [hdom]; exact ⟨fun i => dominates_strictPO.irrefl _, fun i j k => dominates_strictPO.trans _ _ _⟩
  obtain ⟨all, h1, h2⟩ := C03_fast_sort_matrix M hskew hpo fuel hf
  rw [hdom] at h2
  unfold fastFromMatrix at h1
  by_cases h0 : n = 0
  · rw [if_pos h0] at h1
    obtain rfl := Option.some.inj h1
    exact ⟨[], [], h2, by rw [cFastSort, if_pos h0], List.prefix_rfl, id, Or.inr (Or.inr rfl), fun p h _ hl => by simp at hl⟩
  · rw [if_neg h0] at h1
    have hr : (fastInit M).nRanked = ([(fastInit M).currentFront] : List (List (Fin n))).flatten.length := by
      rw [(fastInit_spec hskew).2.2.2]; simp
    obtain ⟨res, r1, r2, r3, r4, r5⟩ := cPeelLoop_spec _ stop nFronts fuel _ _ _ _ all hr h1
    refine ⟨all, res, h2, by rw [cFastSort, if_neg h0]; exact r1, r3, fun _ he => ?_, r4, fun p hp hne hl => ?_⟩
    · rw [he] at r2; simp at r2
    · refine r5 p ?_ (List.prefix_of_prefix_length_le hp r3 hl.le) (fun he => by rw [he] at hl; omega)
      refine List.prefix_of_prefix_length_le (peelLoop_prefix _ _ _ _ _ _ _ h1) hp ?_
      have := List.length_pos_of_ne_nil hne
      simp only [List.length_singleton]; omega

/-- Three fronts of which two are enough. -/
example : cFastSort 4 0 (some 3) none ![![1, (1:ℤ)], ![2, 2], ![2, 3], ![2, 1]] = some [[0], [3], [1]] ∧
    cFastSort 4 0 none none ![![1, (1:ℤ)], ![2, 2], ![2, 3], ![2, 1]] = some [[0], [3], [1], [2]] ∧
    cFastSort 4 0 none (some 2) ![![1, (1:ℤ)], ![2, 2], ![2, 3], ![2, 1]] = some [[0], [3]] := by decide +kernel

/-- C120 is violated with a tolerance: the relation can be cyclic, and then the compiled sorting does not end, whatever the number of iterations (each
appends an empty front). -/
theorem C120_epsilon_diverges_refuted : ∃ (F : Fin 3 → Fin 3 → ℤ) (eps : ℤ), 0 < eps ∧ ∀ fuel, cFastSort fuel eps none none F = none := by
  refine ⟨![![0, 1, 2], ![2, 0, 1], ![1, 2, 0]], 1, by decide, fun fuel => ?_⟩
  have hloop : ∀ (isDom : Fin 3 → List (Fin 3)) (fuel : ℕ) (nd : Fin 3 → ℤ) (fronts : List (List (Fin 3))),
      cPeelLoop isDom none none fuel [] nd 0 fronts = none := by
    intro isDom fuel
    induction fuel with
    | zero => intro nd fronts; rw [cPeelLoop]; simp
    | succ fuel ih => intro nd fronts; rw [cPeelLoop]; simp [peelRound, ih]
  have h1 : (fastInit fun i j => cRelation (1:ℤ) ((![![0, 1, 2], ![2, 0, 1], ![1, 2, 0]] : Fin 3 → Fin 3 → ℤ) i)
      ((![![0, 1, 2], ![2, 0, 1], ![1, 2, 0]] : Fin 3 → Fin 3 → ℤ) j)).currentFront = [] := by decide +kernel
  have h2 : (fastInit fun i j => cRelation (1:ℤ) ((![![0, 1, 2], ![2, 0, 1], ![1, 2, 0]] : Fin 3 → Fin 3 → ℤ) i)
      ((![![0, 1, 2], ![2, 0, 1], ![1, 2, 0]] : Fin 3 → Fin 3 → ℤ) j)).nRanked = 0 := by decide +kernel
  rw [cFastSort, if_neg (by decide)]
  simp only [h1, h2, hloop]

end Fast

/-! ### Efficient sorting -/

section Ens
variable [AddCommGroup α]

theorem cNonDominatedIn_eq (F : Fin n → Fin m → α) (i : Fin n) (f : List (Fin n)) : cNonDominatedIn F i f = nonDominatedIn F i f := by
  simp only [cNonDominatedIn, nonDominatedIn, cRelation_zero]

theorem cSeqLoop_eq (F : Fin n → Fin m → α) (i : Fin n) : ∀ (fs : List (List (Fin n))) (k : ℕ), cSeqLoop F i fs k = seqLoop F i fs k := by
  intro fs
  induction fs with
  | nil => intro k; rfl
  | cons f fs ih => intro k; simp only [cSeqLoop, seqLoop, cNonDominatedIn_eq, ih]

theorem cBinLoop_eq (F : Fin n → Fin m → α) (i : Fin n) (fs : List (List (Fin n))) : ∀ (fuel kMin kMax k : ℕ),
    cBinLoop F i fs fuel kMin kMax k = binLoop F i fs fuel kMin kMax k := by
  intro fuel
  induction fuel with
  | zero => intro a b c; rfl
  | succ fuel ih =>
    intro a b c
    simp only [cBinLoop, binLoop, cNonDominatedIn_eq, ih, midpoint]
    cases fs[c - 1]? <;> rfl

theorem cEnsInsert_eq (st : EnsStrategy) (F : Fin n → Fin m → α) : ∀ (l : List (Fin n)) (fs : List (List (Fin n))),
    cEnsInsert st F l fs = ensInsert st F l fs := by
  intro l
  induction l with
  | nil => intro fs; rfl
  | cons i l ih =>
    intro fs
    have : cEnsSearch st F i fs = ensSearch st F i fs := by
      cases st
      · simp only [cEnsSearch, ensSearch, sequentialSearch, cSeqLoop_eq]
      · simp only [cEnsSearch, ensSearch, binarySearch, cBinLoop_eq, midpoint]
    simp only [cEnsInsert, ensInsert, this, ih, appendToFront]
    cases ensSearch st F i fs <;> rfl

/-- C120: both versions of the efficient sorting return the same fronts in the same order, for both strategies. -/
theorem C120_efficient (st : EnsStrategy) (I : Equiv.Perm (Fin n)) (F : Fin n → Fin m → α) : cEfficientSort st I F = efficientSort st I F := by
  simp only [cEfficientSort, efficientSort, cEnsInsert_eq]

/-- C120: hence the compiled efficient sorting returns the Pareto fronts. -/
theorem C120_efficient_fronts (st : EnsStrategy) (I : Equiv.Perm (Fin n)) (F : Fin n → Fin m → α) (hI : SortedBy LexLE I F) :
    ∃ fronts, cEfficientSort st I F = some fronts ∧ CanonicalFronts (fun i j => Dominates (F i) (F j)) fronts := by
  rw [C120_efficient]
  obtain ⟨fronts, h1, h2, -⟩ := efficientSort_spec st I F hI
  exact ⟨fronts, h1, h2⟩

example : cEfficientSort .binary (Equiv.refl (Fin 3)) ![![1, (1:ℤ)], ![2, 2], ![3, 3]] = some [[0], [1], [2]] := by decide +kernel

end Ens

/-! ### Dominance degree -/

theorem cCompLoop_eq (vec : Fin n → α) : ∀ (l : List (Fin n)) (prev : Fin n) (c : Fin n → Fin n → ℤ), cCompLoop vec prev l c = compLoop vec prev l c := by
  intro l
  induction l with
  | nil => intro p c; rfl
  | cons s l ih => intro p c; simp only [cCompLoop, compLoop, ih]

theorem degreeLoop_eq (F : Fin n → Fin m → α) (b : Fin m → List (Fin n)) (hb : ∀ c, b c ≠ []) : ∀ (cs : List (Fin m)) (d : Fin n → Fin n → ℤ),
    degreeLoop F b cs d = some (cs.foldl (fun D c => cComp (fun i => F i c) (b c) D) d) := by
  intro cs
  induction cs with
  | nil => intro d; rfl
  | cons c cs ih =>
    intro d
    rw [degreeLoop, List.foldl_cons]
    cases h : b c with
    | nil => exact absurd h (hb c)
    | cons s rest => simp only [compMatrix, cComp, cCompLoop_eq, ih]

theorem cRemovePair_apply (m : ℕ) (D : Fin n → Fin n → ℤ) (x y a b : Fin n) :
    cRemovePair m D (x, y) a b = if ((a = y ∧ b = x) ∨ (a = x ∧ b = y)) ∧ D x y = m ∧ D y x = m then 0 else D a b := by
  unfold cRemovePair
  by_cases h1 : D x y = m
  · by_cases h2 : D y x = m
    · by_cases h3 : (a = y ∧ b = x) ∨ (a = x ∧ b = y)
      · simp [h1, h2, h3]
      · simp [h1, h2, h3]
    · simp [h1, h2]
  · simp [h1]

theorem cRemove_fold (m : ℕ) (D : Fin n → Fin n → ℤ) (hm : (m:ℤ) ≠ 0) : ∀ (l : List (Fin n × Fin n)) (a b : Fin n),
    (l.foldl (cRemovePair m) D) a b = if ((a, b) ∈ l ∨ (b, a) ∈ l) ∧ D a b = m ∧ D b a = m then 0 else D a b := by
  intro l
  induction l using List.reverseRecOn with
  | nil => intro a b; simp
  | append_singleton l p ih =>
    intro a b
    obtain ⟨x, y⟩ := p
    rw [List.foldl_append, List.foldl_cons, List.foldl_nil, cRemovePair_apply, ih x y, ih y x, ih a b]
    have hmem : ((a, b) ∈ l ++ [(x, y)] ∨ (b, a) ∈ l ++ [(x, y)]) ↔ ((a, b) ∈ l ∨ (b, a) ∈ l) ∨ ((a = x ∧ b = y) ∨ (b = x ∧ a = y)) := by
      simp only [List.mem_append, List.mem_singleton, Prod.mk.injEq]; tauto
    simp only [hmem]
    by_cases hl : (a, b) ∈ l ∨ (b, a) ∈ l
    · by_cases hd : D a b = m ∧ D b a = m
      · simp [hl, hd]
      · by_cases hab : (a = y ∧ b = x) ∨ (a = x ∧ b = y)
        · rcases hab with ⟨rfl, rfl⟩ | ⟨rfl, rfl⟩
          · have hd' : ¬ (D b a = m ∧ D a b = m) := fun h => hd h.symm
            simp only [hd, hd', and_false, if_false]
          · have hd' : ¬ (D b a = m ∧ D a b = m) := fun h => hd h.symm
            simp only [hd, hd', and_false, if_false]
        · simp only [hab, hd, false_and, and_false, if_false]
    · have hl' : ¬ ((b, a) ∈ l ∨ (a, b) ∈ l) := fun h => hl h.symm
      by_cases hab : (a = y ∧ b = x) ∨ (a = x ∧ b = y)
      · rcases hab with ⟨rfl, rfl⟩ | ⟨rfl, rfl⟩
        · simp only [hl, hl', false_and, if_false, and_self, true_or, or_true, true_and]
          simp only [and_comm (a := D b a = (m:ℤ))]
        · simp only [hl, hl', false_and, if_false, and_self, true_or, or_true, true_and]
      · have hab' : ¬ ((a = x ∧ b = y) ∨ (b = x ∧ a = y)) := fun h => hab (by tauto)
        simp only [hl, hab, hab', false_and, if_false, or_self]

theorem cDdaFront_eq (m : ℕ) (d : Fin n → Fin n → ℤ) : cDdaFront m d = ddaFront m d := by
  unfold cDdaFront ddaFront
  refine List.filter_congr fun i _ => ?_
  have key : ∀ (l : List (Fin n)) (v : ℤ), l.foldl (fun mx j => max mx (d j i)) v = (l.map fun j => d j i).foldl max v := by
    intro l; induction l with
    | nil => intro v; rfl
    | cons j l ih => intro v; simp only [List.foldl_cons, List.map_cons, ih]
  have hmx : ∀ (l : List ℤ) (u v : ℤ), l.foldl max (max u v) = max u (l.foldl max v) := by
    intro l; induction l with
    | nil => intro u v; rfl
    | cons a l ih => intro u v; simp only [List.foldl_cons, max_assoc, ih]
  have hne : List.finRange n ≠ [] := List.ne_nil_of_mem (List.mem_finRange i)
  simp only [key]
  cases h : (List.finRange n).map fun j => d j i with
  | nil => simp at h; exact absurd h (by simpa using hne)
  | cons a l =>
    simp only [List.max?_cons', List.foldl_cons, hmx]
    by_cases hv : 0 ≤ l.foldl max a
    · rw [max_eq_right (by omega)]
    · have h1 : max (-1 : ℤ) (l.foldl max a) < 0 := max_lt (by omega) (by omega)
      simp only [decide_eq_decide]
      constructor <;> intro h <;> omega

theorem cDdaLoop_eq (m : ℕ) : ∀ (fuel : ℕ) (d : Fin n → Fin n → ℤ) (count : ℕ), cDdaLoop m fuel d count = ddaLoop m fuel d count := by
  intro fuel
  induction fuel with
  | zero => intro d c; rfl
  | succ fuel ih => intro d c; simp only [cDdaLoop, ddaLoop, cDdaFront_eq, ih]

theorem cDdaInsert_eq (m : ℕ) (d : Fin n → Fin n → ℤ) (s : Fin n) : ∀ fs : List (List (Fin n)), cDdaInsert m d s fs = ddaInsert m d s fs := by
  intro fs
  induction fs with
  | nil => rfl
  | cons f fs ih =>
    simp only [cDdaInsert, ddaInsert, ih]
    cases f.any fun sd => decide (d sd s = (m : ℤ)) <;> simp

/-- C120: both versions of the dominance-degree sorting return the same (at least one solution and one objective), for every strategy. -/
theorem C120_dominance_degree (strategy : String) (fuel : ℕ) (F : Fin n → Fin m → α) (b : Fin m → List (Fin n)) (order : List (Fin n)) (hm : 0 < m)
    (hb : ∀ c, b c ≠ []) : cDdaSort strategy fuel F b order = ddaSort strategy fuel F b order := by
  have hd : degreeMatrix F b = some (cDegree F b) := by
    rw [degreeMatrix, degreeLoop_eq F b hb, Option.map_some]
    congr 1
    funext i j
    rw [cDegree, cRemove, cRemove_fold m _ (by exact_mod_cast hm.ne')]
    have : ((i, j) ∈ (List.finRange n).flatMap fun i => ((List.finRange n).filter fun j => decide (i ≤ j)).map fun j => (i, j)) ∨
        ((j, i) ∈ (List.finRange n).flatMap fun i => ((List.finRange n).filter fun j => decide (i ≤ j)).map fun j => (i, j)) := by
      simp only [List.mem_flatMap, List.mem_finRange, true_and, List.mem_map, List.mem_filter, decide_eq_true_eq, Prod.mk.injEq]
      rcases le_total i j with h | h
      · exact Or.inl ⟨i, j, h, rfl, rfl⟩
      · exact Or.inr ⟨j, i, h, rfl, rfl⟩
    simp only [this, true_and]
  have hins : (fun fronts s => cDdaInsert m (cDegree F b) s fronts) = fun fronts s => ddaInsert m (cDegree F b) s fronts := by
    funext f s; exact cDdaInsert_eq _ _ _ _
  unfold cDdaSort ddaSort
  by_cases h1 : strategy = "efficient"
  · subst h1; simp [ddaEns, hd, hins]
  · by_cases h2 : strategy = "fast"
    · subst h2
      simp only [ddaNs, hd, cDdaLoop_eq]
      simp
      cases ddaLoop m fuel (cDegree F b) 0 <;> rfl
    · simp [h1, h2]

example : let F : Fin 4 → Fin 2 → ℤ := ![![2, 2], ![1, 5], ![2, 3], ![1, 5]]
    let b : Fin 2 → List (Fin 4) := ![[1, 3, 2, 0], [0, 2, 3, 1]]
    (∀ c, b c ≠ []) ∧ cDdaSort "fast" 4 F b [] = .ok [[0, 1, 3], [2]] ∧ cDdaSort "efficient" 0 F b [0, 2, 1, 3] = .ok [[0, 1, 3], [2]] := by decide +kernel

end Props
