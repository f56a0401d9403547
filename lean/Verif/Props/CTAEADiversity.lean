import Verif.Props.CTAEA

/-! # C86: C-TAEA's diversity archive; C87: its mating selection -/

set_option linter.unusedSimpArgs false
set_option linter.unusedVariables false
set_option linter.unusedSectionVars false

namespace Props
open Model Spec Lemmas

section Diversity
variable {K : Type*} {m : ℕ} [Field K] [LinearOrder K] [IsStrictOrderedRing K]

/-! ### Specification -/

/-- `0 + 1 + ... + k`. -/
def triangle : ℕ → ℕ
  | 0 => 0
  | k + 1 => triangle k + (k + 1)

/-- `b` is a best one of the individuals that satisfy `P`: nothing there dominates it, and it has the least fitness among those that nothing dominates. -/
def BestNonDominated (F : ℕ → Fin m → K) (fv : ℕ → K) (P : ℕ → Prop) (b : ℕ) : Prop :=
  P b ∧ (∀ q, P q → ¬ Dominates (F q) (F b)) ∧ ∀ q, P q → (∀ r, P r → ¬ Dominates (F r) (F q)) → fv b ≤ fv q

/-- The order in which the archive `S` was filled: each member is a best one of those of its niche that had not been taken before. -/
structure FilledByBest (F : ℕ → Fin m → K) (fv : ℕ → K) (niche : ℕ → ℕ) (nHd n : ℕ) (S : List ℕ) : Prop where
  nodup : S.Nodup
  niches : ∀ p ∈ S, p < nHd ∧ niche p < n
  best : ∀ A b B, S = A ++ b :: B → BestNonDominated F fv (fun q => q < nHd ∧ niche q = niche b ∧ q ∉ A) b

/-! ### The loops -/

theorem concat_split {ι : Type*} {S A B : List ι} {x b : ι} (h : S ++ [x] = A ++ b :: B) : (B = [] ∧ A = S ∧ b = x) ∨ ∃ B', B = B' ++ [x] ∧ S = A ++ b :: B' := by
  rcases List.eq_nil_or_concat B with rfl | ⟨B', y, rfl⟩
  · left
    have := List.append_inj' h (by simp)
    exact ⟨rfl, this.1.symm, by simpa using this.2.symm⟩
  · right
    rw [List.concat_eq_append] at h ⊢
    have h' : S ++ [x] = (A ++ b :: B') ++ [y] := by rw [h]; simp
    have := List.append_inj' h' (by simp)
    have hy : x = y := by simpa using this.2
    exact ⟨B', by rw [hy], this.1⟩

theorem ctaBest_ok (rankF : ∀ n, (Fin n → Fin m → K) → Fin n → ℕ) (hrF : ∀ n F, IsParetoRank (fun i j => Dominates (F i) (F j)) (rankF n F)) (F : ℕ → Fin m → K) (fv : ℕ → K)
    (cur : List ℕ) : (cur = [] → ctaBest rankF F fv cur = none) ∧ (cur ≠ [] → ∃ b, ctaBest rankF F fv cur = some b ∧ BestNonDominated F fv (· ∈ cur) b) := by
  obtain ⟨res, h1, -, h3⟩ := ndsPop_mem rankF hrF F cur
  obtain ⟨a1, a2⟩ := npArgmin_spec fv res
  unfold ctaBest
  rw [h1, Option.bind_some]
  constructor
  · rintro rfl
    refine a1.2 (List.eq_nil_iff_forall_not_mem.2 fun x hx => ?_)
    exact absurd ((h3 x).1 hx).1 (by simp)
  · intro hne
    cases hb : npArgmin fv res with
    | none =>
      exfalso
      have hnil := a1.1 hb
      -- some individual is not dominated
      obtain ⟨all, fr, f1, -, -, -⟩ := ndsList_spec rankF hrF F cur.dedup (List.nodup_dedup _) none
      obtain ⟨f, rest, e1, e2⟩ := frontsOf_first f1 (by simpa [List.dedup_eq_nil] using hne)
      obtain ⟨x, hx⟩ := List.exists_mem_of_ne_nil f (f1.nonempty f (by rw [e1]; simp))
      have := (e2 x).1 hx
      have hxr : x ∈ res := (h3 x).2 ⟨List.mem_dedup.1 this.1, fun y hy => this.2 y (List.mem_dedup.2 hy)⟩
      rw [hnil] at hxr; simp at hxr
    | some b =>
      obtain ⟨b1, b2⟩ := a2 b hb
      obtain ⟨c1, c2⟩ := (h3 b).1 b1
      exact ⟨b, rfl, c1, c2, fun q hq hqn => b2 q ((h3 q).2 ⟨hq, hqn⟩)⟩

variable (best : List ℕ → Option ℕ) (F : ℕ → Fin m → K) (fv : ℕ → K) (niche : ℕ → ℕ) (nHd : ℕ)

/-- The positions of niche `i`. -/
def nicheMembers (niche : ℕ → ℕ) (nHd i : ℕ) : List ℕ := (List.range nHd).filter fun p => decide (niche p = i)

theorem nicheSize_append (S T : List ℕ) (i : ℕ) : nicheSize niche (S ++ T) i = nicheSize niche S i + nicheSize niche T i := by
  unfold nicheSize; rw [List.filter_append, List.length_append]

theorem nicheSize_zero {T : List ℕ} {i : ℕ} (h : ∀ b ∈ T, niche b ≠ i) : nicheSize niche T i = 0 := by
  unfold nicheSize
  rw [List.length_eq_zero_iff, List.filter_eq_nil_iff]
  intro b hb; simpa using h b hb

theorem nicheSize_le_avail {S : List ℕ} (hnd : S.Nodup) (hS : ∀ p ∈ S, p < nHd) (i : ℕ) : nicheSize niche S i ≤ (nicheMembers niche nHd i).length := by
  unfold nicheSize nicheMembers
  refine (List.subperm_of_subset (hnd.filter _) fun p hp => ?_).length_le
  rw [List.mem_filter] at hp ⊢
  exact ⟨List.mem_range.2 (hS p hp.1), hp.2⟩

variable (hbest : ∀ cur, (cur = [] → best cur = none) ∧ (cur ≠ [] → ∃ b, best cur = some b ∧ BestNonDominated F fv (· ∈ cur) b))

include hbest in
theorem ctaTake_ok (n i k : ℕ) (hi : i < n) (S : List ℕ) (hS : FilledByBest F fv niche nHd n S) (hl : S.length ≤ n) :
    ∃ T, ctaTake best (nicheMembers niche nHd i) n k S = S ++ T ∧ FilledByBest F fv niche nHd n (S ++ T) ∧ (∀ b ∈ T, niche b = i) ∧ (S ++ T).length ≤ n ∧
      ((S ++ T).length < n → nicheSize niche (S ++ T) i = min (nicheMembers niche nHd i).length (nicheSize niche S i + k)) := by
  induction k generalizing S with
  | zero =>
    refine ⟨[], by simp [ctaTake], by simpa using hS, by simp, by simpa using hl, fun _ => ?_⟩
    have := nicheSize_le_avail niche nHd hS.nodup (fun p hp => (hS.niches p hp).1) i
    simp; omega
  | succ k ih =>
    have hmem : ∀ q, q ∈ (nicheMembers niche nHd i).filter (fun p => decide (p ∉ S)) ↔ q < nHd ∧ niche q = i ∧ q ∉ S := by
      intro q; rw [List.mem_filter, nicheMembers, List.mem_filter, List.mem_range, decide_eq_true_iff, decide_eq_true_iff, and_assoc]
    unfold ctaTake
    by_cases hcur : (nicheMembers niche nHd i).filter (fun p => decide (p ∉ S)) = []
    · rw [(hbest _).1 hcur]
      refine ⟨[], by simp, by simpa using hS, by simp, by simpa using hl, fun _ => ?_⟩
      have h1 := nicheSize_le_avail niche nHd hS.nodup (fun p hp => (hS.niches p hp).1) i
      have h2 : (nicheMembers niche nHd i).length ≤ nicheSize niche S i := by
        unfold nicheSize
        refine (List.subperm_of_subset (List.nodup_range.filter _) fun q hq => ?_).length_le
        have hq' := List.mem_filter.1 hq
        rw [List.mem_filter]
        refine ⟨?_, hq'.2⟩
        by_contra hqS
        have : q ∈ (nicheMembers niche nHd i).filter (fun p => decide (p ∉ S)) := (hmem q).2 ⟨List.mem_range.1 hq'.1, of_decide_eq_true hq'.2, hqS⟩
        rw [hcur] at this; simp at this
      simp; omega
    · obtain ⟨b, hb1, hb2⟩ := (hbest _).2 hcur
      rw [hb1]
      simp only []
      have hbm := (hmem b).1 hb2.1
      by_cases hlt : S.length < n
      · rw [if_pos hlt]
        have hS' : FilledByBest F fv niche nHd n (S ++ [b]) := by
          refine ⟨?_, ?_, ?_⟩
          · rw [List.nodup_append]
            refine ⟨hS.nodup, by simp, ?_⟩
            intro x hx y hy hxy
            rw [List.mem_singleton] at hy
            exact hbm.2.2 (by rw [← hy, ← hxy]; exact hx)
          · intro p hp
            rcases List.mem_append.1 hp with hp | hp
            · exact hS.niches p hp
            · rw [List.mem_singleton.1 hp]; exact ⟨hbm.1, by rw [hbm.2.1]; exact hi⟩
          · intro A x B h
            rcases concat_split h with ⟨-, rfl, rfl⟩ | ⟨B', -, h'⟩
            · rw [hbm.2.1]
              refine ⟨(hmem x).1 hb2.1, fun q hq => hb2.2.1 q ((hmem q).2 hq), fun q hq hqn => hb2.2.2 q ((hmem q).2 hq) fun r hr => hqn r ((hmem r).1 hr)⟩
            · exact hS.best A x B' h'
        obtain ⟨T, t1, t2, t3, t4, t5⟩ := ih (S ++ [b]) hS' (by rw [List.length_append]; simpa using hlt)
        refine ⟨b :: T, by rw [t1]; simp, by simpa using t2, ?_, by simpa using t4, ?_⟩
        · intro x hx
          rcases List.mem_cons.1 hx with rfl | hx
          · exact hbm.2.1
          · exact t3 x hx
        · intro hlen
          have := t5 (by simpa using hlen)
          rw [nicheSize_append niche S [b]] at this
          have h1 : nicheSize niche [b] i = 1 := by simp [nicheSize, hbm.2.1]
          rw [h1] at this
          have h2 : S ++ b :: T = S ++ [b] ++ T := by simp
          rw [h2, this]; congr 1; omega
      · rw [if_neg hlt]
        obtain ⟨T, t1, t2, t3, t4, t5⟩ := ih S hS hl
        refine ⟨T, t1, t2, t3, t4, fun hlen => ?_⟩
        rw [List.length_append] at hlen; omega

include hbest in
theorem ctaPass_ok (caCount : ℕ → ℕ) (n itr : ℕ) (l : List ℕ) (hl : l.Nodup) (hln : ∀ i ∈ l, i < n) (S : List ℕ) (hS : FilledByBest F fv niche nHd n S) (hSl : S.length ≤ n) :
    ∃ T, l.foldl (fun S i => if caCount i < itr then ctaTake best (nicheMembers niche nHd i) n (itr - caCount i) S else S) S = S ++ T ∧
      FilledByBest F fv niche nHd n (S ++ T) ∧ (∀ b ∈ T, niche b ∈ l ∧ caCount (niche b) < itr) ∧ (S ++ T).length ≤ n ∧
      ((S ++ T).length < n → ∀ i ∈ l, nicheSize niche (S ++ T) i = min (nicheMembers niche nHd i).length (nicheSize niche S i + (itr - caCount i))) := by
  induction l generalizing S with
  | nil => exact ⟨[], by simp, by simpa using hS, by simp, by simpa using hSl, by simp⟩
  | cons a l ih =>
    rw [List.foldl_cons]
    have ha := hln a (by simp)
    obtain ⟨T1, t1, t2, t3, t4, t5, t6⟩ : ∃ T, (if caCount a < itr then ctaTake best (nicheMembers niche nHd a) n (itr - caCount a) S else S) = S ++ T ∧
        FilledByBest F fv niche nHd n (S ++ T) ∧ (∀ b ∈ T, niche b = a) ∧ (∀ b ∈ T, caCount a < itr) ∧ (S ++ T).length ≤ n ∧
        ((S ++ T).length < n → nicheSize niche (S ++ T) a = min (nicheMembers niche nHd a).length (nicheSize niche S a + (itr - caCount a))) := by
      by_cases h : caCount a < itr
      · rw [if_pos h]
        obtain ⟨T, t1, t2, t3, t4, t5⟩ := ctaTake_ok best F fv niche nHd hbest n a (itr - caCount a) ha S hS hSl
        exact ⟨T, t1, t2, t3, fun _ _ => h, t4, t5⟩
      · rw [if_neg h]
        refine ⟨[], by simp, by simpa using hS, by simp, by simp, by simpa using hSl, fun _ => ?_⟩
        have := nicheSize_le_avail niche nHd hS.nodup (fun p hp => (hS.niches p hp).1) a
        simp; omega
    rw [t1]
    obtain ⟨T2, u1, u2, u3, u4, u5⟩ := ih (List.nodup_cons.1 hl).2 (fun i hi => hln i (by simp [hi])) (S ++ T1) t2 t5
    refine ⟨T1 ++ T2, by rw [u1, List.append_assoc], by rw [← List.append_assoc]; exact u2, ?_, by rw [← List.append_assoc]; exact u4, ?_⟩
    · intro b hb
      rcases List.mem_append.1 hb with hb | hb
      · rw [t3 b hb]; exact ⟨by simp, t4 b hb⟩
      · exact ⟨by simp [(u3 b hb).1], (u3 b hb).2⟩
    · rw [← List.append_assoc]
      intro hlen i hi
      rcases List.mem_cons.1 hi with rfl | hi'
      · have hz : nicheSize niche T2 i = 0 := nicheSize_zero niche fun b hb h => (List.nodup_cons.1 hl).1 (by rw [← h]; exact (u3 b hb).1)
        rw [nicheSize_append niche (S ++ T1) T2, hz, Nat.add_zero]
        exact t6 (by rw [List.length_append] at hlen; omega)
      · have hz : nicheSize niche T1 i = 0 := nicheSize_zero niche fun b hb h => (List.nodup_cons.1 hl).1 (by rw [← t3 b hb, h]; exact hi')
        rw [u5 hlen i hi', nicheSize_append niche S T1, hz, Nat.add_zero]

theorem triangle_step (itr c : ℕ) (h : 1 ≤ itr) : triangle (itr - 1 - c) + (itr - c) = triangle (itr - c) := by
  by_cases hc : c < itr
  · obtain ⟨k, hk⟩ : ∃ k, itr - c = k + 1 := ⟨itr - c - 1, by omega⟩
    have : itr - 1 - c = k := by omega
    rw [hk, this, triangle]
  · have h1 : itr - c = 0 := by omega
    have h2 : itr - 1 - c = 0 := by omega
    rw [h1, h2, Nat.add_zero]

theorem triangle_mono {a b : ℕ} (h : a ≤ b) : triangle a ≤ triangle b := by
  induction h with
  | refl => exact le_rfl
  | step _ ih => rw [triangle]; omega

theorem le_triangle (a : ℕ) : a ≤ triangle a := by
  cases a with
  | zero => simp
  | succ a => rw [triangle]; omega

/-- Niches with fewer members in the convergence archive come first: when a member of a niche is taken, every other niche has had its passes. -/
def FairlyFilled (niche : ℕ → ℕ) (nHd : ℕ) (caCount : ℕ → ℕ) (n : ℕ) (S : List ℕ) : Prop :=
  ∀ A b B, S = A ++ b :: B → ∀ i < n, min (nicheMembers niche nHd i).length (triangle (caCount (niche b) - caCount i)) ≤ nicheSize niche A i

/-- What holds before every pass. -/
structure PassInv (caCount : ℕ → ℕ) (n itr : ℕ) (S : List ℕ) : Prop where
  filled : FilledByBest F fv niche nHd n S
  len : S.length ≤ n
  counts : S.length < n → ∀ i < n, nicheSize niche S i = min (nicheMembers niche nHd i).length (triangle (itr - 1 - caCount i))
  fair : FairlyFilled niche nHd caCount n S

include hbest in
theorem ctaPass_inv (caCount : ℕ → ℕ) (n itr : ℕ) (hitr : 1 ≤ itr) (S : List ℕ) (h : PassInv F fv niche nHd caCount n itr S) (hlt : S.length < n) :
    PassInv F fv niche nHd caCount n (itr + 1) (ctaPass best (nicheMembers niche nHd) caCount n itr S) := by
  obtain ⟨T, t1, t2, t3, t4, t5⟩ := ctaPass_ok best F fv niche nHd hbest caCount n itr (List.range n) List.nodup_range (fun i hi => List.mem_range.1 hi) S h.filled h.len
  have hcnt := h.counts hlt
  unfold ctaPass
  rw [t1]
  refine ⟨t2, t4, ?_, ?_⟩
  · intro hlen i hi
    rw [t5 hlen i (List.mem_range.2 hi), hcnt i hi, Nat.add_sub_cancel, ← triangle_step itr (caCount i) hitr]
    omega
  · clear t1 t2 t4 t5
    induction T using List.reverseRecOn with
    | nil => simpa using h.fair
    | append_singleton T x ih =>
      intro A b B hAB i hi
      rw [← List.append_assoc] at hAB
      rcases concat_split hAB with ⟨-, rfl, rfl⟩ | ⟨B', -, h'⟩
      · rw [nicheSize_append, hcnt i hi]
        have := (t3 b (by simp)).2
        have := triangle_mono (show caCount (niche b) - caCount i ≤ itr - 1 - caCount i by omega)
        omega
      · exact ih (fun y hy => t3 y (by simp [hy])) A b B' h' i hi

include hbest in
theorem ctaLoop_ok (caCount : ℕ → ℕ) (n fuel itr : ℕ) (hitr : 1 ≤ itr) (S : List ℕ) (h : PassInv F fv niche nHd caCount n itr S) :
    (∀ R, ctaLoop best (nicheMembers niche nHd) caCount n fuel itr S = some R → FilledByBest F fv niche nHd n R ∧ R.length = n ∧ FairlyFilled niche nHd caCount n R) ∧
    (ctaLoop best (nicheMembers niche nHd) caCount n fuel itr S = none → ∃ R, PassInv F fv niche nHd caCount n (itr + fuel) R ∧ R.length < n) := by
  induction fuel generalizing itr S with
  | zero =>
    unfold ctaLoop
    by_cases hlt : S.length < n
    · rw [if_pos hlt]; exact ⟨by simp, fun _ => ⟨S, h, hlt⟩⟩
    · rw [if_neg hlt]
      refine ⟨fun R hR => ?_, by simp⟩
      cases hR
      exact ⟨h.filled, by have := h.len; omega, h.fair⟩
  | succ f ih =>
    unfold ctaLoop
    by_cases hlt : S.length < n
    · rw [if_pos hlt]
      obtain ⟨a, b⟩ := ih (itr + 1) (by omega) _ (ctaPass_inv best F fv niche nHd hbest caCount n itr hitr S h hlt)
      refine ⟨a, fun hn => ?_⟩
      obtain ⟨R, r1, r2⟩ := b hn
      exact ⟨R, by rw [show itr + (f + 1) = itr + 1 + f by omega]; exact r1, r2⟩
    · rw [if_neg hlt]
      refine ⟨fun R hR => ?_, by simp⟩
      cases hR
      exact ⟨h.filled, by have := h.len; omega, h.fair⟩

theorem passInv_start (caCount : ℕ → ℕ) (n : ℕ) : PassInv F fv niche nHd caCount n 1 [] where
  filled := ⟨by simp, by simp, by intro A b B h; simp at h⟩
  len := by simp
  counts := by intro _ i _; simp [nicheSize, triangle]
  fair := by intro A b B h; simp at h

end Diversity

section Archive
variable {K : Type*} {m : ℕ} [Field K] [LinearOrder K] [IsStrictOrderedRing K]
  (rankF : ∀ n, (Fin n → Fin m → K) → Fin n → ℕ) (hrF : ∀ n F, IsParetoRank (fun i j => Dominates (F i) (F j)) (rankF n F))
  (F : ℕ → Fin m → K) (fv : ℕ → K) (niche : ℕ → ℕ) (nHd : ℕ) (caNiches : List ℕ) (n : ℕ)

include hrF in
/-- C86. When the update of the diversity archive ends, the archive has exactly `n` different members; each of them is, at the moment it is taken, a non-dominated individual with least decomposed
fitness among those of its niche that are left; and niches with fewer members in the convergence archive are served first: whenever an individual is taken whose niche
has `c` members in the convergence archive, a niche with `c - d` members there has had `0 + 1 + ... + d` individuals before, or all it has. -/
theorem C86_archive (fuel : ℕ) (R : List ℕ) (h : ctaUpdateDA rankF F fv niche nHd caNiches n fuel = some R) :
    R.length = n ∧ FilledByBest F fv niche nHd n R ∧ FairlyFilled niche nHd (fun i => caNiches.count i) n R := by
  obtain ⟨a, b, c⟩ := (ctaLoop_ok (ctaBest rankF F fv) F fv niche nHd (ctaBest_ok rankF hrF F fv) (fun i => caNiches.count i) n fuel 1 le_rfl []
    (passInv_start F fv niche nHd _ n)).1 R h
  exact ⟨b, a, c⟩

include hrF in
/-- C86. The update ends (after at most as many passes as both archives have members) if at least `n` individuals belong to the first `n` reference directions. -/
theorem C86_terminates (fuel : ℕ) (hfuel : caNiches.length + n ≤ fuel) (hen : n ≤ ((List.range nHd).filter fun p => decide (niche p < n)).length) :
    ∃ R, ctaUpdateDA rankF F fv niche nHd caNiches n fuel = some R := by
  cases hR : ctaUpdateDA rankF F fv niche nHd caNiches n fuel with
  | some R => exact ⟨R, rfl⟩
  | none =>
    exfalso
    obtain ⟨R, r1, r2⟩ := (ctaLoop_ok (ctaBest rankF F fv) F fv niche nHd (ctaBest_ok rankF hrF F fv) (fun i => caNiches.count i) n fuel 1 le_rfl []
      (passInv_start F fv niche nHd _ n)).2 hR
    have hall : ∀ i < n, nicheSize niche R i = (nicheMembers niche nHd i).length := by
      intro i hi
      have h1 := r1.counts r2 i hi
      have h2 : nicheSize niche R i ≤ R.length := List.length_filter_le _ _
      have h3 : n ≤ triangle (1 + fuel - 1 - caNiches.count i) := by
        have := le_triangle (1 + fuel - 1 - caNiches.count i)
        have := List.count_le_length (a := i) (l := caNiches)
        omega
      omega
    have hsub : ∀ p ∈ (List.range nHd).filter (fun p => decide (niche p < n)), p ∈ R := by
      intro p hp
      obtain ⟨p1, p2⟩ := List.mem_filter.1 hp
      have p2 := of_decide_eq_true p2
      have hperm : (R.filter fun x => decide (niche x = niche p)).Perm (nicheMembers niche nHd (niche p)) := by
        refine (List.subperm_of_subset (r1.filled.nodup.filter _) fun q hq => ?_).perm_of_length_le (hall _ p2).ge
        obtain ⟨q1, q2⟩ := List.mem_filter.1 hq
        exact List.mem_filter.2 ⟨List.mem_range.2 (r1.filled.niches q q1).1, q2⟩
      exact (List.mem_filter.1 (hperm.mem_iff.2 (List.mem_filter.2 ⟨p1, by simp⟩))).1
    have := (List.subperm_of_subset (List.nodup_range.filter _) hsub).length_le
    omega

include hrF in
/-- C86, refuted: the update does not always end. If fewer than `n` individuals belong to the first `n` reference directions, it goes on for ever — so the very first call, in which
`n` is the size of a population that may be smaller than the number of reference directions, hangs as soon as one individual is associated with one of the later directions. -/
theorem C86_terminates_refuted (hen : ((List.range nHd).filter fun p => decide (niche p < n)).length < n) (fuel : ℕ) :
    ctaUpdateDA rankF F fv niche nHd caNiches n fuel = none := by
  cases hR : ctaUpdateDA rankF F fv niche nHd caNiches n fuel with
  | none => rfl
  | some R =>
    exfalso
    obtain ⟨h1, h2, -⟩ := C86_archive rankF hrF F fv niche nHd caNiches n fuel R hR
    have := (List.subperm_of_subset h2.nodup (l₂ := (List.range nHd).filter fun p => decide (niche p < n)) fun p hp =>
      List.mem_filter.2 ⟨List.mem_range.2 (h2.niches p hp).1, by simpa using (h2.niches p hp).2⟩).length_le
    omega

end Archive

/-- Non-vacuity: four individuals in three niches; the convergence archive has a member in niche 1 only, so niches 0 and 2 come first. -/
example : ctaUpdateDA chainRank (fun p => (![![1, 5], ![3, 3], ![2, 6], ![5, 1]] : Fin 4 → Fin 2 → ℚ) (Fin.ofNat 4 p)) (fun p => [4, 6, 3, 5].getD p 0) (fun p => [0, 1, 0, 2].getD p 0) 4
    [1, 1, 1] 3 9 = some [0, 3, 2] := by decide +kernel

/-- Non-vacuity of the refutation: two individuals of a problem with three reference directions, one of them associated with the last direction. -/
example : ((List.range 2).filter fun p => decide (([0, 2] : List ℕ).getD p 0 < 2)).length < 2 := by decide

section Mating
variable {K : Type*} [Field K] [LinearOrder K] [IsStrictOrderedRing K]

/-- C87. A tournament returns one of its two participants; a feasible one beats an infeasible one, of two feasible ones the dominating one wins. -/
theorem C87_compare {m : ℕ} (cv : ℕ → K) (F : ℕ → Fin m → K) (rel : ℕ → ℕ → ℤ) (hrel : ∀ a b, (rel a b = 1 ↔ Dominates (F a) (F b)) ∧ (rel a b = -1 ↔ Dominates (F b) (F a))) (coin : Bool) (a b : ℕ) :
    (ctaCompare cv rel coin a b = a ∨ ctaCompare cv rel coin a b = b) ∧
    ((cv a ≤ 0 ∨ cv b ≤ 0) → cv (ctaCompare cv rel coin a b) ≤ 0) ∧
    (cv a ≤ 0 → cv b ≤ 0 → (Dominates (F a) (F b) → ctaCompare cv rel coin a b = a) ∧ (Dominates (F b) (F a) → ctaCompare cv rel coin a b = b)) := by
  unfold ctaCompare
  by_cases ha : cv a ≤ 0 <;> by_cases hb : cv b ≤ 0
  · simp only [ha, hb, and_self, if_true]
    refine ⟨by split_ifs <;> simp, fun _ => by split_ifs <;> assumption, fun _ _ => ⟨fun h => by rw [if_pos ((hrel a b).1.2 h)], fun h => ?_⟩⟩
    have h1 := (hrel a b).2.2 h
    rw [if_neg (by rw [h1]; decide), if_pos h1]
  · simp [ha, hb]
  · simp [ha, hb]
  · simp only [ha, hb, and_self, if_false]
    refine ⟨by split_ifs <;> simp, fun h => by simp at h, fun h => absurd h (by simp)⟩

/-- C87. Which archive the participants come from. The merged population has the convergence archive in the positions `0 .. nPop - 1` and the diversity archive in `nPop .. 2 nPop - 1`; `x`
is the participant drawn from a permutation of `0 .. nPop - 1`. With two parents per mating, the participants for the first parent come from the diversity archive iff the
convergence archive has no larger share of non-dominated individuals, and those for the second parent of mating `k` iff the random number `pf k` is at least that share. -/
theorem C87_archives (Pc Pd : K) (nPop : ℕ) (pf : ℕ → K) (k x : ℕ) (hx : x < nPop) :
    (let i := x + ctaOffset Pc Pd nPop 2 pf (2 * k); i < 2 * nPop ∧ (nPop ≤ i ↔ Pc ≤ Pd)) ∧
    (let i := x + ctaOffset Pc Pd nPop 2 pf (2 * k + 1); i < 2 * nPop ∧ (nPop ≤ i ↔ Pc ≤ pf k)) := by
  unfold ctaOffset
  have h1 : 2 * k % 2 = 0 := by omega
  have h2 : (2 * k + 1) % 2 = 1 := by omega
  have h3 : (2 * k + 1) / 2 = k := by omega
  simp only [h1, h2, h3]
  constructor
  · by_cases h : Pc ≤ Pd <;> simp [h] <;> omega
  · by_cases h : Pc ≤ pf k <;> simp [h] <;> omega

/-- C87. The shares are the fractions of the merged population that are non-dominated and belong to one or the other archive; together they are at most one. -/
theorem C87_shares (rank : ℕ → ℕ) (len : ℕ) (hlen : 0 < len) :
    0 ≤ (ctaShares (K := K) rank len).1 ∧ 0 ≤ (ctaShares (K := K) rank len).2 ∧
    ((ctaShares (K := K) rank len).1 + (ctaShares (K := K) rank len).2) * len = (((List.range len).filter fun i => decide (rank i = 0)).length : K) ∧
    (ctaShares (K := K) rank len).1 + (ctaShares (K := K) rank len).2 ≤ 1 := by
  have hl : (0 : K) < len := by exact_mod_cast hlen
  have hsplit : ((List.range len).filter fun i => decide (rank i = 0)).length =
      ((List.range (len / 2)).filter fun i => decide (rank i = 0)).length + ((List.range (len - len / 2)).filter fun i => decide (rank (len / 2 + i) = 0)).length := by
    have : List.range len = List.range (len / 2) ++ (List.range (len - len / 2)).map (len / 2 + ·) := by
      rw [← List.range_add]; congr 1; omega
    conv_lhs => rw [this]
    rw [List.filter_append, List.length_append, List.filter_map, List.length_map]
    rfl
  have heq : ((ctaShares (K := K) rank len).1 + (ctaShares (K := K) rank len).2) * len = (((List.range len).filter fun i => decide (rank i = 0)).length : K) := by
    unfold ctaShares
    simp only []
    rw [← add_div, div_mul_cancel₀ _ hl.ne', hsplit]
    push_cast; rfl
  refine ⟨by unfold ctaShares; positivity, by unfold ctaShares; positivity, heq, ?_⟩
  have hle : (((List.range len).filter fun i => decide (rank i = 0)).length : K) ≤ len := by
    have := List.length_filter_le (fun i => decide (rank i = 0)) (List.range len)
    rw [List.length_range] at this
    exact_mod_cast this
  rw [← heq] at hle
  by_contra hc
  have := mul_lt_mul_of_pos_right (not_le.1 hc) hl
  linarith

/-- Non-vacuity. -/
example : ctaCompare (fun i => ([0, 1] : List ℚ).getD i 0) (fun _ _ => 0) false 0 1 = 0 ∧
    ctaShares (K := ℚ) (fun i => [0, 0, 1, 0].getD i 0) 4 = (1 / 2, 1 / 4) ∧ ctaOffset (1 / 2 : ℚ) (1 / 4) 2 2 (fun _ => 3 / 4) 1 = 2 := by decide +kernel

end Mating
end Props
