import Verif.Lemmas.CTAEA
import Verif.Lemmas.Optimum
import Mathlib.Tactic.Linarith
import Mathlib.Data.List.Induction
import Verif.Lemmas.ChainRank
import Verif.Props.Decomposition
import Mathlib.Data.Fin.VecNotation

/-! # C85: C-TAEA's convergence archive -/

set_option linter.unusedSimpArgs false
set_option linter.unusedVariables false
set_option linter.unusedSectionVars false

namespace Props
open Model Spec Lemmas

section Trim
variable {ι K : Type*} [Field K] [LinearOrder K] [IsStrictOrderedRing K]

/-! ### Specification of the trimming -/

/-- How many of `s` lie in niche `k`. -/
def nicheSize (niche : ι → ℕ) (s : List ι) (k : ℕ) : ℕ := (s.filter fun x => decide (niche x = k)).length

/-- `w` may leave its niche: it has the worst fitness there, or it is the worse one of two of its closest members. -/
def MayLeave (niche : ι → ℕ) (fv : ι → K) (dist : ι → ι → K) (s : List ι) (w : ι) : Prop :=
  w ∈ s ∧ ((∀ q ∈ s, niche q = niche w → fv q ≤ fv w) ∨
    ∃ v ∈ s, v ≠ w ∧ niche v = niche w ∧ fv v ≤ fv w ∧
      ∀ p ∈ s, ∀ q ∈ s, p ≠ q → niche p = niche w → niche q = niche w → dist w v ≤ dist p q)

/-- `g` arises from `s` by removing one individual at a time from a niche with the most individuals, where no other of the most crowded niches proposes a worse one. -/
inductive NicheRemoval (niche : ι → ℕ) (fv : ι → K) (dist : ι → ι → K) : List ι → List ι → Prop
  | done (s) : NicheRemoval niche fv dist s s
  | step (A B g : List ι) (w : ι) (hw : MayLeave niche fv dist (A ++ w :: B) w)
      (hmax : ∀ k, nicheSize niche (A ++ w :: B) k ≤ nicheSize niche (A ++ w :: B) (niche w))
      (hworst : ∀ k, nicheSize niche (A ++ w :: B) k = nicheSize niche (A ++ w :: B) (niche w) →
        ∃ c, MayLeave niche fv dist (A ++ w :: B) c ∧ niche c = k ∧ fv c ≤ fv w)
      (h : NicheRemoval niche fv dist (A ++ B) g) : NicheRemoval niche fv dist (A ++ w :: B) g

/-! ### Consequences -/

theorem NicheRemoval.sublist {niche : ι → ℕ} {fv : ι → K} {dist : ι → ι → K} {s g : List ι} (h : NicheRemoval niche fv dist s g) : g.Sublist s := by
  induction h with
  | done s => exact List.Sublist.refl _
  | step A B g w _ _ _ _ ih => exact ih.trans ((List.sublist_cons_self w B).append_left A)

theorem nicheSize_sublist (niche : ι → ℕ) {s g : List ι} (h : g.Sublist s) (k : ℕ) : nicheSize niche g k ≤ nicheSize niche s k :=
  (h.filter _).length_le

theorem nicheSize_remove (niche : ι → ℕ) (A B : List ι) (w : ι) (k : ℕ) :
    nicheSize niche (A ++ w :: B) k = nicheSize niche (A ++ B) k + if niche w = k then 1 else 0 := by
  unfold nicheSize
  rw [List.filter_append, List.filter_append, List.filter_cons]
  split_ifs with h1 h2 h2 <;> simp at * <;> first | omega | exact absurd h1 h2 | exact absurd h2 h1 | skip

/-- A niche that lost somebody is at most one individual smaller than any other niche at the end. -/
theorem NicheRemoval.balanced {niche : ι → ℕ} {fv : ι → K} {dist : ι → ι → K} {s g : List ι} (h : NicheRemoval niche fv dist s g) :
    ∀ k, nicheSize niche g k < nicheSize niche s k → ∀ j, nicheSize niche g j ≤ nicheSize niche g k + 1 := by
  induction h with
  | done s => intro k hk; exact absurd hk (lt_irrefl _)
  | step A B g w _ hmax _ hg ih =>
    intro k hk j
    by_cases h1 : nicheSize niche g k < nicheSize niche (A ++ B) k
    · exact ih k h1 j
    · have h2 := nicheSize_remove niche A B w k
      have h3 : niche w = k := by by_contra hne; rw [if_neg hne] at h2; omega
      have h4 := hmax j
      have h5 := nicheSize_sublist niche (hg.sublist.trans ((List.sublist_cons_self w B).append_left A)) j
      rw [if_pos h3] at h2
      rw [h3] at h4
      omega

/-! ### The loop -/

theorem ctaArgmax_spec (f : ι → K) (l : List ι) (hl : l ≠ []) : ∃ x, ctaArgmax f l = some x ∧ x ∈ l ∧ ∀ y ∈ l, f y ≤ f x := by
  cases l with
  | nil => exact absurd rfl hl
  | cons a xs =>
    clear hl
    refine ⟨_, rfl, ?_⟩
    induction xs using List.reverseRecOn with
    | nil => simp
    | append_singleton xs b ih =>
      rw [List.foldl_append, List.foldl_cons, List.foldl_nil]
      obtain ⟨h1, h2⟩ := ih
      split_ifs with h
      · refine ⟨by simp, fun y hy => ?_⟩
        rcases List.mem_cons.1 hy with rfl | hy
        · exact (h2 _ (by simp)).trans h.le
        · rcases List.mem_append.1 hy with hy | hy
          · exact (h2 y (List.mem_cons_of_mem _ hy)).trans h.le
          · rw [List.mem_singleton.1 hy]
      · refine ⟨?_, fun y hy => ?_⟩
        · rcases List.mem_cons.1 h1 with h1 | h1
          · rw [h1]; simp
          · exact List.mem_cons_of_mem _ (List.mem_append_left _ h1)
        · rcases List.mem_cons.1 hy with rfl | hy
          · exact h2 _ (by simp)
          · rcases List.mem_append.1 hy with hy | hy
            · exact h2 y (List.mem_cons_of_mem _ hy)
            · rw [List.mem_singleton.1 hy]; exact not_lt.1 h

theorem foldl_min_top (f : ℕ → K) (l : List ℕ) (a : WithTop K) : l.foldl (fun (a : WithTop K) j => min a (f j : K)) a ≤ a ∧
    ∀ j ∈ l, l.foldl (fun (a : WithTop K) j => min a (f j : K)) a ≤ (f j : K) := by
  induction l generalizing a with
  | nil => simp
  | cons b l ih =>
    rw [List.foldl_cons]
    obtain ⟨h1, h2⟩ := ih (min a (f b : K))
    refine ⟨h1.trans (min_le_left _ _), fun j hj => ?_⟩
    rcases List.mem_cons.1 hj with rfl | hj
    · exact h1.trans (min_le_right _ _)
    · exact h2 j hj

theorem ctaCandidate_ok (niche : ℕ → ℕ) (fv : ℕ → K) (dist : ℕ → ℕ → K) (hsym : ∀ p q, dist p q = dist q p) (surv : List ℕ) (ni : ℕ) (coin : Bool)
    (hne : surv.filter (fun p => decide (niche p = ni)) ≠ []) :
    ∃ w, ctaCandidate fv dist surv (surv.filter fun p => decide (niche p = ni)) coin = some w ∧ niche w = ni ∧ MayLeave niche fv dist surv w := by
  generalize hcr : surv.filter (fun p => decide (niche p = ni)) = crowd at hne ⊢
  have hmem : ∀ p, p ∈ crowd ↔ p ∈ surv ∧ niche p = ni := by intro p; rw [← hcr]; simp
  obtain ⟨w, hw1, hw2, hw3⟩ := ctaArgmax_spec fv crowd hne
  have hwl : niche w = ni ∧ MayLeave niche fv dist surv w := by
    obtain ⟨a, b⟩ := (hmem w).1 hw2
    exact ⟨b, a, Or.inl fun q hq hn => hw3 q ((hmem q).2 ⟨hq, hn.trans b⟩)⟩
  unfold ctaCandidate
  rw [hw1]
  simp only [Option.bind_some]
  generalize hminD : (surv.filter fun j => decide (j ≠ w)).foldl (fun (a : WithTop K) j => min a (dist w j : K)) ⊤ = minD
  generalize hd : (fun e : ℕ × ℕ => if e.1 = e.2 then (⊤ : WithTop K) else ((dist e.1 e.2 : K) : WithTop K)) = d
  obtain ⟨a1, a2⟩ := npArgmin_spec d (crowd.flatMap fun p => crowd.map fun q => (p, q))
  cases he : npArgmin d (crowd.flatMap fun p => crowd.map fun q => (p, q)) with
  | none =>
    have := a1.1 he
    have hm : (w, w) ∈ crowd.flatMap fun p => crowd.map fun q => (p, q) := by
      rw [List.mem_flatMap]; exact ⟨w, hw2, List.mem_map.2 ⟨w, hw2, rfl⟩⟩
    rw [this] at hm; simp at hm
  | some e =>
    obtain ⟨e1, e2⟩ := a2 e he
    have hin : ∀ p q, (p, q) ∈ (crowd.flatMap fun p => crowd.map fun q => (p, q)) ↔ p ∈ crowd ∧ q ∈ crowd := by
      intro p q
      rw [List.mem_flatMap]
      constructor
      · rintro ⟨a, ha, h⟩
        obtain ⟨b, hb, h⟩ := List.mem_map.1 h
        cases h; exact ⟨ha, hb⟩
      · rintro ⟨ha, hb⟩; exact ⟨p, ha, List.mem_map.2 ⟨q, hb, rfl⟩⟩
    obtain ⟨x, y⟩ := e
    obtain ⟨hx, hy⟩ := (hin x y).1 e1
    have hle : ∀ p ∈ crowd, ∀ q ∈ crowd, d (x, y) ≤ d (p, q) := fun p hp q hq => e2 (p, q) ((hin p q).2 ⟨hp, hq⟩)
    have pair : ∀ a b, (a = x ∧ b = y ∨ a = y ∧ b = x) → fv b ≤ fv a → d (x, y) ≤ minD → niche a = ni ∧ MayLeave niche fv dist surv a := by
      intro a b hab hfab hdm
      by_cases hxy : x = y
      · have htop : d (x, y) = ⊤ := by rw [← hd]; simp [hxy]
        rw [htop, top_le_iff] at hdm
        have hall : ∀ j ∈ surv, j = w := by
          intro j hj
          by_contra hjw
          have := (foldl_min_top (fun j => dist w j) (surv.filter fun j => decide (j ≠ w)) ⊤).2 j (by simp [hj, hjw])
          rw [hminD, hdm, top_le_iff] at this
          exact WithTop.coe_ne_top this
        have haw : a = w := by
          rcases hab with ⟨rfl, -⟩ | ⟨rfl, -⟩
          · exact hall _ ((hmem _).1 hx).1
          · exact hall _ ((hmem _).1 hy).1
        rw [haw]; exact hwl
      · have hab' : a ∈ crowd ∧ b ∈ crowd ∧ b ≠ a ∧ dist a b = dist x y := by
          rcases hab with ⟨rfl, rfl⟩ | ⟨rfl, rfl⟩
          · exact ⟨hx, hy, fun h => hxy h.symm, rfl⟩
          · exact ⟨hy, hx, hxy, hsym _ _⟩
        obtain ⟨ha, hb, hne', hdist⟩ := hab'
        obtain ⟨ha1, ha2⟩ := (hmem a).1 ha
        obtain ⟨hb1, hb2⟩ := (hmem b).1 hb
        refine ⟨ha2, ha1, Or.inr ⟨b, hb1, hne', hb2.trans ha2.symm, hfab, fun p hp q hq hpq h1 h2 => ?_⟩⟩
        have := hle p ((hmem p).2 ⟨hp, h1.trans ha2⟩) q ((hmem q).2 ⟨hq, h2.trans ha2⟩)
        rw [← hd] at this
        simp only [hxy, hpq, if_false, WithTop.coe_le_coe] at this
        rw [hdist]; exact this
    simp only [Option.bind_some]
    have hdxy : d (x, y) = if x = y then (⊤ : WithTop K) else ((dist x y : K) : WithTop K) := by rw [← hd]
    rw [← hdxy]
    have hdm : (d (x, y) < minD ∨ (d (x, y) = minD ∧ ((w : K) < fv x ∨ (w : K) < fv y))) → d (x, y) ≤ minD := by
      rintro (h | h)
      · exact h.le
      · exact h.1.le
    by_cases hc : d (x, y) < minD ∨ (d (x, y) = minD ∧ ((w : K) < fv x ∨ (w : K) < fv y))
    · rw [if_pos hc]
      cases coin
      · by_cases hcmp : fv x < fv y
        · exact ⟨y, by simp [hcmp], pair y x (Or.inr ⟨rfl, rfl⟩) hcmp.le (hdm hc)⟩
        · exact ⟨x, by simp [hcmp], pair x y (Or.inl ⟨rfl, rfl⟩) (not_lt.1 hcmp) (hdm hc)⟩
      · by_cases hcmp : fv y < fv x
        · exact ⟨x, by simp [hcmp], pair x y (Or.inl ⟨rfl, rfl⟩) hcmp.le (hdm hc)⟩
        · exact ⟨y, by simp [hcmp], pair y x (Or.inr ⟨rfl, rfl⟩) (not_lt.1 hcmp) (hdm hc)⟩
    · rw [if_neg hc]
      exact ⟨w, rfl, hwl⟩

theorem ctaWorse_fold (fv : ℕ → K) (cand : ℕ → Option ℕ) (C : List ℕ) (st : Option (ℕ × ℕ) × K) :
    st.2 ≤ (C.foldl (ctaWorse fv cand) st).2 ∧ (∀ k ∈ C, ∀ c, cand k = some c → fv c ≤ (C.foldl (ctaWorse fv cand) st).2) ∧
      (C.foldl (ctaWorse fv cand) st = st ∨ ∃ k ∈ C, ∃ w, cand k = some w ∧ C.foldl (ctaWorse fv cand) st = (some (w, k), fv w)) := by
  induction C generalizing st with
  | nil => simp
  | cons a C ih =>
    rw [List.foldl_cons]
    have hst : st.2 ≤ (ctaWorse fv cand st a).2 ∧ (∀ c, cand a = some c → fv c ≤ (ctaWorse fv cand st a).2) ∧
        (ctaWorse fv cand st a = st ∨ ∃ w, cand a = some w ∧ ctaWorse fv cand st a = (some (w, a), fv w)) := by
      unfold ctaWorse
      cases hca : cand a with
      | none => exact ⟨le_rfl, by simp, Or.inl rfl⟩
      | some w =>
        by_cases h : st.2 < fv w
        · simp only [if_pos h]
          exact ⟨h.le, fun c hc => by cases hc; exact le_rfl, Or.inr ⟨w, rfl, rfl⟩⟩
        · simp only [if_neg h]
          exact ⟨le_rfl, fun c hc => by cases hc; exact not_lt.1 h, by simp⟩
    obtain ⟨s1, s2, s3⟩ := hst
    obtain ⟨i1, i2, i3⟩ := ih (ctaWorse fv cand st a)
    refine ⟨s1.trans i1, ?_, ?_⟩
    · intro k hk c hc
      rcases List.mem_cons.1 hk with rfl | hk
      · exact (s2 c hc).trans i1
      · exact i2 k hk c hc
    · rcases i3 with i3 | ⟨k, hk, w, hw, i3⟩
      · rw [i3]
        rcases s3 with s3 | ⟨w, hw, s3⟩
        · left; exact s3
        · right; exact ⟨a, by simp, w, hw, s3⟩
      · right; exact ⟨k, by simp [hk], w, hw, i3⟩

theorem ctaRound_ok (niche : ℕ → ℕ) (fv : ℕ → K) (dist : ℕ → ℕ → K) (hsym : ∀ p q, dist p q = dist q p) (index : List ℕ) (coin : ℕ → Bool) (surv : List ℕ)
    (hne : surv ≠ []) (hidx : ∀ p ∈ surv, niche p ∈ index) (hfv : ∀ p ∈ surv, -1 < fv p) :
    ∃ w, ctaRound niche fv dist index coin surv (nicheSize niche surv) = some (w, niche w) ∧ MayLeave niche fv dist surv w ∧
      (∀ k, nicheSize niche surv k ≤ nicheSize niche surv (niche w)) ∧
      (∀ k, nicheSize niche surv k = nicheSize niche surv (niche w) → ∃ c, MayLeave niche fv dist surv c ∧ niche c = k ∧ fv c ≤ fv w) := by
  have hpos : ∀ k, 0 < nicheSize niche surv k → surv.filter (fun p => decide (niche p = k)) ≠ [] := by
    intro k hk h; unfold nicheSize at hk; rw [h] at hk; simp at hk
  obtain ⟨p0, hp0⟩ := List.exists_mem_of_ne_nil _ hne
  have hp0c : 0 < nicheSize niche surv (niche p0) := List.length_pos_of_mem (List.mem_filter.2 ⟨hp0, by simp⟩)
  obtain ⟨-, m2, m3⟩ := foldl_max_spec (index.map (nicheSize niche surv)) 0
  unfold ctaRound
  simp only []
  generalize hmx : (index.map (nicheSize niche surv)).foldl max 0 = mx at m2 m3 ⊢
  have hmxpos : 0 < mx := lt_of_lt_of_le hp0c (m2 _ (List.mem_map_of_mem (hidx p0 hp0)))
  have hle : ∀ k, nicheSize niche surv k ≤ mx := by
    intro k
    by_cases hk : 0 < nicheSize niche surv k
    · obtain ⟨q, hq⟩ := List.exists_mem_of_ne_nil _ (hpos k hk)
      obtain ⟨hq1, hq2⟩ := List.mem_filter.1 hq
      have := hidx q hq1
      rw [of_decide_eq_true hq2] at this
      exact m2 _ (List.mem_map_of_mem this)
    · omega
  obtain ⟨k0, hk0, hk0m⟩ := List.mem_map.1 (m3.resolve_left (by omega))
  have hcand : ∀ k, nicheSize niche surv k = mx → ∃ w, ctaCandidate fv dist surv (surv.filter fun p => decide (niche p = k)) (coin k) = some w ∧
      niche w = k ∧ MayLeave niche fv dist surv w := fun k hk => ctaCandidate_ok niche fv dist hsym surv k (coin k) (hpos k (by omega))
  obtain ⟨f1, f2, f3⟩ := ctaWorse_fold fv (fun ni => ctaCandidate fv dist surv (surv.filter fun p => decide (niche p = ni)) (coin ni))
    (index.filter fun ni => decide (nicheSize niche surv ni = mx)) (none, -1)
  rcases f3 with f3 | ⟨k, hk, w, hw, f3⟩
  · exfalso
    obtain ⟨c, c1, c2, c3⟩ := hcand k0 hk0m
    have := f2 k0 (List.mem_filter.2 ⟨hk0, by simp [hk0m]⟩) c c1
    rw [f3] at this
    exact absurd (hfv c c3.1) (not_lt.2 this)
  · have hkm : nicheSize niche surv k = mx := of_decide_eq_true (List.mem_filter.1 hk).2
    obtain ⟨w', w1, w2, w3⟩ := hcand k hkm
    have : w' = w := by rw [w1] at hw; exact Option.some.inj hw
    subst this
    refine ⟨w', ?_, w3, ?_, ?_⟩
    · rw [f3, w2]
    · intro j; rw [w2, hkm]; exact hle j
    · intro j hj
      rw [w2, hkm] at hj
      obtain ⟨c, c1, c2, c3⟩ := hcand j hj
      refine ⟨c, c3, c2, ?_⟩
      have hjm : j ∈ index := c2 ▸ hidx c c3.1
      have := f2 j (List.mem_filter.2 ⟨hjm, by simp [hj]⟩) c c1
      rw [f3] at this
      exact this

theorem nodup_filter_ne {A B : List ℕ} {w : ℕ} (h : (A ++ w :: B).Nodup) : (A ++ w :: B).filter (fun p => decide (p ≠ w)) = A ++ B := by
  have h1 : w ∉ A ∧ w ∉ B := by
    rw [List.nodup_append] at h
    refine ⟨fun hA => h.2.2 w hA w (by simp) rfl, (List.nodup_cons.1 h.2.1).1⟩
  rw [List.filter_append, List.filter_cons, if_neg (by simp)]
  congr 1
  · exact List.filter_eq_self.2 fun a ha => by simp; rintro rfl; exact h1.1 ha
  · exact List.filter_eq_self.2 fun a ha => by simp; rintro rfl; exact h1.2 ha

theorem ctaTrim_ok (niche : ℕ → ℕ) (fv : ℕ → K) (dist : ℕ → ℕ → K) (hsym : ∀ p q, dist p q = dist q p) (index : List ℕ) (coins : ℕ → ℕ → Bool) (n fuel : ℕ)
    (surv : List ℕ) (hnd : surv.Nodup) (hn : n ≤ surv.length) (hidx : ∀ p ∈ surv, niche p ∈ index) (hfv : ∀ p ∈ surv, -1 < fv p) (hfuel : surv.length - n ≤ fuel) :
    NicheRemoval niche fv dist surv (ctaTrim niche fv dist index coins n fuel surv (nicheSize niche surv)) ∧
      (ctaTrim niche fv dist index coins n fuel surv (nicheSize niche surv)).length = n := by
  induction fuel generalizing surv with
  | zero => exact ⟨NicheRemoval.done _, by unfold ctaTrim; omega⟩
  | succ f ih =>
    unfold ctaTrim
    by_cases hl : n < surv.length
    · rw [if_pos hl]
      obtain ⟨w, h1, h2, h3, h4⟩ := ctaRound_ok niche fv dist hsym index (coins f) surv (by rintro rfl; simp at hl) hidx hfv
      rw [h1]
      simp only []
      obtain ⟨A, B, rfl⟩ := List.append_of_mem h2.1
      rw [nodup_filter_ne hnd]
      have hcnt : (fun k => if k = niche w then nicheSize niche (A ++ w :: B) k - 1 else nicheSize niche (A ++ w :: B) k) = nicheSize niche (A ++ B) := by
        funext k
        have := nicheSize_remove niche A B w k
        by_cases hk : k = niche w
        · rw [if_pos hk.symm] at this; rw [if_pos hk]; omega
        · rw [if_neg (Ne.symm hk)] at this; rw [if_neg hk]; omega
      rw [hcnt]
      have hsub : (A ++ B).Sublist (A ++ w :: B) := (List.sublist_cons_self w B).append_left A
      have hlen : (A ++ w :: B).length = (A ++ B).length + 1 := by simp; omega
      obtain ⟨i1, i2⟩ := ih (A ++ B) (hnd.sublist hsub) (by omega) (fun p hp => hidx p (hsub.subset hp)) (fun p hp => hfv p (hsub.subset hp)) (by omega)
      exact ⟨NicheRemoval.step A B _ w h2 h3 h4 i1, i2⟩
    · rw [if_neg hl]
      exact ⟨NicheRemoval.done _, by omega⟩

/-- Positions replaced by the individuals there. -/
theorem NicheRemoval.map {κ : Type*} {niche : κ → ℕ} {fv : κ → K} {dist : κ → κ → K} {niche' : ι → ℕ} {fv' : ι → K} {dist' : ι → ι → K} (φ : κ → ι) {s g : List κ}
    (h : NicheRemoval niche fv dist s g) (hinj : ∀ p ∈ s, ∀ q ∈ s, φ p = φ q → p = q) (hn : ∀ p ∈ s, niche' (φ p) = niche p) (hf : ∀ p ∈ s, fv' (φ p) = fv p)
    (hd : ∀ p ∈ s, ∀ q ∈ s, dist' (φ p) (φ q) = dist p q) : NicheRemoval niche' fv' dist' (s.map φ) (g.map φ) := by
  have hsize : ∀ (s : List κ), (∀ p ∈ s, niche' (φ p) = niche p) → ∀ k, nicheSize niche' (s.map φ) k = nicheSize niche s k := by
    intro s hs k
    unfold nicheSize
    rw [List.filter_map, List.length_map]
    congr 1
    exact List.filter_congr fun p hp => by simp [hs p hp]
  have hleave : ∀ (s : List κ), (∀ p ∈ s, ∀ q ∈ s, φ p = φ q → p = q) → (∀ p ∈ s, niche' (φ p) = niche p) → (∀ p ∈ s, fv' (φ p) = fv p) →
      (∀ p ∈ s, ∀ q ∈ s, dist' (φ p) (φ q) = dist p q) → ∀ w, MayLeave niche fv dist s w → MayLeave niche' fv' dist' (s.map φ) (φ w) := by
    intro s hinj hn hf hd w hw
    obtain ⟨hws, hw⟩ := hw
    refine ⟨List.mem_map_of_mem hws, ?_⟩
    rcases hw with hw | ⟨v, hv, hne, hvn, hvf, hmin⟩
    · left
      intro q hq
      obtain ⟨q, hq', rfl⟩ := List.mem_map.1 hq
      rw [hn q hq', hn w hws, hf q hq', hf w hws]
      exact hw q hq'
    · right
      refine ⟨φ v, List.mem_map_of_mem hv, fun h => hne (hinj v hv w hws h), by rw [hn v hv, hn w hws, hvn], by rw [hf v hv, hf w hws]; exact hvf, ?_⟩
      intro p hp q hq
      obtain ⟨p, hp', rfl⟩ := List.mem_map.1 hp
      obtain ⟨q, hq', rfl⟩ := List.mem_map.1 hq
      rw [hn p hp', hn q hq', hn w hws, hd w hws v hv, hd p hp' q hq']
      intro hpq h1 h2
      exact hmin p hp' q hq' (fun h => hpq (by rw [h])) h1 h2
  induction h with
  | done s => exact NicheRemoval.done _
  | step A B g w hw hmax hworst hg ih =>
    have hsub : ∀ p ∈ A ++ B, p ∈ A ++ w :: B := ((List.sublist_cons_self w B).append_left A).subset
    have hws : w ∈ A ++ w :: B := by simp
    have hmap : (A ++ w :: B).map φ = A.map φ ++ φ w :: B.map φ := by simp
    have hL := hleave (A ++ w :: B) hinj hn hf hd
    have hS := hsize (A ++ w :: B) hn
    rw [hmap] at hL hS ⊢
    refine NicheRemoval.step (A.map φ) (B.map φ) _ (φ w) (hL w hw) ?_ ?_ ?_
    · intro k; rw [hS, hS, hn w hws]; exact hmax k
    · intro k hk
      rw [hS, hS, hn w hws] at hk
      obtain ⟨c, c1, c2, c3⟩ := hworst k hk
      exact ⟨φ c, hL c c1, by rw [hn c c1.1, c2], by rw [hf c c1.1, hf w hws]; exact c3⟩
    · rw [← List.map_append]
      exact ih (fun p hp q hq => hinj p (hsub p hp) q (hsub q hq)) (fun p hp => hn p (hsub p hp)) (fun p hp => hf p (hsub p hp))
        (fun p hp q hq => hd p (hsub p hp) q (hsub q hq))

end Trim

section Convergence
variable {ι K : Type*} {m : ℕ} [Field K] [LinearOrder K] [IsStrictOrderedRing K]

/-- The contract of `np.argsort`, as a function of the elements. -/
def Argsorts (argsort : (ι → K) → List ι → List ι) : Prop := ∀ f L, (argsort f L).Perm L ∧ (argsort f L).Pairwise fun a b => f a ≤ f b

theorem ctaFill_split (argsort : (ι → K) → List ι → List ι) (hs : Argsorts argsort) (cv : ι → K) (r : ℕ) (p : List (List ι)) (last : List ι) (hp : p.flatten.length ≤ r)
    (hr : r ≤ p.flatten.length + last.length) : ∃ kept, ctaFill argsort cv r (p ++ [last]) = p.flatten ++ kept ∧ kept.length = r - p.flatten.length ∧
      (∃ dropped, last.Perm (kept ++ dropped) ∧ ∀ a ∈ kept, ∀ b ∈ dropped, cv a ≤ cv b) := by
  have hfit : ∀ (p : List (List ι)) (I : List ι), I.length + p.flatten.length ≤ r →
      p.foldl (fun I front => if I.length + front.length ≤ r then I ++ front else I ++ (argsort cv front).take (r - I.length)) I = I ++ p.flatten := by
    intro p
    induction p with
    | nil => simp
    | cons f p ih =>
      intro I hI
      rw [List.flatten_cons, List.length_append] at hI
      rw [List.foldl_cons, if_pos (by omega), ih (I ++ f) (by rw [List.length_append]; omega), List.flatten_cons, List.append_assoc]
  unfold ctaFill
  rw [List.foldl_append, hfit p [] (by simpa using hp), List.nil_append, List.foldl_cons, List.foldl_nil]
  split_ifs with h
  · exact ⟨last, rfl, by omega, [], by simp, by simp⟩
  · obtain ⟨h1, h2⟩ := hs cv last
    refine ⟨_, rfl, by rw [List.length_take, h1.length_eq]; omega, (argsort cv last).drop (r - p.flatten.length), by rw [List.take_append_drop]; exact h1.symm, ?_⟩
    rw [← List.take_append_drop (r - p.flatten.length) (argsort cv last), List.pairwise_append] at h2
    exact h2.2.2

variable (rankF : ∀ n, (Fin n → Fin m → K) → Fin n → ℕ) (hrF : ∀ n F, IsParetoRank (fun i j => Dominates (F i) (F j)) (rankF n F))
  (rank2 : ∀ n, (Fin n → Fin 2 → K) → Fin n → ℕ) (hr2 : ∀ n F, IsParetoRank (fun i j => Dominates (F i) (F j)) (rank2 n F))
  (argsort : (ι → K) → List ι → List ι) (hs : Argsorts argsort) (F : ι → Fin m → K) (cv fv : ι → K) (niche : ι → ℕ) (dist : ι → ι → K) (coins : ℕ → ℕ → Bool)

/-- The feasible individuals of a population. -/
def feasibles (cv : ι → K) (pop : List ι) : List ι := pop.filter fun i => decide (cv i = 0)

/-- The infeasible individuals of a population. -/
def infeasibles (cv : ι → K) (pop : List ι) : List ι := pop.filter fun i => decide (0 < cv i)

include hrF hr2 hs in
/-- C85. Too few feasible individuals: all of them are kept, and the places left are filled front by front, where an infeasible individual is better than another one if it is
no worse in constraint violation and decomposed fitness; of the last front those with the least constraint violation are taken. The reported optima are the survivors that no
survivor dominates. -/
theorem C85_fill (pop : List ι) (n : ℕ) (hnd : pop.Nodup) (hcv : ∀ i ∈ pop, 0 ≤ cv i) (hn : n ≤ pop.length) (hf : (feasibles cv pop).length < n) :
    ∃ S opt all p last rest kept dropped, ctaUpdateCA rankF rank2 argsort F cv fv niche dist coins pop n = some (S, opt) ∧
      S = feasibles cv pop ++ p.flatten ++ kept ∧ S.length = n ∧ S.Nodup ∧
      FrontsOf (fun x y => Dominates ![cv x, fv x] ![cv y, fv y]) (infeasibles cv pop) all ∧ all = p ++ last :: rest ∧
      last.Perm (kept ++ dropped) ∧ (∀ a ∈ kept, ∀ b ∈ dropped, cv a ≤ cv b) ∧
      (∀ x, x ∈ opt ↔ x ∈ S ∧ ∀ y ∈ S, ¬ Dominates (F y) (F x)) := by
  have hpart : (feasibles cv pop).length + (infeasibles cv pop).length = pop.length := by
    have h1 : infeasibles cv pop = pop.filter fun i => !decide (cv i = 0) := List.filter_congr fun i hi => by
      have := hcv i hi
      by_cases h : cv i = 0
      · simp [h]
      · simp [h, lt_of_le_of_ne this (Ne.symm h)]
    rw [h1]
    unfold feasibles
    rw [← List.length_append]
    exact (List.filter_append_perm _ pop).length_eq
  have hSI : (infeasibles cv pop).Nodup := hnd.filter _
  obtain ⟨all, fronts, a1, a2, -, a4⟩ := ndsList_spec rank2 hr2 (fun i => ![cv i, fv i]) (infeasibles cv pop) hSI (some (n - (feasibles cv pop).length))
  have a4 := a4 _ rfl
  have hlen := a1.perm.length_eq
  obtain ⟨p, last, rest, e1, e2, e3, e4, -⟩ := split_of_prefix (n := n - (feasibles cv pop).length) (by omega) (by rintro rfl; simp at hlen; omega) a4
  obtain ⟨kept, k1, k2, dropped, k3, k4⟩ := ctaFill_split argsort hs cv (n - (feasibles cv pop).length) p last e3 e4
  have hin : (p.flatten ++ kept).Nodup ∧ ∀ x ∈ p.flatten ++ kept, x ∈ infeasibles cv pop := by
    have hall := a1.perm.nodup_iff.2 hSI
    rw [e2, List.flatten_append, List.flatten_cons] at hall
    have hp : (p.flatten ++ kept ++ (dropped ++ rest.flatten)).Perm (p.flatten ++ (last ++ rest.flatten)) := by
      rw [List.append_assoc]
      refine List.Perm.append_left _ ?_
      rw [← List.append_assoc]
      exact List.Perm.append_right _ k3.symm
    refine ⟨(List.nodup_append.1 (hp.nodup_iff.2 hall)).1, fun x hx => ?_⟩
    refine a1.perm.mem_iff.1 ?_
    rw [e2, List.flatten_append, List.flatten_cons]
    exact hp.mem_iff.1 (List.mem_append_left _ hx)
  have hSnd : (feasibles cv pop ++ (p.flatten ++ kept)).Nodup := by
    refine List.nodup_append.2 ⟨hnd.filter _, hin.1, ?_⟩
    rintro a ha b hb rfl
    have h1 := (List.mem_filter.1 (hin.2 a hb)).2
    have h2 := (List.mem_filter.1 ha).2
    simp at h1 h2
    rw [h2] at h1; exact lt_irrefl _ h1
  have hSlen : (feasibles cv pop ++ (p.flatten ++ kept)).length = n := by
    rw [List.length_append, List.length_append, k2]; omega
  obtain ⟨all2, res2, b1, b2, b3, -⟩ := ndsList_spec rankF hrF F (feasibles cv pop ++ (p.flatten ++ kept)) hSnd none
  have b3 := b3 rfl
  subst b3
  obtain ⟨f, rest2, c1, c2⟩ := frontsOf_first b1 (by intro h; rw [h] at hSlen; simp at hSlen; omega)
  refine ⟨_, f, all, p, last, rest, kept, dropped, ?_, rfl, by rw [List.append_assoc]; exact hSlen, by rw [List.append_assoc]; exact hSnd, a1, e2, k3, k4, ?_⟩
  · unfold ctaUpdateCA
    simp only []
    change (if (feasibles cv pop).length = n then _ else if (feasibles cv pop).length < n then _ else _) = _
    rw [if_neg (by omega), if_pos hf]
    change (ndsList rank2 (fun i => ![cv i, fv i]) (infeasibles cv pop) none (some (n - (feasibles cv pop).length))).bind _ = _
    rw [a2]
    simp only [Option.bind_some]
    change (ndsList rankF F (feasibles cv pop ++ ctaFill argsort cv (n - (feasibles cv pop).length) fronts) none none).bind _ = _
    rw [e1, k1, b2, c1]
    simp only [Option.bind_some, List.head?_cons, Option.map_some, Option.some.injEq, Prod.mk.injEq, and_true, List.append_assoc]
    exact congrArg (feasibles cv pop ++ ·) k1
  · intro x
    rw [List.append_assoc]
    exact c2 x

include hrF in
/-- C85. Exactly enough feasible individuals: they are the archive, in the order of the population. -/
theorem C85_exact (pop : List ι) (n : ℕ) (hnd : pop.Nodup) (hn : 0 < n) (hf : (feasibles cv pop).length = n) :
    ∃ opt, ctaUpdateCA rankF rank2 argsort F cv fv niche dist coins pop n = some (feasibles cv pop, opt) ∧
      (∀ x, x ∈ opt ↔ x ∈ feasibles cv pop ∧ ∀ y ∈ feasibles cv pop, ¬ Dominates (F y) (F x)) := by
  obtain ⟨all2, res2, b1, b2, b3, -⟩ := ndsList_spec rankF hrF F (feasibles cv pop) (hnd.filter _) none
  have b3 := b3 rfl
  subst b3
  obtain ⟨f, rest2, c1, c2⟩ := frontsOf_first b1 (by intro h; rw [h] at hf; simp at hf; omega)
  refine ⟨f, ?_, c2⟩
  unfold ctaUpdateCA
  simp only []
  change (if (feasibles cv pop).length = n then _ else if (feasibles cv pop).length < n then _ else _) = _
  rw [if_pos hf]
  change (ndsList rankF F (feasibles cv pop) none none).bind _ = _
  rw [b2, c1]
  simp [feasibles]

theorem filterMap_get_map (S : List ι) (x0 : ι) (g : List ℕ) (hg : ∀ p ∈ g, p < S.length) : (g.filterMap fun p => S[p]?) = g.map fun p => S.getD p x0 := by
  induction g with
  | nil => rfl
  | cons a g ih =>
    have ha := hg a (by simp)
    rw [List.filterMap_cons, List.getElem?_eq_getElem ha, List.map_cons, ih fun p hp => hg p (by simp [hp])]
    simp [List.getD_eq_getElem?_getD, List.getElem?_eq_getElem ha]

include hrF in
/-- C85. More feasible individuals than places: the candidates are the shortest sequence of leading fronts of the feasible individuals with at least `n` members, and the survivors arise from
them by removing one individual at a time from the most crowded niches. The reported optima are the survivors that no feasible individual of the population dominates. -/
theorem C85_trim (pop : List ι) (n : ℕ) (hnd : pop.Nodup) (hn : 0 < n) (hf : n < (feasibles cv pop).length) (hfv : ∀ i ∈ pop, -1 < fv i)
    (hsym : ∀ i j, dist i j = dist j i) :
    ∃ S opt all p last rest, ctaUpdateCA rankF rank2 argsort F cv fv niche dist coins pop n = some (S, opt) ∧ S.length = n ∧ S.Nodup ∧
      FrontsOf (fun x y => Dominates (F x) (F y)) (feasibles cv pop) all ∧ all = p ++ last :: rest ∧ p.flatten.length < n ∧ n ≤ p.flatten.length + last.length ∧
      NicheRemoval niche fv dist (p.flatten ++ last) S ∧
      (∀ x, x ∈ opt ↔ x ∈ S ∧ ∀ y ∈ feasibles cv pop, ¬ Dominates (F y) (F x)) := by
  obtain ⟨all, fronts, a1, a2, -, a4⟩ := ndsList_spec rankF hrF F (feasibles cv pop) (hnd.filter _) (some n)
  have a4 := a4 _ rfl
  have hlen := a1.perm.length_eq
  have hall : all ≠ [] := by rintro rfl; simp at hlen; omega
  obtain ⟨p, last, rest, e1, e2, e3, e4, e5⟩ := split_of_prefix (n := n) (by omega) hall a4
  have hfnd : (feasibles cv pop).Nodup := hnd.filter _
  obtain ⟨f, rest2, c1, c2⟩ := frontsOf_first a1 (by intro h; rw [h] at hf; simp at hf)
  have hflat : fronts.flatten = p.flatten ++ last := by rw [e1]; simp
  have hSnd : (p.flatten ++ last).Nodup := by
    have := a1.perm.nodup_iff.2 hfnd
    rw [e2, List.flatten_append, List.flatten_cons, ← List.append_assoc] at this
    exact (List.nodup_append.1 this).1
  have hSsub : ∀ x ∈ p.flatten ++ last, x ∈ feasibles cv pop := by
    intro x hx
    refine a1.perm.mem_iff.1 ?_
    rw [e2, List.flatten_append, List.flatten_cons, ← List.append_assoc]
    exact List.mem_append_left _ hx
  -- the first front is the head of the candidates
  have hhead : ∃ t, p.flatten ++ last = f ++ t ∧ fronts.head? = some f := by
    rw [e1]
    rw [c1] at e2
    cases p with
    | nil => simp at e2; exact ⟨[], by simp [e2.1], by simp [e2.1]⟩
    | cons q p' => simp at e2; exact ⟨p'.flatten ++ last, by simp [e2.1], by simp [e2.1]⟩
  obtain ⟨t, ht, hhd⟩ := hhead
  have hSne : p.flatten ++ last ≠ [] := by intro h; have := congrArg List.length h; rw [List.length_append, List.length_nil] at this; omega
  obtain ⟨x0, hx0⟩ := List.exists_mem_of_ne_nil _ hSne
  -- whichever positions are kept
  have hopt : ∀ keep : List ℕ, (∀ q ∈ keep, q < (p.flatten ++ last).length) → ∀ x, x ∈ (keep.filterMap fun q => if q < f.length then (p.flatten ++ last)[q]? else none) ↔
      x ∈ (keep.filterMap fun q => (p.flatten ++ last)[q]?) ∧ ∀ y ∈ feasibles cv pop, ¬ Dominates (F y) (F x) := by
    intro keep hk x
    have hff : ∀ q (hq : q < (p.flatten ++ last).length), q < f.length ↔ (p.flatten ++ last)[q] ∈ f := by
      intro q hq
      constructor
      · intro h
        have : (p.flatten ++ last)[q] = f[q] := by simp only [ht]; exact List.getElem_append_left h
        rw [this]; exact List.getElem_mem _
      · intro h
        by_contra hge
        obtain ⟨r, hr, hrq⟩ := List.getElem_of_mem h
        have h2 : (p.flatten ++ last)[r]'(by rw [ht, List.length_append]; omega) = (p.flatten ++ last)[q] := by
          rw [← hrq]; simp only [ht]; exact List.getElem_append_left hr
        have := (hSnd.getElem_inj_iff).1 h2
        omega
    simp only [List.mem_filterMap]
    constructor
    · rintro ⟨q, hq, h⟩
      split_ifs at h with hqf
      rw [List.getElem?_eq_getElem (hk q hq)] at h
      refine ⟨⟨q, hq, by rw [List.getElem?_eq_getElem (hk q hq)]; exact h⟩, ?_⟩
      have := (hff q (hk q hq)).1 hqf
      rw [Option.some.inj h] at this
      exact ((c2 x).1 this).2
    · rintro ⟨⟨q, hq, h⟩, hx⟩
      refine ⟨q, hq, ?_⟩
      rw [if_pos]
      · exact h
      · rw [hff q (hk q hq)]
        rw [List.getElem?_eq_getElem (hk q hq)] at h
        rw [Option.some.inj h]
        exact (c2 x).2 ⟨hSsub x (by rw [← Option.some.inj h]; exact List.getElem_mem _), hx⟩
  -- the positions
  have hmain : ∀ keep : List ℕ, (∀ q ∈ keep, q < (p.flatten ++ last).length) → keep.Nodup → keep.length = n →
      NicheRemoval niche fv dist (p.flatten ++ last) (keep.filterMap fun q => (p.flatten ++ last)[q]?) →
      ctaUpdateCA rankF rank2 argsort F cv fv niche dist coins pop n = some (keep.filterMap fun q => (p.flatten ++ last)[q]?, keep.filterMap fun q => if q < f.length then (p.flatten ++ last)[q]? else none) →
      ∃ S opt all p last rest, ctaUpdateCA rankF rank2 argsort F cv fv niche dist coins pop n = some (S, opt) ∧ S.length = n ∧ S.Nodup ∧
      FrontsOf (fun x y => Dominates (F x) (F y)) (feasibles cv pop) all ∧ all = p ++ last :: rest ∧ p.flatten.length < n ∧ n ≤ p.flatten.length + last.length ∧
      NicheRemoval niche fv dist (p.flatten ++ last) S ∧
      (∀ x, x ∈ opt ↔ x ∈ S ∧ ∀ y ∈ feasibles cv pop, ¬ Dominates (F y) (F x)) := by
    intro keep hk hknd hkl hcr hres
    refine ⟨_, _, all, p, last, rest, hres, ?_, hSnd.sublist hcr.sublist, a1, e2, ?_, e4, hcr, hopt keep hk⟩
    · rw [filterMap_get_map _ x0 keep hk, List.length_map, hkl]
    · by_cases hp : p = []
      · subst hp; simpa using hn
      · exact e5 hp
  have hunf : ∀ keep : List ℕ, (if n < (p.flatten ++ last).length then
        ctaTrim (fun q => ((p.flatten ++ last)[q]?.map niche).getD 0) (fun q => ((p.flatten ++ last)[q]?.map fv).getD 0)
          (fun q r => (((p.flatten ++ last)[q]?).bind fun i => (p.flatten ++ last)[r]?.map (dist i)).getD 0)
          ((List.range (p.flatten ++ last).length).map fun q => ((p.flatten ++ last)[q]?.map niche).getD 0).dedup coins n (p.flatten ++ last).length (List.range (p.flatten ++ last).length)
          (fun k => ((List.range (p.flatten ++ last).length).filter fun q => decide (((p.flatten ++ last)[q]?.map niche).getD 0 = k)).length)
        else List.range (p.flatten ++ last).length) = keep →
      ctaUpdateCA rankF rank2 argsort F cv fv niche dist coins pop n = some (keep.filterMap fun q => (p.flatten ++ last)[q]?, keep.filterMap fun q => if q < f.length then (p.flatten ++ last)[q]? else none) := by
    intro keep hkeep
    unfold ctaUpdateCA
    simp only []
    change (if (feasibles cv pop).length = n then _ else if (feasibles cv pop).length < n then _ else _) = _
    rw [if_neg (by omega), if_neg (by omega)]
    change (ndsList rankF F (feasibles cv pop) none (some n)).bind _ = _
    rw [a2]
    simp only [Option.bind_some]
    rw [hhd, hflat, Option.map_some]
    subst hkeep
    rfl
  by_cases hbig : n < (p.flatten ++ last).length
  · have hg : ∀ q (hq : q < (p.flatten ++ last).length), (p.flatten ++ last)[q]? = some ((p.flatten ++ last).getD q x0) := by
      intro q hq; simp [List.getD_eq_getElem?_getD, List.getElem?_eq_getElem hq]
    obtain ⟨t1, t2⟩ := ctaTrim_ok (fun q => ((p.flatten ++ last)[q]?.map niche).getD 0) (fun q => ((p.flatten ++ last)[q]?.map fv).getD 0)
      (fun q r => (((p.flatten ++ last)[q]?).bind fun i => (p.flatten ++ last)[r]?.map (dist i)).getD 0)
      (by
        intro q r
        cases hq : (p.flatten ++ last)[q]? with
        | none => cases hr : (p.flatten ++ last)[r]? <;> simp
        | some a =>
          cases hr : (p.flatten ++ last)[r]? with
          | none => simp
          | some b => simp [hsym a b])
      ((List.range (p.flatten ++ last).length).map fun q => ((p.flatten ++ last)[q]?.map niche).getD 0).dedup coins n (p.flatten ++ last).length
      (List.range (p.flatten ++ last).length) (List.nodup_range) (by rw [List.length_range]; exact hbig.le)
      (by intro q hq; rw [List.mem_dedup]; exact List.mem_map_of_mem (f := fun q => ((p.flatten ++ last)[q]?.map niche).getD 0) hq)
      (by
        intro q hq
        rw [List.mem_range] at hq
        rw [List.getElem?_eq_getElem hq]
        exact hfv _ (List.mem_filter.1 (hSsub _ (List.getElem_mem hq))).1)
      (by rw [List.length_range]; omega)
    have hsub := t1.sublist
    refine hmain _ (fun q hq => List.mem_range.1 (hsub.subset hq)) (List.nodup_range.sublist hsub) t2 ?_ (hunf _ (by rw [if_pos hbig]; rfl))
    rw [filterMap_get_map _ x0 _ (fun q hq => List.mem_range.1 (hsub.subset hq))]
    have hid : (List.range (p.flatten ++ last).length).map (fun q => (p.flatten ++ last).getD q x0) = p.flatten ++ last := by
      refine List.ext_getElem (by simp) fun i h1 h2 => ?_
      simp [List.getD_eq_getElem?_getD, List.getElem?_eq_getElem h2]
    have := t1.map (niche' := niche) (fv' := fv) (dist' := dist) (fun q => (p.flatten ++ last).getD q x0) ?_ ?_ ?_ ?_
    · rw [hid] at this; exact this
    · intro q hq r hr h
      rw [List.mem_range] at hq hr
      simp only [List.getD_eq_getElem?_getD, List.getElem?_eq_getElem hq, List.getElem?_eq_getElem hr, Option.getD_some] at h
      exact (hSnd.getElem_inj_iff).1 h
    · intro q hq; rw [List.mem_range] at hq; simp only [hg q hq, Option.map_some, Option.getD_some]
    · intro q hq; rw [List.mem_range] at hq; simp only [hg q hq, Option.map_some, Option.getD_some]
    · intro q hq r hr; rw [List.mem_range] at hq hr; simp only [hg q hq, hg r hr, Option.bind_some, Option.map_some, Option.getD_some]
  · have hid : ((List.range (p.flatten ++ last).length).filterMap fun q => (p.flatten ++ last)[q]?) = p.flatten ++ last := by
      rw [filterMap_get_map _ x0 _ (fun q hq => List.mem_range.1 hq)]
      refine List.ext_getElem (by simp) fun i h1 h2 => ?_
      simp [List.getD_eq_getElem?_getD, List.getElem?_eq_getElem h2]
    refine hmain _ (fun q hq => List.mem_range.1 hq) List.nodup_range (by rw [List.length_range]; rw [List.length_append] at hbig ⊢; omega) ?_ (hunf _ (by rw [if_neg hbig]))
    rw [hid]
    exact NicheRemoval.done _

include hrF hr2 hs in
/-- C85. Whatever the population: the convergence archive has exactly the requested size, consists of different individuals of the population, contains an infeasible individual only
if it contains all feasible ones, and the reported optima are survivors that no survivor dominates. -/
theorem C85_archive (pop : List ι) (n : ℕ) (hnd : pop.Nodup) (hn : 0 < n) (hnp : n ≤ pop.length) (hcv : ∀ i ∈ pop, 0 ≤ cv i) (hfv : ∀ i ∈ pop, -1 < fv i)
    (hsym : ∀ i j, dist i j = dist j i) :
    ∃ S opt, ctaUpdateCA rankF rank2 argsort F cv fv niche dist coins pop n = some (S, opt) ∧ S.length = n ∧ S.Nodup ∧ (∀ x ∈ S, x ∈ pop) ∧
      ((∀ x ∈ S, cv x = 0) ∨ ∀ x ∈ pop, cv x = 0 → x ∈ S) ∧ (∀ x ∈ opt, x ∈ S ∧ ∀ y ∈ S, ¬ Dominates (F y) (F x)) := by
  have hfm : ∀ x, x ∈ feasibles cv pop ↔ x ∈ pop ∧ cv x = 0 := by intro x; simp [feasibles]
  rcases lt_trichotomy (feasibles cv pop).length n with h | h | h
  · obtain ⟨S, opt, all, p, last, rest, kept, dropped, h1, h2, h3, h4, h5, h6, h7, -, h9⟩ :=
      C85_fill rankF hrF rank2 hr2 argsort hs F cv fv niche dist coins pop n hnd hcv hnp h
    refine ⟨S, opt, h1, h3, h4, ?_, Or.inr ?_, fun x hx => (h9 x).1 hx⟩
    · intro x hx
      rw [h2, List.append_assoc] at hx
      rcases List.mem_append.1 hx with hx | hx
      · exact ((hfm x).1 hx).1
      · have : x ∈ infeasibles cv pop := by
          refine h5.perm.mem_iff.1 ?_
          rw [h6, List.flatten_append, List.flatten_cons]
          rcases List.mem_append.1 hx with hx | hx
          · exact List.mem_append_left _ hx
          · exact List.mem_append_right _ (List.mem_append_left _ (h7.mem_iff.2 (List.mem_append_left _ hx)))
        exact (List.mem_filter.1 this).1
    · intro x hx hxc
      rw [h2, List.append_assoc]
      exact List.mem_append_left _ ((hfm x).2 ⟨hx, hxc⟩)
  · obtain ⟨opt, h1, h2⟩ := C85_exact rankF hrF rank2 argsort F cv fv niche dist coins pop n hnd hn h
    exact ⟨_, opt, h1, h, hnd.filter _, fun x hx => ((hfm x).1 hx).1, Or.inl fun x hx => ((hfm x).1 hx).2, fun x hx => (h2 x).1 hx⟩
  · obtain ⟨S, opt, all, p, last, rest, h1, h2, h3, h4, h5, -, -, h8, h9⟩ := C85_trim rankF hrF rank2 argsort F cv fv niche dist coins pop n hnd hn h hfv hsym
    have hsub : ∀ x ∈ S, x ∈ feasibles cv pop := by
      intro x hx
      refine h4.perm.mem_iff.1 ?_
      rw [h5, List.flatten_append, List.flatten_cons, ← List.append_assoc]
      exact List.mem_append_left _ (h8.sublist.subset hx)
    exact ⟨S, opt, h1, h2, h3, fun x hx => ((hfm x).1 (hsub x hx)).1, Or.inl fun x hx => ((hfm x).1 (hsub x hx)).2,
      fun x hx => ⟨((h9 x).1 hx).1, fun y hy => ((h9 x).1 hx).2 y (hsub y hy)⟩⟩

include hrF in
/-- C85. Trimming keeps the niches balanced: of two niches in the archive, one that lost a candidate is at most one individual smaller. -/
theorem C85_balanced (pop : List ι) (n : ℕ) (hnd : pop.Nodup) (hn : 0 < n) (hf : n < (feasibles cv pop).length) (hfv : ∀ i ∈ pop, -1 < fv i)
    (hsym : ∀ i j, dist i j = dist j i) (S opt : List ι) (h : ctaUpdateCA rankF rank2 argsort F cv fv niche dist coins pop n = some (S, opt)) :
    ∃ all p last rest, FrontsOf (fun x y => Dominates (F x) (F y)) (feasibles cv pop) all ∧ all = p ++ last :: rest ∧ p.flatten.length < n ∧
      ∀ k, nicheSize niche S k < nicheSize niche (p.flatten ++ last) k → ∀ j, nicheSize niche S j ≤ nicheSize niche S k + 1 := by
  obtain ⟨S', opt', all, p, last, rest, h1, -, -, h4, h5, h6, -, h8, -⟩ := C85_trim rankF hrF rank2 argsort F cv fv niche dist coins pop n hnd hn hf hfv hsym
  rw [h] at h1
  cases h1
  exact ⟨all, p, last, rest, h4, h5, h6, h8.balanced⟩

/-- C85. The ideal point after an update is the component-wise minimum of the old one and the objectives of the offspring: a lower bound that is attained. -/
theorem C85_ideal (ideal : Fin m → K) (off : List (Fin m → K)) (j : Fin m) :
    ctaIdeal ideal off j ≤ ideal j ∧ (∀ f ∈ off, ctaIdeal ideal off j ≤ f j) ∧ (ctaIdeal ideal off j = ideal j ∨ ∃ f ∈ off, ctaIdeal ideal off j = f j) := by
  unfold ctaIdeal
  induction off generalizing ideal with
  | nil => simp
  | cons a off ih =>
    rw [List.foldl_cons]
    obtain ⟨h1, h2, h3⟩ := ih fun j => min (ideal j) (a j)
    refine ⟨h1.trans (min_le_left _ _), ?_, ?_⟩
    · intro f hf
      rcases List.mem_cons.1 hf with rfl | hf
      · exact h1.trans (min_le_right _ _)
      · exact h2 f hf
    · rcases h3 with h3 | ⟨f, hf, h3⟩
      · rw [h3]
        rcases min_choice (ideal j) (a j) with h | h
        · left; exact h
        · right; exact ⟨a, by simp, h⟩
      · right; exact ⟨f, by simp [hf], h3⟩

/-- C85. The decomposed fitness of an individual is not negative if the ideal point is at most its objectives (as it is after `C85_ideal`), so the hypothesis `-1 < fv i` of the theorems
above holds in every run. -/
theorem C85_fitness_nonneg (w0 : K) (hw0 : 0 < w0) (ideal f w : List K) (h : List.Forall₂ (· ≤ ·) ideal f) (hw : ∀ v ∈ w, 0 ≤ v) : 0 ≤ ctaFitness w0 ideal f w := by
  unfold ctaFitness asf
  by_cases hne : List.zipWith (· / ·) (List.zipWith (· - ·) f ideal) (w.map fun v => if v = 0 then w0 else v) = []
  · rw [hne]; simp [rowMax]
  · obtain ⟨h1, -⟩ := rowMax_spec _ hne
    have key : ∀ (ideal f w : List K), List.Forall₂ (· ≤ ·) ideal f → (∀ v ∈ w, 0 ≤ v) →
        ∀ r ∈ List.zipWith (· / ·) (List.zipWith (· - ·) f ideal) (w.map fun v => if v = 0 then w0 else v), 0 ≤ r := by
      intro ideal f w h
      induction h generalizing w with
      | nil => simp
      | @cons a b l1 l2 hab _ ih =>
        intro hw r hr
        cases w with
        | nil => simp at hr
        | cons v w =>
          simp only [List.zipWith_cons_cons, List.map_cons, List.mem_cons] at hr
          rcases hr with rfl | hr
          · refine div_nonneg (sub_nonneg.2 hab) ?_
            split_ifs
            · exact hw0.le
            · exact hw v (by simp)
          · exact ih w (fun v hv => hw v (by simp [hv])) r hr
    exact key ideal f w h hw _ h1

end Convergence

/-! ### The defects -/

/-- C85, refuted: the optima of a population with feasible individuals need not be feasible. Two individuals, one of them infeasible but better in all objectives: both survive, and
only the infeasible one is reported. -/
theorem C85_feasible_opt_refuted : ∃ (F : Fin 2 → Fin 2 → ℚ) (cv : Fin 2 → ℚ), cv 0 = 0 ∧ cv 1 = 1 ∧
    ∀ argsort, Argsorts argsort → ∀ fv niche dist coins, ∃ S opt, ctaUpdateCA chainRank chainRank argsort F cv fv niche dist coins [0, 1] 2 = some (S, opt) ∧ 0 ∈ S ∧
      (∀ x, x ∈ opt ↔ x = 1) := by
  refine ⟨![![1, 1], ![0, 0]], ![0, 1], rfl, rfl, fun argsort hs fv niche dist coins => ?_⟩
  have hfeas : feasibles (![0, 1] : Fin 2 → ℚ) [0, 1] = [0] := by decide +kernel
  obtain ⟨S, opt, h1, h2, h3, h4, h5, h6⟩ := C85_archive chainRank chainRank_ok chainRank chainRank_ok argsort hs ![![1, 1], ![0, 0]] ![0, 1] (fun _ => 0) niche (fun _ _ => 0) coins
    [0, 1] 2 (by decide) (by decide) (by decide) (by decide +kernel) (by intro i _; norm_num) (fun _ _ => rfl)
  obtain ⟨S, opt, all, p, last, rest, kept, dropped, g1, g2, g3, g4, g5, g6, g7, -, g9⟩ :=
    C85_fill chainRank chainRank_ok chainRank chainRank_ok argsort hs ![![1, 1], ![0, 0]] ![0, 1] fv niche dist coins [0, 1] 2 (by decide) (by decide +kernel) (by decide)
      (by rw [hfeas]; decide)
  have hS : ∀ x, x ∈ S := by
    have hp : S.Perm (List.finRange 2) := by
      refine (List.subperm_of_subset g4 fun x _ => List.mem_finRange x).perm_of_length_le (by rw [g3]; decide)
    intro x; exact hp.mem_iff.2 (List.mem_finRange x)
  refine ⟨S, opt, g1, hS 0, fun x => ?_⟩
  rw [g9]
  have hd : ∀ y x : Fin 2, Dominates ((![![1, 1], ![0, 0]] : Fin 2 → Fin 2 → ℚ) y) ((![![1, 1], ![0, 0]] : Fin 2 → Fin 2 → ℚ) x) ↔ y = 1 ∧ x = 0 := by
    intro y x; rw [← domB_iff]; revert y x; decide +kernel
  constructor
  · rintro ⟨-, h⟩
    by_contra hx
    exact h 1 (hS 1) ((hd 1 x).2 ⟨rfl, by omega⟩)
  · rintro rfl
    exact ⟨hS 1, fun y _ h => by have := ((hd y 1).1 h).2; exact absurd this (by decide)⟩

/-- C85, refuted: the survivors need not contain a best individual, and the set of optima may even be empty. Individual `0` dominates the two others and has the same decomposed
fitness as individual `1` (the objectives are `(1, 2)`, `(3/2, 2)`, `(1, 10)`, ideal point `(0, 0)`; `0` and `1` belong to the direction `(1/2, 1/2)`, `2` to `(0, 1)`).
Of the closest pair `0`, `1` one is removed at random; if this is `0`, the dominated individuals survive and no optimum is reported. -/
theorem C85_best_survives_refuted : ∃ (coins : ℕ → ℕ → Bool) (F : Fin 3 → Fin 2 → ℚ) (fv : Fin 3 → ℚ) (niche : Fin 3 → ℕ) (dist : Fin 3 → Fin 3 → ℚ),
    (∀ i, fv i = ctaFitness (1 / 10000) [0, 0] (List.ofFn (F i)) (if niche i = 1 then [1 / 2, 1 / 2] else [0, 1])) ∧
    Dominates (F 0) (F 1) ∧ Dominates (F 0) (F 2) ∧
    ctaUpdateCA chainRank chainRank (fun f L => L.insertionSort fun a b => f a ≤ f b) F (fun _ => 0) fv niche dist coins [0, 1, 2] 2 = some ([1, 2], []) := by
  refine ⟨fun _ _ => false, ![![1, 2], ![3 / 2, 2], ![1, 10]], ![4, 4, 10000], ![1, 1, 0], ![![0, 1 / 2, 8], ![1 / 2, 0, 9], ![8, 9, 0]], ?_, ?_, ?_, ?_⟩
  · decide +kernel
  · rw [← domB_iff]; decide +kernel
  · rw [← domB_iff]; decide +kernel
  · decide +kernel

/-- Non-vacuity: five feasible individuals, three places; the two removed ones belong to the niche with three members. -/
example : ctaUpdateCA chainRank chainRank (fun f L => L.insertionSort fun a b => f a ≤ f b)
    (![![1, 5], ![2, 4], ![3, 3], ![4, 2], ![5, 1]] : Fin 5 → Fin 2 → ℚ) (fun _ => 0) ![10, 8, 6, 8, 10] ![0, 1, 1, 1, 2]
    (fun i j => |(i : ℕ) - (j : ℕ)|) (fun _ _ => true) [0, 1, 2, 3, 4] 3 = some ([0, 2, 4], [0, 2, 4]) := by decide +kernel

/-- Non-vacuity: one feasible individual and three infeasible ones for two places: the one with the least violation is added. -/
example : ctaUpdateCA chainRank chainRank (fun f L => L.insertionSort fun a b => f a ≤ f b)
    (![![1, 5], ![2, 4], ![3, 3], ![4, 2]] : Fin 4 → Fin 2 → ℚ) ![3, 0, 2, 1] ![1, 8, 2, 3] (fun _ => 0)
    (fun _ _ => 0) (fun _ _ => true) [0, 1, 2, 3] 2 = some ([1, 3], [1, 3]) := by decide +kernel

end Props
