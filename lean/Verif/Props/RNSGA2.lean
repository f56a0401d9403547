import Verif.Model.RNSGA2
import Verif.Props.CTAEA
import Mathlib.Analysis.SpecialFunctions.Pow.Real

/-! # C88: R-NSGA-II prefers the individuals near the reference points and keeps them apart -/

set_option linter.unusedSimpArgs false
set_option linter.unusedVariables false
set_option linter.unusedSectionVars false

namespace Props
open Model Spec Lemmas

section Select
variable {K : Type*} [LinearOrder K]

/-! ### Specification -/

/-- `orders` are ascending orders of the positions `0 .. len - 1` by the distance to each reference point. -/
def OrdersOf {ρ D : Type*} [LE D] (dist : ℕ → ρ → D) (refs : List ρ) (len : ℕ) (orders : List (List ℕ)) : Prop :=
  List.Forall₂ (fun r o => o.Perm (List.range len) ∧ o.Pairwise fun a b => dist a r ≤ dist b r) refs orders

/-- What the clearing assigns: leaders keep their ranking, the others are followers of a leader closer than `eps` that is ranked at least as well, and are put back by `half`;
different leaders are at least `eps` apart. -/
structure Cleared (dist : ℕ → ℕ → K) (eps : K) (ranking : ℕ → ℕ) (half : ℕ) (all : List ℕ) (leaders : List ℕ) (crowd : ℕ → Option ℕ) : Prop where
  sub : ∀ i ∈ leaders, i ∈ all
  leader : ∀ i ∈ leaders, crowd i = some (ranking i)
  follower : ∀ j ∈ all, j ∉ leaders → crowd j = some (ranking j + half) ∧ ∃ i ∈ leaders, dist i j < eps ∧ ranking i ≤ ranking j
  apart : leaders.Pairwise fun i j => eps ≤ dist i j ∧ ranking i ≤ ranking j ∧ i ≠ j

/-! ### The clearing loop -/

theorem rnsClear_other (dist : ℕ → ℕ → K) (eps : K) (ranking : ℕ → ℕ) (half fuel : ℕ) (L : List ℕ) (crowd : ℕ → Option ℕ) (j : ℕ) (hj : j ∉ L) :
    rnsClear dist eps ranking half fuel L crowd j = crowd j := by
  induction fuel generalizing L crowd with
  | zero => rfl
  | succ f ih =>
    cases L with
    | nil => rfl
    | cons idx rest =>
      unfold rnsClear
      simp only []
      rw [ih]
      · have h1 : j ≠ idx := by rintro rfl; exact hj (by simp)
        have h2 : j ∉ (idx :: rest).filter fun j => decide (j ≠ idx) && decide (dist idx j < eps) := fun h => hj (List.mem_filter.1 h).1
        rw [if_neg h2, if_neg h1]
      · exact fun h => hj (List.mem_filter.1 h).1

theorem rnsClear_ok (dist : ℕ → ℕ → K) (eps : K) (ranking : ℕ → ℕ) (half fuel : ℕ) (L : List ℕ) (hnd : L.Nodup) (hs : L.Pairwise fun a b => ranking a ≤ ranking b)
    (hf : L.length ≤ fuel) (crowd : ℕ → Option ℕ) : ∃ leaders, leaders.Sublist L ∧ Cleared dist eps ranking half L leaders (rnsClear dist eps ranking half fuel L crowd) ∧
      (∀ a, L.head? = some a → a ∈ leaders) := by
  induction fuel generalizing L crowd with
  | zero =>
    have : L = [] := List.length_eq_zero_iff.1 (by omega)
    subst this
    exact ⟨[], List.Sublist.refl _, ⟨by simp, by simp, by simp, by simp⟩, by simp⟩
  | succ f ih =>
    cases L with
    | nil => exact ⟨[], List.Sublist.refl _, ⟨by simp, by simp, by simp, by simp⟩, by simp⟩
    | cons idx rest =>
      obtain ⟨hidx, hnd'⟩ := List.nodup_cons.1 hnd
      obtain ⟨hs1, hs2⟩ := List.pairwise_cons.1 hs
      unfold rnsClear
      simp only []
      generalize hg : (idx :: rest).filter (fun j => decide (j ≠ idx) && decide (dist idx j < eps)) = group
      have hgm : ∀ j, j ∈ group ↔ j ∈ rest ∧ dist idx j < eps := by
        intro j
        rw [← hg, List.mem_filter, Bool.and_eq_true, decide_eq_true_iff, decide_eq_true_iff, List.mem_cons]
        constructor
        · rintro ⟨h1 | h1, h2, h3⟩
          · exact absurd h1 h2
          · exact ⟨h1, h3⟩
        · rintro ⟨h1, h3⟩
          exact ⟨Or.inr h1, fun h => hidx (h ▸ h1), h3⟩
      have hrest : (idx :: rest).filter (fun j => !(decide (j = idx) || decide (j ∈ group))) = rest.filter fun j => !decide (j ∈ group) := by
        rw [List.filter_cons, if_neg (by simp)]
        refine List.filter_congr fun j hj => ?_
        have : j ≠ idx := by rintro rfl; exact hidx hj
        simp [this]
      rw [hrest]
      generalize hL' : rest.filter (fun j => !decide (j ∈ group)) = L'
      have hLm : ∀ j, j ∈ L' ↔ j ∈ rest ∧ j ∉ group := by intro j; rw [← hL', List.mem_filter]; simp
      have hLsub : L'.Sublist rest := by rw [← hL']; exact List.filter_sublist
      generalize hc2 : (fun j => if j ∈ group then some (ranking j + half) else if j = idx then some (ranking j) else crowd j) = crowd2
      obtain ⟨leaders, l1, l2, -⟩ := ih L' (hnd'.sublist hLsub) (hs2.sublist hLsub) (by have := hLsub.length_le; simp at hf; omega) crowd2
      have hidL : idx ∉ L' := fun h => hidx ((hLm idx).1 h).1
      have hidg : idx ∉ group := fun h => hidx ((hgm idx).1 h).1
      refine ⟨idx :: leaders, (l1.trans hLsub).cons₂ idx, ⟨?_, ?_, ?_, ?_⟩, by simp⟩
      · intro i hi
        rcases List.mem_cons.1 hi with rfl | hi
        · simp
        · exact List.mem_cons_of_mem _ (hLsub.subset (l2.sub i hi))
      · intro i hi
        rcases List.mem_cons.1 hi with rfl | hi
        · rw [rnsClear_other _ _ _ _ _ _ _ _ hidL, ← hc2]; simp [hidg]
        · exact l2.leader i hi
      · intro j hj hjl
        rw [List.mem_cons, not_or] at hjl
        have hjr : j ∈ rest := (List.mem_cons.1 hj).resolve_left hjl.1
        by_cases hjg : j ∈ group
        · have hjL : j ∉ L' := fun h => ((hLm j).1 h).2 hjg
          rw [rnsClear_other _ _ _ _ _ _ _ _ hjL, ← hc2]
          exact ⟨by simp [hjg], idx, by simp, ((hgm j).1 hjg).2, hs1 j hjr⟩
        · obtain ⟨a, i, b, c⟩ := l2.follower j ((hLm j).2 ⟨hjr, hjg⟩) hjl.2
          exact ⟨a, i, by simp [b], c⟩
      · refine List.pairwise_cons.2 ⟨fun j hj => ?_, l2.apart⟩
        have hj' := (hLm j).1 (l1.subset hj)
        refine ⟨not_lt.1 fun h => hj'.2 ((hgm j).2 ⟨hj'.1, h⟩), hs1 j hj'.1, ?_⟩
        rintro rfl; exact hidx hj'.1

/-! ### The ranking -/

theorem foldl_min_nat (l : List ℕ) (a : ℕ) : l.foldl min a ≤ a ∧ (∀ x ∈ l, l.foldl min a ≤ x) ∧ (l.foldl min a = a ∨ l.foldl min a ∈ l) := by
  induction l generalizing a with
  | nil => simp
  | cons b l ih =>
    rw [List.foldl_cons]
    obtain ⟨h1, h2, h3⟩ := ih (min a b)
    refine ⟨h1.trans (min_le_left _ _), ?_, ?_⟩
    · intro x hx
      rcases List.mem_cons.1 hx with rfl | hx
      · exact h1.trans (min_le_right _ _)
      · exact h2 x hx
    · rcases h3 with h3 | h3
      · rcases min_choice a b with h | h
        · left; rw [h3, h]
        · right; rw [h3, h]; simp
      · right; simp [h3]

/-- C88. The ranking of a position is its best place over all reference points. -/
theorem C88_ranking (orders : List (List ℕ)) (hne : orders ≠ []) (i : ℕ) :
    (∀ o ∈ orders, rnsRanking orders i ≤ o.idxOf i) ∧ ∃ o ∈ orders, rnsRanking orders i = o.idxOf i := by
  unfold rnsRanking
  cases orders with
  | nil => exact absurd rfl hne
  | cons o os =>
    simp only [List.map_cons]
    obtain ⟨h1, h2, h3⟩ := foldl_min_nat (os.map fun o => rnsPlace o i) (rnsPlace o i)
    constructor
    · intro o' ho'
      rcases List.mem_cons.1 ho' with rfl | ho'
      · exact h1
      · exact h2 _ (List.mem_map_of_mem (f := fun o => rnsPlace o i) ho')
    · rcases h3 with h3 | h3
      · exact ⟨o, by simp, h3⟩
      · obtain ⟨o', a, b⟩ := List.mem_map.1 h3
        exact ⟨o', by simp [a], by rw [← b]; rfl⟩

theorem ordersOf_perm {ρ D : Type*} [LE D] {dref : ℕ → ρ → D} {refs : List ρ} {len : ℕ} {orders : List (List ℕ)} (ho : OrdersOf dref refs len orders) :
    ∀ o ∈ orders, o.Perm (List.range len) := by
  unfold OrdersOf at ho
  induction ho with
  | nil => simp
  | cons h _ ih =>
    intro o ho'
    rcases List.mem_cons.1 ho' with rfl | h'
    · exact h.1
    · exact ih o h'

variable (argsort : (ℕ → ℕ) → List ℕ → List ℕ) (hs : ∀ f L, (argsort f L).Perm L ∧ (argsort f L).Pairwise fun a b => f a ≤ f b)
include hs

/-- C88. The selection from the splitting front: as many positions as places are left, all different; they have the least crowding, where the crowding comes from the clearing. -/
theorem C88_select (dist : ℕ → ℕ → K) (eps : K) (orders : List (List ℕ)) (len remaining : ℕ) (hr : remaining ≤ len) :
    ∃ leaders crowd, Cleared dist eps (rnsRanking orders) (rnsHalf len) (List.range len) leaders crowd ∧
      (rnsSelect argsort dist eps orders len remaining).length = remaining ∧ (rnsSelect argsort dist eps orders len remaining).Nodup ∧
      (∀ a ∈ rnsSelect argsort dist eps orders len remaining, a < len) ∧
      (∀ a ∈ rnsSelect argsort dist eps orders len remaining, ∀ b < len, b ∉ rnsSelect argsort dist eps orders len remaining → (crowd a).getD 0 ≤ (crowd b).getD 0) := by
  obtain ⟨p1, p2⟩ := hs (rnsRanking orders) (List.range len)
  obtain ⟨leaders, l1, l2, -⟩ := rnsClear_ok dist eps (rnsRanking orders) (rnsHalf len) len (argsort (rnsRanking orders) (List.range len)) (p1.nodup_iff.2 List.nodup_range) p2
    (by rw [p1.length_eq]; simp) (fun _ => none)
  have hc : Cleared dist eps (rnsRanking orders) (rnsHalf len) (List.range len) leaders
      (rnsClear dist eps (rnsRanking orders) (rnsHalf len) len (argsort (rnsRanking orders) (List.range len)) fun _ => none) :=
    ⟨fun i hi => p1.mem_iff.1 (l2.sub i hi), l2.leader, fun j hj => l2.follower j (p1.mem_iff.2 hj), l2.apart⟩
  refine ⟨leaders, _, hc, ?_⟩
  unfold rnsSelect
  simp only []
  generalize rnsClear dist eps (rnsRanking orders) (rnsHalf len) len (argsort (rnsRanking orders) (List.range len)) (fun _ => none) = crowd
  obtain ⟨q1, q2⟩ := hs (fun i => (crowd i).getD 0) (List.range len)
  have qn := q1.nodup_iff.2 List.nodup_range
  refine ⟨by rw [List.length_take, q1.length_eq, List.length_range]; omega, qn.sublist (List.take_sublist _ _), ?_, ?_⟩
  · intro a ha; exact List.mem_range.1 (q1.mem_iff.1 (List.mem_of_mem_take ha))
  · intro a ha b hb hbn
    have hbm : b ∈ (argsort (fun i => (crowd i).getD 0) (List.range len)).drop remaining := by
      have : b ∈ argsort (fun i => (crowd i).getD 0) (List.range len) := q1.mem_iff.2 (List.mem_range.2 hb)
      rw [← List.take_append_drop remaining (argsort (fun i => (crowd i).getD 0) (List.range len)), List.mem_append] at this
      exact this.resolve_left hbn
    rw [← List.take_append_drop remaining (argsort (fun i => (crowd i).getD 0) (List.range len)), List.pairwise_append] at q2
    exact q2.2.2 a ha b hbm

/-- C88. The preferred individual of a reference point survives: if there are at least as many places left as reference points and at least two members in the front, then every position that is nearest to some reference point and is closer than
`eps` to no other position is selected. -/
theorem C88_nearest_survives {ρ D : Type*} [LE D] (dref : ℕ → ρ → D) (refs : List ρ) (dist : ℕ → ℕ → K) (hsym : ∀ i j, dist i j = dist j i) (eps : K) (orders : List (List ℕ)) (len remaining : ℕ)
    (hlen : 2 ≤ len) (ho : OrdersOf dref refs len orders) (hr : remaining ≤ len) (hrefs : refs.length ≤ remaining) (o : List ℕ) (hoo : o ∈ orders) (a : ℕ) (ha : o.head? = some a)
    (hsep : ∀ b < len, b ≠ a → eps ≤ dist a b) : a ∈ rnsSelect argsort dist eps orders len remaining := by
  obtain ⟨leaders, crowd, c1, c2, c3, c4, c5⟩ := C88_select argsort hs dist eps orders len remaining hr
  have hperm := ordersOf_perm ho
  have hne : orders ≠ [] := List.ne_nil_of_mem hoo
  have halen : a < len := List.mem_range.1 ((hperm o hoo).mem_iff.1 (List.mem_of_mem_head? (by rw [ha]; simp)))
  have hrank0 : rnsRanking orders a = 0 := by
    have := (C88_ranking orders hne a).1 o hoo
    cases o with
    | nil => simp at ha
    | cons x o =>
      simp at ha; subst ha
      simpa using this
  have hlead : a ∈ leaders := by
    by_contra hal
    obtain ⟨-, i, hi, hd, -⟩ := c1.follower a (List.mem_range.2 halen) hal
    have hia : i ≠ a := by rintro rfl; exact hal hi
    exact absurd (hsep i (List.mem_range.1 (c1.sub i hi)) hia) (not_le.2 (by rw [hsym]; exact hd))
  by_contra hna
  have hzero : ∀ x ∈ rnsSelect argsort dist eps orders len remaining, (crowd x).getD 0 = 0 := by
    intro x hx
    have := c5 x hx a halen hna
    rw [c1.leader a hlead, Option.getD_some, hrank0] at this
    omega
  have hhalf : 1 ≤ rnsHalf len := by unfold rnsHalf; split_ifs <;> omega
  -- every selected position is nearest to some reference point
  have hnear : ∀ x ∈ a :: rnsSelect argsort dist eps orders len remaining, x ∈ orders.filterMap List.head? := by
    intro x hx
    have hx0 : x < len ∧ rnsRanking orders x = 0 := by
      rcases List.mem_cons.1 hx with rfl | hx
      · exact ⟨halen, hrank0⟩
      · refine ⟨c4 x hx, ?_⟩
        have h0 := hzero x hx
        by_cases hxl : x ∈ leaders
        · rw [c1.leader x hxl] at h0; exact h0
        · rw [(c1.follower x (List.mem_range.2 (c4 x hx)) hxl).1, Option.getD_some] at h0; omega
    obtain ⟨o', ho', he⟩ := (C88_ranking orders hne x).2
    rw [hx0.2] at he
    rw [List.mem_filterMap]
    refine ⟨o', ho', ?_⟩
    have hxo : x ∈ o' := (hperm o' ho').mem_iff.2 (List.mem_range.2 hx0.1)
    have hpos : 0 < o'.length := List.length_pos_of_mem hxo
    have := List.getElem_idxOf (xs := o') (x := x) (by rw [← he]; exact hpos)
    cases o' with
    | nil => simp at hxo
    | cons y o' =>
      rw [List.head?_cons]
      simp only [← he, List.getElem_cons_zero] at this
      rw [this]
  have hlenle := (List.subperm_of_subset (List.nodup_cons.2 ⟨hna, c3⟩) hnear).length_le
  have h1 : (orders.filterMap List.head?).length ≤ orders.length := List.length_filterMap_le _ _
  have h2 : refs.length = orders.length := List.Forall₂.length_eq ho
  rw [List.length_cons, c2] at hlenle
  omega

end Select

/-! ### The loop over the fronts -/

section Survival
variable {ι : Type*}

theorem rnsSurvivors_split (select : List ι → ℕ → List ℕ) (hsel : ∀ f k, k < f.length → (select f k).length = k ∧ (select f k).Nodup ∧ ∀ p ∈ select f k, p < f.length) (n : ℕ)
    (p : List (List ι)) (last : List ι) (rest : List (List ι)) (hne : ∀ f ∈ rest, f ≠ []) (hp : p.flatten.length ≤ n) (hl : n ≤ p.flatten.length + last.length) :
    ∃ kept, rnsSurvivors select n (p ++ last :: rest) = p.flatten ++ kept ∧ kept.length = n - p.flatten.length ∧
      (kept = last ∨ (n - p.flatten.length < last.length ∧ kept = (select last (n - p.flatten.length)).filterMap fun q => last[q]?)) := by
  have hfit : ∀ (p : List (List ι)) (I : List ι), I.length + p.flatten.length ≤ n →
      p.foldl (fun surv front => if front.length ≤ n - surv.length then surv ++ front else surv ++ (select front (n - surv.length)).filterMap fun p => front[p]?) I = I ++ p.flatten := by
    intro p
    induction p with
    | nil => simp
    | cons f p ih =>
      intro I hI
      rw [List.flatten_cons, List.length_append] at hI
      rw [List.foldl_cons, if_pos (by omega), ih (I ++ f) (by rw [List.length_append]; omega), List.flatten_cons, List.append_assoc]
  have hfull : ∀ (q : List (List ι)), (∀ f ∈ q, f ≠ []) → ∀ (I : List ι), I.length = n →
      q.foldl (fun surv front => if front.length ≤ n - surv.length then surv ++ front else surv ++ (select front (n - surv.length)).filterMap fun p => front[p]?) I = I := by
    intro q
    induction q with
    | nil => simp
    | cons f q ih =>
      intro hq I hI
      have hf : 0 < f.length := List.length_pos_of_ne_nil (hq f (by simp))
      rw [List.foldl_cons, hI, Nat.sub_self, if_neg (by omega)]
      have h0 : select f 0 = [] := List.length_eq_zero_iff.1 (hsel f 0 hf).1
      rw [h0, List.filterMap_nil, List.append_nil]
      exact ih (fun g hg => hq g (by simp [hg])) I hI
  have hlen : ∀ k, k < last.length → ((select last k).filterMap fun q => last[q]?).length = k := by
    intro k hk
    obtain ⟨a, -, c⟩ := hsel last k hk
    obtain ⟨x0, -⟩ := List.exists_mem_of_ne_nil last (by rintro rfl; simp at hk)
    rw [filterMap_get_map last x0 _ c, List.length_map, a]
  unfold rnsSurvivors
  rw [List.foldl_append, hfit p [] (by simpa using hp), List.nil_append, List.foldl_cons]
  split_ifs with h
  · rw [hfull rest hne _ (by rw [List.length_append]; omega)]
    exact ⟨last, rfl, by omega, Or.inl rfl⟩
  · rw [hfull rest hne _ (by rw [List.length_append, hlen _ (by omega)]; omega)]
    exact ⟨_, rfl, hlen _ (by omega), Or.inr ⟨by omega, rfl⟩⟩

/-- C88. The survivors of R-NSGA-II: exactly as many as asked for, all different; complete fronts in order, then selected members of the splitting front, so that with every survivor all individuals
that dominate it survive. -/
theorem C88_survival (select : List ι → ℕ → List ℕ) (hsel : ∀ f k, k < f.length → (select f k).length = k ∧ (select f k).Nodup ∧ ∀ p ∈ select f k, p < f.length) (n : ℕ)
    (dom : ι → ι → Prop) (pop : List ι) (hnd : pop.Nodup) (fronts : List (List ι)) (h : FrontsOf dom pop fronts) (hn : n ≤ pop.length) (hn0 : 0 < n) :
    (rnsSurvivors select n fronts).length = n ∧ (rnsSurvivors select n fronts).Nodup ∧ (∀ x ∈ rnsSurvivors select n fronts, x ∈ pop) ∧
      (∀ x ∈ rnsSurvivors select n fronts, ∀ y ∈ pop, dom y x → y ∈ rnsSurvivors select n fronts) := by
  -- where the fronts are split
  have hsplit : ∀ (fr : List (List ι)), n ≤ fr.flatten.length → 0 < n → ∃ p last rest, fr = p ++ last :: rest ∧ p.flatten.length < n ∧ n ≤ p.flatten.length + last.length := by
    intro fr hfr h0
    induction fr using List.reverseRecOn with
    | nil => simp at hfr; omega
    | append_singleton fr f ih =>
      by_cases hc : n ≤ fr.flatten.length
      · obtain ⟨p, last, rest, a, b, c⟩ := ih hc
        exact ⟨p, last, rest ++ [f], by rw [a]; simp, b, c⟩
      · exact ⟨fr, f, [], rfl, by omega, by simpa using hfr⟩
  obtain ⟨p, last, rest, e1, e2, e3⟩ := hsplit fronts (by rw [h.perm.length_eq]; exact hn) hn0
  obtain ⟨kept, k1, k2, k3⟩ := rnsSurvivors_split select hsel n p last rest (fun f hf => h.nonempty f (by rw [e1]; simp [hf])) e2.le e3
  have hall := h.perm.nodup_iff.2 hnd
  rw [e1, List.flatten_append, List.flatten_cons] at hall
  have hlast : last.Nodup := (List.nodup_append.1 (List.nodup_append.1 hall).2.1).1
  have hkept : kept.Nodup ∧ ∀ x ∈ kept, x ∈ last := by
    rcases k3 with rfl | ⟨k4, rfl⟩
    · exact ⟨hlast, fun x hx => hx⟩
    · obtain ⟨s1, s2, s3⟩ := hsel last _ k4
      refine ⟨?_, ?_⟩
      · refine List.Nodup.filterMap ?_ s2
        intro a b x hx hy
        rw [Option.mem_def] at hx hy
        obtain ⟨ha, hxa⟩ := List.getElem?_eq_some_iff.1 hx
        obtain ⟨hb, hxb⟩ := List.getElem?_eq_some_iff.1 hy
        exact (hlast.getElem_inj_iff).1 (hxa.trans hxb.symm)
      · intro x hx
        obtain ⟨q, -, hq⟩ := List.mem_filterMap.1 hx
        exact List.mem_of_getElem? hq
  rw [e1, k1]
  refine ⟨by rw [List.length_append, k2]; omega, ?_, ?_, ?_⟩
  · refine List.nodup_append.2 ⟨(List.nodup_append.1 hall).1, hkept.1, fun a ha b hb => ?_⟩
    exact (List.nodup_append.1 hall).2.2 a ha b (List.mem_append_left _ (hkept.2 b hb))
  · intro x hx
    refine h.perm.mem_iff.1 ?_
    rw [e1, List.flatten_append, List.flatten_cons]
    rcases List.mem_append.1 hx with hx | hx
    · exact List.mem_append_left _ hx
    · exact List.mem_append_right _ (List.mem_append_left _ (hkept.2 x hx))
  · intro x hx y hy hd
    rw [e1] at h
    refine List.mem_append_left _ (frontsOf_prefix_closed h x ?_ y hy hd)
    rcases List.mem_append.1 hx with hx | hx
    · exact List.mem_append_left _ hx
    · exact List.mem_append_right _ (hkept.2 x hx)

end Survival

/-- C88. The whole survival: with the selection of the code the hypothesis on `select` is met, whatever distances and orders are used for the splitting front. -/
theorem C88_rnsga2 {ι K : Type*} [LinearOrder K] (argsort : (ℕ → ℕ) → List ℕ → List ℕ) (hs : ∀ f L, (argsort f L).Perm L ∧ (argsort f L).Pairwise fun a b => f a ≤ f b)
    (dist : List ι → ℕ → ℕ → K) (eps : K) (orders : List ι → List (List ℕ)) (n : ℕ) (dom : ι → ι → Prop) (pop : List ι) (hnd : pop.Nodup) (fronts : List (List ι))
    (h : FrontsOf dom pop fronts) (hn : n ≤ pop.length) (hn0 : 0 < n) :
    let S := rnsSurvivors (fun f k => rnsSelect argsort (dist f) eps (orders f) f.length k) n fronts
    S.length = n ∧ S.Nodup ∧ (∀ x ∈ S, x ∈ pop) ∧ (∀ x ∈ S, ∀ y ∈ pop, dom y x → y ∈ S) :=
  C88_survival _ (fun f k hk => by
    obtain ⟨-, -, -, a, b, c, -⟩ := C88_select argsort hs (dist f) eps (orders f) f.length k hk.le
    exact ⟨a, b, c⟩) n dom pop hnd fronts h hn hn0

/-! ### Distances and bounds -/

/-- C88. The postponement of a cleared member is half of the size of the front, rounded to the nearest integer (to the even one if there are two). -/
theorem C88_half (len : ℕ) : (2 * rnsHalf len = len ∨ 2 * rnsHalf len = len + 1 ∨ 2 * rnsHalf len + 1 = len) ∧ (len % 2 = 1 → rnsHalf len % 2 = 0) := by
  unfold rnsHalf
  split_ifs <;> omega

/-- C88. The distance is symmetric, non-negative, and for the default weights `1 / m` the Euclidean distance of the normalised vectors. -/
theorem C88_distance {m : ℕ} (w ideal nadir a b : Fin m → ℝ) : rnsDistance w ideal nadir a b = rnsDistance w ideal nadir b a ∧ 0 ≤ rnsDistance w ideal nadir a b ∧
    rnsDistance w ideal nadir a a = 0 ∧
    (0 < m → rnsDistance (fun _ => 1 / (m : ℝ)) ideal nadir a b = √(∑ j, ((a j - ideal j) / (nadir j - ideal j) - (b j - ideal j) / (nadir j - ideal j)) ^ 2)) := by
  refine ⟨?_, Real.sqrt_nonneg _, by simp [rnsDistance], fun hm => ?_⟩
  · unfold rnsDistance
    congr 2
    refine Finset.sum_congr rfl fun j _ => ?_
    rw [show a j - b j = -(b j - a j) by ring, neg_div, neg_sq]
  · unfold rnsDistance
    have hm' : (m : ℝ) ≠ 0 := by exact_mod_cast hm.ne'
    congr 1
    rw [← Finset.sum_mul, mul_assoc, one_div, inv_mul_cancel₀ hm', mul_one]
    refine Finset.sum_congr rfl fun j _ => ?_
    rw [← sub_div]; congr 2; ring

/-- C88, refuted: with `extreme_points_as_reference_points` the set of reference points is not fixed: every generation adds the extreme points of that generation. -/
theorem C88_reference_points_refuted {ρ : Type*} (refs : List ρ) (extreme : ℕ → List ρ) (m : ℕ) (hm : ∀ t, (extreme t).length = m) (t : ℕ) :
    ((List.range t).foldl (fun r k => rnsRefPoints true r (extreme k)) refs).length = refs.length + t * m ∧
    (List.range t).foldl (fun r k => rnsRefPoints false r (extreme k)) refs = refs := by
  induction t with
  | zero => simp
  | succ t ih =>
    rw [List.range_succ, List.foldl_append, List.foldl_append]
    refine ⟨?_, ?_⟩
    · simp only [List.foldl_cons, List.foldl_nil]
      unfold rnsRefPoints at ih ⊢
      simp only [if_true, List.length_append, hm] at ih ⊢
      rw [ih.1, Nat.succ_mul]; omega
    · rw [ih.2]; rfl

section Bounds
variable {K : Type*} {m : ℕ} [Field K] [LinearOrder K]

/-- C88. The normalisation `front` uses the minima and maxima of the first front (and keeps the old bounds if the front has a single member), `ever` those of everything seen so far,
`no` the unit cube. -/
theorem C88_bounds (old : Option ((Fin m → K) × (Fin m → K))) (F first : List (Fin m → K)) :
    rnsBounds .no old F first = some (fun _ => 0, fun _ => 1) ∧
    (first.length ≤ 1 → rnsBounds .front old F first = old) ∧
    (1 < first.length → ∃ lo hi, rnsBounds .front old F first = some (lo, hi) ∧ ∀ j, (∀ f ∈ first, lo j ≤ f j ∧ f j ≤ hi j) ∧ (∃ f ∈ first, f j = lo j) ∧ ∃ f ∈ first, f j = hi j) ∧
    (∀ a b, old = some (a, b) → ∃ lo hi, rnsBounds .ever old F first = some (lo, hi) ∧
      ∀ j, lo j ≤ a j ∧ b j ≤ hi j ∧ (∀ f ∈ F, lo j ≤ f j ∧ f j ≤ hi j) ∧ (lo j = a j ∨ ∃ f ∈ F, f j = lo j) ∧ (hi j = b j ∨ ∃ f ∈ F, f j = hi j)) := by
  have hmin : ∀ (L : List (Fin m → K)) (a : Fin m → K) (j : Fin m), (L.foldl (fun a f => fun j => min (a j) (f j)) a) j ≤ a j ∧
      (∀ f ∈ L, (L.foldl (fun a f => fun j => min (a j) (f j)) a) j ≤ f j) ∧
      ((L.foldl (fun a f => fun j => min (a j) (f j)) a) j = a j ∨ ∃ f ∈ L, f j = (L.foldl (fun a f => fun j => min (a j) (f j)) a) j) := by
    intro L
    induction L with
    | nil => simp
    | cons f L ih =>
      intro a j
      rw [List.foldl_cons]
      obtain ⟨h1, h2, h3⟩ := ih (fun j => min (a j) (f j)) j
      refine ⟨h1.trans (min_le_left _ _), ?_, ?_⟩
      · intro g hg
        rcases List.mem_cons.1 hg with rfl | hg
        · exact h1.trans (min_le_right _ _)
        · exact h2 g hg
      · rcases h3 with h3 | ⟨g, hg, h3⟩
        · rw [h3]
          rcases min_choice (a j) (f j) with h | h
          · left; exact h
          · right; exact ⟨f, by simp, h.symm⟩
        · right; exact ⟨g, by simp [hg], h3⟩
  have hmax : ∀ (L : List (Fin m → K)) (a : Fin m → K) (j : Fin m), a j ≤ (L.foldl (fun a f => fun j => max (a j) (f j)) a) j ∧
      (∀ f ∈ L, f j ≤ (L.foldl (fun a f => fun j => max (a j) (f j)) a) j) ∧
      ((L.foldl (fun a f => fun j => max (a j) (f j)) a) j = a j ∨ ∃ f ∈ L, f j = (L.foldl (fun a f => fun j => max (a j) (f j)) a) j) := by
    intro L
    induction L with
    | nil => simp
    | cons f L ih =>
      intro a j
      rw [List.foldl_cons]
      obtain ⟨h1, h2, h3⟩ := ih (fun j => max (a j) (f j)) j
      refine ⟨(le_max_left _ _).trans h1, ?_, ?_⟩
      · intro g hg
        rcases List.mem_cons.1 hg with rfl | hg
        · exact (le_max_right _ _).trans h1
        · exact h2 g hg
      · rcases h3 with h3 | ⟨g, hg, h3⟩
        · rw [h3]
          rcases max_choice (a j) (f j) with h | h
          · left; exact h
          · right; exact ⟨f, by simp, h.symm⟩
        · right; exact ⟨g, by simp [hg], h3⟩
  refine ⟨rfl, fun h => ?_, fun h => ?_, ?_⟩
  · unfold rnsBounds; simp only []; rw [if_neg (by omega)]
  · cases first with
    | nil => simp at h
    | cons f L =>
      unfold rnsBounds; simp only []; rw [if_pos h]
      refine ⟨_, _, rfl, fun j => ⟨?_, ?_, ?_⟩⟩
      · intro g hg
        rcases List.mem_cons.1 hg with rfl | hg
        · exact ⟨(hmin L g j).1, (hmax L g j).1⟩
        · exact ⟨(hmin L f j).2.1 g hg, (hmax L f j).2.1 g hg⟩
      · rcases (hmin L f j).2.2 with h | ⟨g, hg, h⟩
        · exact ⟨f, by simp, h.symm⟩
        · exact ⟨g, by simp [hg], h⟩
      · rcases (hmax L f j).2.2 with h | ⟨g, hg, h⟩
        · exact ⟨f, by simp, h.symm⟩
        · exact ⟨g, by simp [hg], h⟩
  · rintro a b rfl
    refine ⟨_, _, rfl, fun j => ⟨(hmin F a j).1, (hmax F b j).1, fun f hf => ⟨(hmin F a j).2.1 f hf, (hmax F b j).2.1 f hf⟩, (hmin F a j).2.2, (hmax F b j).2.2⟩⟩

end Bounds

/-- Non-vacuity: four positions on a line at 0, 1/10, 5, 9 and reference points at 0 and 9; positions 0 and 1 are closer than `eps = 1`, so 1 is put back and 0, 2, 3 are selected. -/
example : rnsSelect (K := ℚ) (fun f L => L.insertionSort fun a b => f a ≤ f b) (fun i j => |([0, 1 / 10, 5, 9] : List ℚ).getD i 0 - ([0, 1 / 10, 5, 9] : List ℚ).getD j 0|) 1
    [[0, 1, 2, 3], [3, 2, 1, 0]] 4 3 = [0, 3, 2] := by decide +kernel

end Props
