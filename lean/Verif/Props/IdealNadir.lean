import Verif.Props.Normalization

/-!
# C53 — ideal, worst, extreme and nadir points over a run

`Props.colMin_spec` and `Props.colMax_spec` describe the column minimum and maximum.
-/

namespace Props
open Model

set_option linter.unusedSimpArgs false

/-- `p` is the component-wise minimum of the non-empty set of points `S` in `n` dimensions. -/
def IsIdeal (n : ℕ) (S : List (List ℚ)) (p : List ℚ) : Prop :=
  p.length = n ∧ ∀ (j : ℕ) (v : ℚ), p[j]? = some v → (∃ r ∈ S, r[j]? = some v) ∧ ∀ r ∈ S, ∀ (x : ℚ), r[j]? = some x → v ≤ x

/-- `p` is the component-wise maximum. -/
def IsWorst (n : ℕ) (S : List (List ℚ)) (p : List ℚ) : Prop :=
  p.length = n ∧ ∀ (j : ℕ) (v : ℚ), p[j]? = some v → (∃ r ∈ S, r[j]? = some v) ∧ ∀ r ∈ S, ∀ (x : ℚ), r[j]? = some x → x ≤ v

theorem isIdeal_merge (n : ℕ) (S T : List (List ℚ)) (p q : List ℚ) (hp : IsIdeal n S p) (hq : IsIdeal n T q) :
    IsIdeal n (S ++ T) (List.zipWith min p q) := by
  refine ⟨by simp [hp.1, hq.1], fun j v hv => ?_⟩
  rw [List.getElem?_zipWith] at hv
  rcases hpj : p[j]? with _ | a <;> rcases hqj : q[j]? with _ | b <;> rw [hpj, hqj] at hv <;> simp at hv
  obtain ⟨⟨r, hr, hra⟩, h1⟩ := hp.2 j a hpj
  obtain ⟨⟨s, hs, hsb⟩, h2⟩ := hq.2 j b hqj
  subst hv
  constructor
  · rcases min_choice a b with h | h
    · exact ⟨r, by simp [hr], by rw [h, hra]⟩
    · exact ⟨s, by simp [hs], by rw [h, hsb]⟩
  · intro t ht x hx
    rcases List.mem_append.1 ht with ht | ht
    · exact (min_le_left _ _).trans (h1 t ht x hx)
    · exact (min_le_right _ _).trans (h2 t ht x hx)

theorem isWorst_merge (n : ℕ) (S T : List (List ℚ)) (p q : List ℚ) (hp : IsWorst n S p) (hq : IsWorst n T q) :
    IsWorst n (S ++ T) (List.zipWith max p q) := by
  refine ⟨by simp [hp.1, hq.1], fun j v hv => ?_⟩
  rw [List.getElem?_zipWith] at hv
  rcases hpj : p[j]? with _ | a <;> rcases hqj : q[j]? with _ | b <;> rw [hpj, hqj] at hv <;> simp at hv
  obtain ⟨⟨r, hr, hra⟩, h1⟩ := hp.2 j a hpj
  obtain ⟨⟨s, hs, hsb⟩, h2⟩ := hq.2 j b hqj
  subst hv
  constructor
  · rcases max_choice a b with h | h
    · exact ⟨r, by simp [hr], by rw [h, hra]⟩
    · exact ⟨s, by simp [hs], by rw [h, hsb]⟩
  · intro t ht x hx
    rcases List.mem_append.1 ht with ht | ht
    · exact (h1 t ht x hx).trans (le_max_left _ _)
    · exact (h2 t ht x hx).trans (le_max_right _ _)

theorem findIdeal_step (n : ℕ) (S F : List (List ℚ)) (cur : Option (List ℚ)) (p : List ℚ) (hF : ∀ r ∈ F, r.length = n)
    (hcur : ∀ c, cur = some c → IsIdeal n S c) (hnone : cur = none → S = []) (h : findIdeal F cur = some p) :
    IsIdeal n (S ++ F) p := by
  unfold findIdeal at h
  obtain ⟨m, hm, rfl⟩ := Option.map_eq_some_iff.1 h
  have hmi : IsIdeal n F m := colMin_spec F n hF m hm
  rcases cur with _ | c
  · rw [hnone rfl]; simpa using hmi
  · exact isIdeal_merge n S F c m (hcur c rfl) hmi

theorem findWorst_step (n : ℕ) (S F : List (List ℚ)) (cur : Option (List ℚ)) (p : List ℚ) (hF : ∀ r ∈ F, r.length = n)
    (hcur : ∀ c, cur = some c → IsWorst n S c) (hnone : cur = none → S = []) (h : findWorst F cur = some p) :
    IsWorst n (S ++ F) p := by
  unfold findWorst at h
  obtain ⟨m, hm, rfl⟩ := Option.map_eq_some_iff.1 h
  have hmi : IsWorst n F m := colMax_spec F n hF m hm
  rcases cur with _ | c
  · rw [hnone rfl]; simpa using hmi
  · exact isWorst_merge n S F c m (hcur c rfl) hmi

/-! ### ObjectiveSpaceNormalization -/

/-- A run: the populations (objective vectors with their feasibility) in the order in which `update` gets them. -/
def objNormRun (s : ObjNorm) : List (List (List ℚ × Bool)) → Option ObjNorm
  | [] => some s
  | pop :: ps => (objNormUpdate s pop).bind fun s' => objNormRun s' ps

/-- C53. After any sequence of updates the two ideal points are the component-wise minima of all points, and of all feasible
points, that were ever seen; there is no feasible ideal point as long as no feasible point was seen. -/
theorem C53_objective_ideal (n : ℕ) (pops : List (List (List ℚ × Bool))) (hn : ∀ pop ∈ pops, ∀ e ∈ pop, e.1.length = n)
    (s : ObjNorm) (h : objNormRun ⟨none, none⟩ pops = some s) :
    (pops ≠ [] → ∃ p, s.infeasIdeal = some p ∧ IsIdeal n (pops.flatten.map Prod.fst) p) ∧
    (∀ e ∈ pops.flatten, e.2 = true → s.ideal ≠ none) ∧
    (∀ p, s.ideal = some p → IsIdeal n ((pops.flatten.filter Prod.snd).map Prod.fst) p) := by
  have main : ∀ (pops seen : List (List (List ℚ × Bool))) (s0 s : ObjNorm),
      (∀ pop ∈ pops, ∀ e ∈ pop, e.1.length = n) →
      (seen ≠ [] → ∃ p, s0.infeasIdeal = some p) →
      (∀ p, s0.infeasIdeal = some p → IsIdeal n (seen.flatten.map Prod.fst) p) →
      (s0.infeasIdeal = none → seen = []) →
      (s0.ideal = none → seen.flatten.filter Prod.snd = []) →
      (∀ p, s0.ideal = some p → IsIdeal n ((seen.flatten.filter Prod.snd).map Prod.fst) p) →
      objNormRun s0 pops = some s →
      ((seen ++ pops) ≠ [] → ∃ p, s.infeasIdeal = some p ∧ IsIdeal n ((seen ++ pops).flatten.map Prod.fst) p) ∧
      (s.ideal = none → (seen ++ pops).flatten.filter Prod.snd = []) ∧
      (∀ p, s.ideal = some p → IsIdeal n (((seen ++ pops).flatten.filter Prod.snd).map Prod.fst) p) := by
    intro pops
    induction pops with
    | nil =>
      intro seen s0 s _ h1 h2 _ h4 h5 h
      simp only [objNormRun, Option.some.injEq] at h
      subst h
      rw [List.append_nil]
      refine ⟨fun hne => ?_, h4, h5⟩
      obtain ⟨p, hp⟩ := h1 hne
      exact ⟨p, hp, h2 p hp⟩
    | cons pop pops ih =>
      intro seen s0 s hn h1 h2 h3 h4 h5 h
      simp only [objNormRun] at h
      obtain ⟨s1, hs1, h⟩ := Option.bind_eq_some_iff.1 h
      unfold objNormUpdate at hs1
      obtain ⟨inf, hinf, hs1⟩ := Option.map_eq_some_iff.1 hs1
      have hlen : ∀ r ∈ pop.map Prod.fst, r.length = n := by
        intro r hr
        obtain ⟨e, he, rfl⟩ := List.mem_map.1 hr
        exact hn pop (by simp) e he
      have hi := findIdeal_step n (seen.flatten.map Prod.fst) (pop.map Prod.fst) s0.infeasIdeal inf hlen h2
        (fun h => by rw [h3 h]; rfl) hinf
      have hlen' : ∀ r ∈ (pop.filter Prod.snd).map Prod.fst, r.length = n := by
        intro r hr
        obtain ⟨e, he, rfl⟩ := List.mem_map.1 hr
        exact hn pop (by simp) e (List.mem_of_mem_filter he)
      have := ih (seen ++ [pop]) s1 s (fun p hp => hn p (by simp [hp])) ?_ ?_ ?_ ?_ ?_ h
      · simpa using this
      · intro _
        refine ⟨inf, ?_⟩
        rw [← hs1]; split <;> rfl
      · intro p hp
        have : s1.infeasIdeal = some inf := by rw [← hs1]; split <;> rfl
        rw [this] at hp; cases hp
        simpa using hi
      · intro hnone
        have : s1.infeasIdeal = some inf := by rw [← hs1]; split <;> rfl
        rw [this] at hnone; cases hnone
      · intro hnone
        by_cases hany : pop.any Prod.snd = true
        · rw [if_pos hany] at hs1
          rw [← hs1] at hnone
          simp only at hnone
          obtain ⟨e, he, hf⟩ := List.any_eq_true.1 hany
          have : ∃ q, findIdeal ((pop.filter Prod.snd).map Prod.fst) s0.ideal = some q := by
            have hne : (pop.filter Prod.snd).map Prod.fst ≠ [] := by
              intro hc
              rw [List.map_eq_nil_iff] at hc
              have := List.mem_filter.2 ⟨he, hf⟩
              rw [hc] at this; simp at this
            obtain ⟨a, t, ht⟩ := List.exists_cons_of_ne_nil hne
            rw [ht]; exact ⟨_, rfl⟩
          obtain ⟨q, hq⟩ := this
          rw [hq] at hnone; cases hnone
        · rw [if_neg hany] at hs1
          rw [← hs1] at hnone
          have hp : pop.filter Prod.snd = [] := by
            rw [List.filter_eq_nil_iff]
            intro e he hf
            exact hany (List.any_eq_true.2 ⟨e, he, hf⟩)
          simp [hp, h4 hnone]
      · intro p hp
        by_cases hany : pop.any Prod.snd = true
        · rw [if_pos hany] at hs1
          rw [← hs1] at hp
          have := findIdeal_step n ((seen.flatten.filter Prod.snd).map Prod.fst) _ s0.ideal p hlen' h5
            (fun h => by rw [h4 h]; rfl) hp
          simpa using this
        · rw [if_neg hany] at hs1
          rw [← hs1] at hp
          have hpn : pop.filter Prod.snd = [] := by
            rw [List.filter_eq_nil_iff]
            intro e he hf
            exact hany (List.any_eq_true.2 ⟨e, he, hf⟩)
          simpa [hpn] using h5 p hp
  have := main pops [] ⟨none, none⟩ s hn (by simp) (by simp) (by simp) (by simp) (by simp) h
  simp only [List.nil_append] at this
  refine ⟨this.1, fun e he hf hnone => ?_, this.2.2⟩
  have h1 := this.2.1 hnone
  have := List.mem_filter.2 ⟨he, hf⟩
  rw [h1] at this
  simp at this

example : ∃ s, objNormRun ⟨none, none⟩ [[([3, 4], true), ([1, 9], false)], [([5, 2], true)]] = some s ∧
    s.ideal = some [3, 2] ∧ s.infeasIdeal = some [1, 2] := by
  refine ⟨_, rfl, ?_, ?_⟩ <;> decide +kernel

/-! ### HyperplaneNormalization -/

/-- A run: the pairs of population and indices of its non-dominated members, in the order in which `update` gets them. -/
def hypRun (solve : List (List ℚ) → List ℚ → Option (List (Option ℚ))) (s : HypNorm) :
    List (List (List ℚ) × List ℕ) → Option HypNorm
  | [] => some s
  | e :: es => (hypUpdate solve s e.1 e.2).bind fun s' => hypRun solve s' es

theorem argminFirst_spec (l : List ℚ) (hne : l ≠ []) :
    ∃ h : argminFirst l < l.length, ∀ x ∈ l, l[argminFirst l] ≤ x := by
  have fold : ∀ (t : List (ℚ × ℕ)) (b : ℚ × ℕ),
      (t.foldl (fun b e => if e.1 < b.1 then e else b) b = b ∨ t.foldl (fun b e => if e.1 < b.1 then e else b) b ∈ t) ∧
      (t.foldl (fun b e => if e.1 < b.1 then e else b) b).1 ≤ b.1 ∧
      ∀ e ∈ t, (t.foldl (fun b e => if e.1 < b.1 then e else b) b).1 ≤ e.1 := by
    intro t
    induction t with
    | nil => intro b; exact ⟨Or.inl rfl, le_refl _, by simp⟩
    | cons a t ih =>
      intro b
      simp only [List.foldl_cons]
      by_cases h : a.1 < b.1
      · rw [if_pos h]
        obtain ⟨h1, h2, h3⟩ := ih a
        refine ⟨Or.inr ?_, h2.trans h.le, fun e he => ?_⟩
        · rcases h1 with h1 | h1
          · rw [h1]; exact List.mem_cons_self ..
          · exact List.mem_cons_of_mem _ h1
        · rcases List.mem_cons.1 he with rfl | he
          · exact h2
          · exact h3 e he
      · rw [if_neg h]
        obtain ⟨h1, h2, h3⟩ := ih b
        refine ⟨?_, h2, fun e he => ?_⟩
        · rcases h1 with h1 | h1
          · exact Or.inl h1
          · exact Or.inr (List.mem_cons_of_mem _ h1)
        · rcases List.mem_cons.1 he with rfl | he
          · exact h2.trans (not_lt.1 h)
          · exact h3 e he
  have hmz : ∀ (l : List ℚ) (j : ℕ) (hj : j < l.length), (l[j], j) ∈ l.zipIdx := by
    intro l j hj
    rw [List.mem_zipIdx_iff_getElem?]
    exact List.getElem?_eq_getElem hj
  obtain ⟨a, t, rfl⟩ := List.exists_cons_of_ne_nil hne
  obtain ⟨h1, h2, h3⟩ := fold (a :: t).zipIdx ((a :: t).headD 0, 0)
  set r := (a :: t).zipIdx.foldl (fun b e => if e.1 < b.1 then e else b) ((a :: t).headD 0, 0) with hr
  have hmem : r ∈ (a :: t).zipIdx := by
    rcases h1 with h1 | h1
    · rw [h1]; exact hmz (a :: t) 0 (by simp)
    · exact h1
  have hget := List.mem_zipIdx_iff_getElem?.1 hmem
  have ha : argminFirst (a :: t) = r.2 := rfl
  obtain ⟨hi, he⟩ := List.getElem?_eq_some_iff.1 hget
  refine ⟨ha ▸ hi, fun x hx => ?_⟩
  obtain ⟨j, hj, rfl⟩ := List.getElem_of_mem hx
  have := h3 _ (hmz (a :: t) j hj)
  simp only [ha, he]
  exact this

/-- C53. Every extreme point is one of the candidates (the former extreme points and the new front), and for the objective it
stands for no candidate has a smaller weighted distance to the ideal point. -/
theorem C53_extreme_points (F : List (List ℚ)) (ideal : List ℚ) (old : Option (List (List ℚ))) (hne : old.getD [] ++ F ≠ []) :
    (extremePoints F ideal old).length = ideal.length ∧
    ∀ (k : ℕ) (e : List ℚ), (extremePoints F ideal old)[k]? = some e → e ∈ old.getD [] ++ F ∧
      ∀ f ∈ old.getD [] ++ F, extremeAsf ideal k e ≤ extremeAsf ideal k f := by
  refine ⟨by simp [extremePoints], fun k e he => ?_⟩
  simp only [extremePoints, List.getElem?_map, Option.map_eq_some_iff] at he
  obtain ⟨k', hk, rfl⟩ := he
  obtain ⟨hk1, rfl⟩ := List.getElem?_eq_some_iff.1 hk
  simp only [List.length_range] at hk1
  simp only [List.getElem_range]
  set F' := old.getD [] ++ F
  obtain ⟨h1, h2⟩ := argminFirst_spec (F'.map (extremeAsf ideal k)) (by simpa using hne)
  have h1' : argminFirst (F'.map (extremeAsf ideal k)) < F'.length := by simpa using h1
  have hg : F'.getD (argminFirst (F'.map (extremeAsf ideal k))) [] = F'[argminFirst (F'.map (extremeAsf ideal k))] := by
    simp [h1']
  rw [hg]
  refine ⟨List.getElem_mem h1', fun f hf => ?_⟩
  have := h2 (extremeAsf ideal k f) (List.mem_map.2 ⟨f, hf, rfl⟩)
  simpa using this

example : extremePoints [[1, 5], [3, 2], [6, 0]] [1, 0] none = [[6, 0], [1, 5]] := by decide +kernel

theorem fixSmallRange_spec (ideal worst worstPop nadir : List ℚ) (n : ℕ) (h1 : ideal.length = n)
    (h2 : worstPop.length = n) (h3 : nadir.length = n) (h4 : worst.length = n)
    (hpi : ∀ (j : ℕ) (a b : ℚ), ideal[j]? = some a → worstPop[j]? = some b → a ≤ b)
    (hpw : ∀ (j : ℕ) (a b : ℚ), worstPop[j]? = some a → worst[j]? = some b → a ≤ b)
    (hnw : ∀ (j : ℕ) (a b : ℚ), nadir[j]? = some a → worst[j]? = some b → a ≤ b) :
    (fixSmallRange ideal worstPop nadir).length = n ∧ ∀ j < n, ∃ a b c d : ℚ, ideal[j]? = some a ∧
      (fixSmallRange ideal worstPop nadir)[j]? = some b ∧ worst[j]? = some c ∧ worstPop[j]? = some d ∧
      a ≤ b ∧ b ≤ c ∧ (b - a ≤ 1 / 10 ^ 6 → b = d) := by
  refine ⟨by simp [fixSmallRange, h1, h2, h3], fun j hj => ?_⟩
  have e1 : ideal[j]? = some ideal[j] := List.getElem?_eq_getElem (by omega)
  have e2 : worstPop[j]? = some worstPop[j] := List.getElem?_eq_getElem (by omega)
  have e3 : nadir[j]? = some nadir[j] := List.getElem?_eq_getElem (by omega)
  have e4 : worst[j]? = some worst[j] := List.getElem?_eq_getElem (by omega)
  have hz : (ideal.zip worstPop)[j]? = some (ideal[j], worstPop[j]) := by
    rw [List.getElem?_zip_eq_some]; exact ⟨e1, e2⟩
  refine ⟨_, if nadir[j] - ideal[j] ≤ 1 / 10 ^ 6 then worstPop[j] else nadir[j], _, _, e1, ?_, e4, e2, ?_, ?_, ?_⟩
  · simp only [fixSmallRange, List.getElem?_zipWith, hz, e3]
  · have := hpi j _ _ e1 e2
    split_ifs with h
    · exact this
    · have : (0 : ℚ) < 1 / 10 ^ 6 := by norm_num
      linarith
  · split_ifs
    · exact hpw j _ _ e2 e4
    · exact hnw j _ _ e3 e4
  · split_ifs with h
    · intro _; rfl
    · intro hc; exact absurd hc h

/-- C53. The value of the nadir point: the intercept of the hyperplane (at most the worst value seen) if there is a hyperplane
with intercepts larger than `1e-6`, the worst value of the front otherwise; where this is within `1e-6` of the ideal point,
the worst value of the population. -/
theorem C53_nadir_value (solve : List (List ℚ) → List ℚ → Option (List (Option ℚ))) (E : List (List ℚ))
    (ideal worst wf wp : List ℚ) (j : ℕ) (a b c d : ℚ) (ha : ideal[j]? = some a) (hb : worst[j]? = some b)
    (hc : wf[j]? = some c) (hd : wp[j]? = some d) :
    (∀ ic v, solve E ideal = some ic → (∀ w, some w ∈ ic → 1 / 10 ^ 6 < w) → ic[j]? = some (some v) →
      (nadirPoint solve E ideal worst wf wp)[j]? = some (if min (a + v) b - a ≤ 1 / 10 ^ 6 then d else min (a + v) b)) ∧
    (∀ ic, solve E ideal = some ic → (∀ w, some w ∈ ic → 1 / 10 ^ 6 < w) → ic[j]? = some none →
      (nadirPoint solve E ideal worst wf wp)[j]? = some (if b - a ≤ 1 / 10 ^ 6 then d else b)) ∧
    ((solve E ideal = none ∨ ∃ ic w, solve E ideal = some ic ∧ some w ∈ ic ∧ w ≤ 1 / 10 ^ 6) →
      (nadirPoint solve E ideal worst wf wp)[j]? = some (if c - a ≤ 1 / 10 ^ 6 then d else c)) := by
  have hz1 : (ideal.zip wp)[j]? = some (a, d) := by rw [List.getElem?_zip_eq_some]; exact ⟨ha, hd⟩
  have hz2 : (ideal.zip worst)[j]? = some (a, b) := by rw [List.getElem?_zip_eq_some]; exact ⟨ha, hb⟩
  have hno : ∀ ic : List (Option ℚ), (∀ w, some w ∈ ic → 1 / 10 ^ 6 < w) →
      ¬ (ic.any fun c => (c.map fun v => decide (v ≤ 1 / 10 ^ 6)).getD false) = true := by
    intro ic h hany
    obtain ⟨o, ho, hv⟩ := List.any_eq_true.1 hany
    rcases o with _ | w
    · simp at hv
    · simp only [Option.map_some, Option.getD_some, decide_eq_true_eq] at hv
      exact absurd (h w ho) (not_lt.2 hv)
  refine ⟨?_, ?_, ?_⟩
  · intro ic v hs h hv
    simp only [nadirPoint, hs, hno ic h, if_false, Bool.false_eq_true, fixSmallRange, List.getElem?_zipWith, hz1, hz2, hv,
      clipNadir]
    congr 1
    rcases lt_or_ge b (a + v) with hlt | hge
    · rw [if_pos hlt, min_eq_right hlt.le]
    · rw [if_neg (not_lt.2 hge), min_eq_left hge]
  · intro ic hs h hv
    simp only [nadirPoint, hs, hno ic h, if_false, Bool.false_eq_true, fixSmallRange, List.getElem?_zipWith, hz1, hz2, hv,
      clipNadir]
  · rintro (hs | ⟨ic, w, hs, hw, hle⟩)
    · simp only [nadirPoint, hs, fixSmallRange, List.getElem?_zipWith, hz1, hc]
    · have : (ic.any fun c => (c.map fun v => decide (v ≤ 1 / 10 ^ 6)).getD false) = true :=
        List.any_eq_true.2 ⟨some w, hw, by simpa using hle⟩
      simp only [nadirPoint, hs, this, if_true, fixSmallRange, List.getElem?_zipWith, hz1, hc]

example : nadirPoint (fun _ _ => some [some 4, some 10]) [] [1, 0] [7, 7] [6, 5] [7, 7] = [5, 7] ∧
    nadirPoint (fun _ _ => none) [] [1, 5] [7, 7] [6, 5] [7, 7] = [6, 7] := by decide +kernel

/-- C53. After any non-empty sequence of updates of the hyperplane normalisation, for every behaviour of the linear solver
that returns one intercept per objective: the ideal and worst points are the component-wise minimum and maximum of everything
seen, and the nadir point lies between them; if its distance to the ideal point is at most `1e-6` in some objective, it is the
largest value of the current population there. -/
theorem C53_hyperplane (n : ℕ) (solve : List (List ℚ) → List ℚ → Option (List (Option ℚ)))
    (hsolve : ∀ E p ic, p.length = n → solve E p = some ic → ic.length = n)
    (es : List (List (List ℚ) × List ℕ)) (e : List (List ℚ) × List ℕ)
    (hn : ∀ a ∈ es ++ [e], ∀ r ∈ a.1, r.length = n) (s : HypNorm) (h : hypRun solve hypInit (es ++ [e]) = some s) :
    ∃ ideal nadir worst, s.ideal = some ideal ∧ s.nadir = some nadir ∧ s.worst = some worst ∧
      IsIdeal n ((es ++ [e]).flatMap Prod.fst) ideal ∧ IsWorst n ((es ++ [e]).flatMap Prod.fst) worst ∧
      ∀ j < n, ∃ a b c d : ℚ, ideal[j]? = some a ∧ nadir[j]? = some b ∧ worst[j]? = some c ∧
        a ≤ b ∧ b ≤ c ∧ ((∃ r ∈ e.1, r[j]? = some d) ∧ ∀ r ∈ e.1, ∀ (x : ℚ), r[j]? = some x → x ≤ d) ∧
        (b - a ≤ 1 / 10 ^ 6 → b = d) := by
  -- one update
  have step : ∀ (S : List (List ℚ)) (s0 s1 : HypNorm) (F : List (List ℚ)) (nds : List ℕ),
      (∀ r ∈ F, r.length = n) →
      (∀ p, s0.ideal = some p → IsIdeal n S p) → (∀ p, s0.worst = some p → IsWorst n S p) →
      (s0.ideal = none → S = []) → (s0.worst = none → S = []) →
      hypUpdate solve s0 F nds = some s1 →
      ∃ ideal nadir worst, s1.ideal = some ideal ∧ s1.nadir = some nadir ∧ s1.worst = some worst ∧
        IsIdeal n (S ++ F) ideal ∧ IsWorst n (S ++ F) worst ∧
        ∀ j < n, ∃ a b c d : ℚ, ideal[j]? = some a ∧ nadir[j]? = some b ∧ worst[j]? = some c ∧
          a ≤ b ∧ b ≤ c ∧ ((∃ r ∈ F, r[j]? = some d) ∧ ∀ r ∈ F, ∀ (x : ℚ), r[j]? = some x → x ≤ d) ∧
          (b - a ≤ 1 / 10 ^ 6 → b = d) := by
    intro S s0 s1 F nds hF hi hw hi0 hw0 hup
    unfold hypUpdate at hup
    simp only [Option.bind_eq_some_iff, Option.some.injEq] at hup
    obtain ⟨ideal, hideal, worst, hworst, wp, hwp, wf, hwf, rfl⟩ := hup
    have I1 := findIdeal_step n S F _ ideal hF hi hi0 hideal
    have W1 := findWorst_step n S F _ worst hF hw hw0 hworst
    have P1 : IsWorst n F wp := colMax_spec F n hF wp hwp
    have hfr : ∀ r ∈ nds.filterMap (fun i => F[i]?), r ∈ F := by
      intro r hr
      obtain ⟨i, -, hi⟩ := List.mem_filterMap.1 hr
      exact List.mem_of_getElem? hi
    have Q1 : IsWorst n (nds.filterMap fun i => F[i]?) wf := colMax_spec _ n (fun r hr => hF r (hfr r hr)) wf hwf
    set ext := extremePoints (nds.filterMap fun i => F[i]?) ideal s0.extreme
    -- the point before the small ranges are fixed is at most the worst point
    have key : ∀ nadir0 : List ℚ, (nadir0 = wf ∨ ∃ ic, solve ext ideal = some ic ∧
        nadir0 = List.zipWith clipNadir (ideal.zip worst) ic) →
        nadir0.length = n ∧ ∀ (j : ℕ) (a b : ℚ), nadir0[j]? = some a → worst[j]? = some b → a ≤ b := by
      rintro nadir0 (rfl | ⟨ic, hic, rfl⟩)
      · refine ⟨Q1.1, fun j a b ha hb => ?_⟩
        obtain ⟨⟨r, hr, hra⟩, -⟩ := Q1.2 j a ha
        exact (W1.2 j b hb).2 r (by simp [hfr r hr]) a hra
      · refine ⟨by simp [I1.1, W1.1, hsolve _ _ _ I1.1 hic], fun j a b ha hb => ?_⟩
        rw [List.getElem?_zipWith] at ha
        rcases hz : (ideal.zip worst)[j]? with _ | ⟨p, q⟩
        · rw [hz] at ha; cases ha
        · have hq : worst[j]? = some q := (List.getElem?_zip_eq_some.1 hz).2
          rw [hb] at hq; cases hq
          rcases hc : ic[j]? with _ | c
          · rw [hz, hc] at ha; cases ha
          · rw [hz, hc] at ha
            rcases c with _ | v
            · cases ha; exact le_refl _
            · simp only [Option.some.injEq] at ha
              subst ha
              simp only [clipNadir]
              split_ifs with h
              · exact le_refl _
              · exact not_lt.1 h
    have hpi : ∀ (j : ℕ) (a b : ℚ), ideal[j]? = some a → wp[j]? = some b → a ≤ b := by
      intro j a b ha hb
      obtain ⟨⟨r, hr, hrb⟩, -⟩ := P1.2 j b hb
      exact (I1.2 j a ha).2 r (by simp [hr]) b hrb
    have hpw : ∀ (j : ℕ) (a b : ℚ), wp[j]? = some a → worst[j]? = some b → a ≤ b := by
      intro j a b ha hb
      obtain ⟨⟨r, hr, hra⟩, -⟩ := P1.2 j a ha
      exact (W1.2 j b hb).2 r (by simp [hr]) a hra
    have hform : ∃ nadir0, nadirPoint solve ext ideal worst wf wp = fixSmallRange ideal wp nadir0 ∧ (nadir0 = wf ∨
        ∃ ic, solve ext ideal = some ic ∧
        nadir0 = List.zipWith clipNadir (ideal.zip worst) ic) := by
      unfold nadirPoint
      rcases hs : solve ext ideal with _ | ic
      · exact ⟨wf, rfl, Or.inl rfl⟩
      · by_cases hany : (ic.any fun c => (c.map fun v => decide (v ≤ 1 / 10 ^ 6)).getD false) = true
        · refine ⟨wf, ?_, Or.inl rfl⟩
          simp only [hany, if_true]
        · refine ⟨_, ?_, Or.inr ⟨ic, rfl, rfl⟩⟩
          simp only [hany, if_false, Bool.false_eq_true]
    obtain ⟨nadir0, hnad, hor⟩ := hform
    obtain ⟨k1, k2⟩ := key nadir0 hor
    obtain ⟨-, hfix⟩ := fixSmallRange_spec ideal worst wp nadir0 n I1.1 P1.1 k1 W1.1 hpi hpw k2
    refine ⟨ideal, _, worst, rfl, rfl, rfl, I1, W1, fun j hj => ?_⟩
    obtain ⟨a, b, c, d, ha, hb, hc, hd, hab, hbc, himp⟩ := hfix j hj
    refine ⟨a, b, c, d, ha, by rw [hnad]; exact hb, hc, hab, hbc, P1.2 j d hd, himp⟩
  -- all updates
  have main : ∀ (es : List (List (List ℚ) × List ℕ)) (e : List (List ℚ) × List ℕ) (S : List (List ℚ)) (s0 s : HypNorm),
      (∀ a ∈ es ++ [e], ∀ r ∈ a.1, r.length = n) →
      (∀ p, s0.ideal = some p → IsIdeal n S p) → (∀ p, s0.worst = some p → IsWorst n S p) →
      (s0.ideal = none → S = []) → (s0.worst = none → S = []) →
      hypRun solve s0 (es ++ [e]) = some s →
      ∃ ideal nadir worst, s.ideal = some ideal ∧ s.nadir = some nadir ∧ s.worst = some worst ∧
        IsIdeal n (S ++ (es ++ [e]).flatMap Prod.fst) ideal ∧ IsWorst n (S ++ (es ++ [e]).flatMap Prod.fst) worst ∧
        ∀ j < n, ∃ a b c d : ℚ, ideal[j]? = some a ∧ nadir[j]? = some b ∧ worst[j]? = some c ∧
          a ≤ b ∧ b ≤ c ∧ ((∃ r ∈ e.1, r[j]? = some d) ∧ ∀ r ∈ e.1, ∀ (x : ℚ), r[j]? = some x → x ≤ d) ∧
          (b - a ≤ 1 / 10 ^ 6 → b = d) := by
    intro es
    induction es with
    | nil =>
      intro e S s0 s hn hi hw hi0 hw0 h
      simp only [List.nil_append, hypRun] at h
      obtain ⟨s1, hs1, h⟩ := Option.bind_eq_some_iff.1 h
      simp only [hypRun, Option.some.injEq] at h
      subst h
      have := step S s0 s1 e.1 e.2 (hn e (by simp)) hi hw hi0 hw0 hs1
      simpa using this
    | cons a es ih =>
      intro e S s0 s hn hi hw hi0 hw0 h
      simp only [List.cons_append, hypRun] at h
      obtain ⟨s1, hs1, h⟩ := Option.bind_eq_some_iff.1 h
      obtain ⟨ideal, nadir, worst, h1, h2, h3, h4, h5, -⟩ := step S s0 s1 a.1 a.2 (hn a (by simp)) hi hw hi0 hw0 hs1
      have := ih e (S ++ a.1) s1 s (fun b hb => hn b (by simp only [List.cons_append, List.mem_cons]; exact Or.inr hb))
        (by intro p hp; rw [h1] at hp; cases hp; exact h4)
        (by intro p hp; rw [h3] at hp; cases hp; exact h5)
        (by intro hp; rw [h1] at hp; cases hp) (by intro hp; rw [h3] at hp; cases hp) h
      simpa [List.flatMap_cons] using this
  have := main es e [] hypInit s hn (by simp [hypInit]) (by simp [hypInit]) (by simp) (by simp) h
  simpa using this

example : ∃ s, hypRun (fun _ _ => some [some 4, none]) hypInit
      [([[1, 5], [3, 2], [6, 0], [7, 7]], [0, 1, 2]), ([[2, 3], [4, 1]], [0, 1])] = some s ∧
    s.ideal = some [1, 0] ∧ s.worst = some [7, 7] ∧ s.nadir = some [5, 7] ∧ s.extreme = some [[6, 0], [1, 5]] := by
  refine ⟨_, rfl, ?_, ?_, ?_, ?_⟩ <;> decide +kernel

end Props
