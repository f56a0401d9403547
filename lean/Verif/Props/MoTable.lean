import Verif.Model.MoTable
import Mathlib.Tactic.Linarith
import Mathlib.Tactic.NormNum
import Mathlib.Data.Real.Basic

/-!
# C154: the table of multi-objective runs
-/

set_option linter.unusedSimpArgs false
set_option linter.unusedVariables false

namespace Props
open Model Spec

variable {P : Type*} {V : Type*}

/-- The objective values of the feasible members of `opt`, if there are any. -/
def feasVals (g : MoGen P V) : Option (List V) :=
  match (g.opt.filter fun e => e.2.1).map fun e => e.1 with
  | [] => none
  | v :: l => some (v :: l)

/-- The same for generation `j` of a run. -/
def feasAt (gens : List (MoGen P V)) (j : ℕ) : Option (List V) := (gens[j]?).bind feasVals

/-- The columns a user sees. -/
def moColumns (hasConstr hasFront : Bool) (nObj : ℕ) : List String :=
  ["n_gen", "n_eval", "n_nds"] ++ (if hasConstr then ["cv_min", "cv_avg"] else []) ++
    (if hasFront then ["igd", "gd"] ++ (if nObj = 2 then ["hv"] else []) else ["eps", "indicator"])

theorem moInit_columns (hasConstr : Bool) (nObj : ℕ) (pf : Option P) :
    (moInit hasConstr nObj pf (moFresh : MoState P V)).columns = moColumns hasConstr pf.isSome nObj := by
  unfold moInit moColumns moFresh
  cases pf <;> cases hasConstr <;> simp <;> split_ifs <;> rfl

theorem ref_gap {A : Type*} {delta : A → A → Deltas} {tol : ℝ} {s : ℕ → Option A} {k r : ℕ} (h : Ref delta tol s k r) (hk : s k = none) :
    Ref delta tol s (k + 1) r := by
  cases h with
  | first hr hlt hb =>
    refine .first hr (by omega) fun j hj hs => ?_
    rcases Nat.lt_succ_iff_lt_or_eq.1 hj with h | rfl
    · exact hb j h hs
    · rw [hk] at hs; simp at hs
  | keep h hr hm hq hlt hb =>
    refine .keep h hr hm hq (by omega) fun j h1 h2 => ?_
    rcases Nat.lt_succ_iff_lt_or_eq.1 h2 with h | rfl
    · exact hb j h1 h
    · exact hk
  | move h hr hm hq hlt hb =>
    refine .move h hr hm hq (by omega) fun j h1 h2 => ?_
    rcases Nat.lt_succ_iff_lt_or_eq.1 h2 with h | rfl
    · exact hb j h1 h
    · exact hk

theorem quiet_iff (d : Deltas) (tol : ℝ) : max (max d.ideal d.nadir) d.f ≤ tol ↔ d.Quiet tol := by
  unfold Deltas.Quiet
  rw [max_le_iff, max_le_iff, and_assoc]

/-- What holds before generation `k`. -/
structure MoInv (fs : MoFuns P V) (tol : ℝ) (dynamic : Bool) (cols : List String) (pf0 : Option P) (s : ℕ → Option (List V)) (k : ℕ)
    (st : MoState P V) : Prop where
  cols : st.columns = cols
  pf : dynamic = false → st.pf = pf0
  noInd : pf0.isSome → st.ind = none
  ind : pf0 = none → ∃ data dl, st.ind = some (data, dl) ∧ (data = none → dl = none ∧ ∀ j < k, s j = none) ∧
    ∀ a, data = some a → ∃ r, s r = some a ∧ Ref fs.delta tol s k r

theorem feasVals_none {g : MoGen P V} (h : moFeasible g = []) : feasVals g = none := by
  unfold moFeasible at h
  unfold feasVals
  rw [h]

theorem feasVals_some {g : MoGen P V} (h : moFeasible g ≠ []) : feasVals g = some (moFeasible g) := by
  unfold moFeasible at h ⊢
  unfold feasVals
  split
  · next h' => exact absurd h' h
  · next h' => rw [h']

theorem moUpdate_infeas {fs : MoFuns P V} {tol : ℝ} {dynamic : Bool} {st : MoState P V} {g : MoGen P V} (h : moFeasible g = []) :
    moUpdate fs tol dynamic st g = (st, moBase g) := by
  unfold moUpdate
  simp only [if_pos h]

theorem moUpdate_front {fs : MoFuns P V} {tol : ℝ} {dynamic : Bool} {st : MoState P V} {g : MoGen P V} (h : moFeasible g ≠ []) (hi : st.ind = none) :
    moUpdate fs tol dynamic st g = (⟨st.columns, if dynamic then g.pf else st.pf, none⟩,
      moFront fs st.columns (if dynamic then g.pf else st.pf) (moFeasible g) (moBase g)) := by
  unfold moUpdate
  simp only [if_neg h, hi]

theorem moUpdate_nofront {fs : MoFuns P V} {tol : ℝ} {dynamic : Bool} {st : MoState P V} {g : MoGen P V} (h : moFeasible g ≠ [])
    {i : Option (List V) × Option Deltas} (hi : st.ind = some i) :
    moUpdate fs tol dynamic st g = (⟨st.columns, if dynamic then g.pf else st.pf, some (indUpdate fs.delta tol i (moFeasible g))⟩,
      fun c => if c = "eps" then (epsCells tol (indUpdate fs.delta tol i (moFeasible g)).2).1
        else if c = "indicator" then (epsCells tol (indUpdate fs.delta tol i (moFeasible g)).2).2
        else moFront fs st.columns (if dynamic then g.pf else st.pf) (moFeasible g) (moBase g) c) := by
  unfold moUpdate
  simp only [if_neg h, hi]

theorem moInv_step {fs : MoFuns P V} {tol : ℝ} {dynamic : Bool} {cols : List String} {pf0 : Option P} {s : ℕ → Option (List V)} {k : ℕ}
    {st : MoState P V} (h : MoInv fs tol dynamic cols pf0 s k st) (g : MoGen P V) (hg : s k = feasVals g) :
    MoInv fs tol dynamic cols pf0 s (k + 1) (moUpdate fs tol dynamic st g).1 := by
  classical
  by_cases hF : moFeasible g = []
  · rw [moUpdate_infeas hF]
    have hk : s k = none := by rw [hg, feasVals_none hF]
    refine ⟨h.cols, h.pf, h.noInd, fun h0 => ?_⟩
    obtain ⟨data, dl, e1, e2, e3⟩ := h.ind h0
    refine ⟨data, dl, e1, fun hd => ⟨(e2 hd).1, fun j hj => ?_⟩, fun a ha => ?_⟩
    · rcases Nat.lt_succ_iff_lt_or_eq.1 hj with h' | rfl
      · exact (e2 hd).2 j h'
      · exact hk
    · obtain ⟨r, hr, hR⟩ := e3 a ha
      exact ⟨r, hr, ref_gap hR hk⟩
  · have hk : s k = some (moFeasible g) := by rw [hg, feasVals_some hF]
    cases hi : st.ind with
    | none =>
      rw [moUpdate_front hF hi]
      refine ⟨h.cols, fun hd => by simp [hd, h.pf hd], fun _ => rfl, fun h0 => ?_⟩
      obtain ⟨data, dl, e1, -⟩ := h.ind h0
      rw [hi] at e1
      simp at e1
    | some i =>
      rw [moUpdate_nofront hF hi]
      refine ⟨h.cols, fun hd => by simp [hd, h.pf hd], fun hs => ?_, fun h0 => ?_⟩
      · have := h.noInd hs
        rw [hi] at this
        simp at this
      · obtain ⟨data, dl, e1, e2, e3⟩ := h.ind h0
        rw [hi] at e1
        obtain rfl := Option.some.inj e1
        refine ⟨(indUpdate fs.delta tol (data, dl) (moFeasible g)).1, (indUpdate fs.delta tol (data, dl) (moFeasible g)).2, rfl, ?_, ?_⟩
        · intro hd
          exfalso
          unfold indUpdate at hd
          cases data with
          | none => simp at hd
          | some a => simp only at hd; split_ifs at hd <;> simp at hd
        · intro a ha
          unfold indUpdate at ha
          cases data with
          | none =>
            simp only [Option.some.injEq] at ha
            subst ha
            obtain ⟨-, h2⟩ := e2 rfl
            refine ⟨k, hk, .first (by rw [hk]; rfl) (by omega) fun j hj hs => ?_⟩
            rcases Nat.lt_succ_iff_lt_or_eq.1 hj with h' | h'
            · rw [h2 j h'] at hs; simp at hs
            · exact h'
          | some b =>
            obtain ⟨r, hr, hR⟩ := e3 b rfl
            simp only at ha
            split_ifs at ha with hq
            · obtain rfl := Option.some.inj ha
              exact ⟨r, hr, .keep hR hr hk ((quiet_iff _ _).1 hq) (by omega) (by intro j h1 h2; omega)⟩
            · obtain rfl := Option.some.inj ha
              exact ⟨k, hk, .move hR hr hk (fun h' => hq ((quiet_iff _ _).2 h')) (by omega) (by intro j h1 h2; omega)⟩

theorem moRows_get (fs : MoFuns P V) (tol : ℝ) (dynamic : Bool) (cols : List String) (pf0 : Option P) (s : ℕ → Option (List V)) :
    ∀ (gs : List (MoGen P V)) (off : ℕ) (st : MoState P V), MoInv fs tol dynamic cols pf0 s off st →
      (∀ (i : ℕ) g, gs[i]? = some g → s (off + i) = feasVals g) →
      (moRows fs tol dynamic st gs).length = gs.length ∧
      ∀ (i : ℕ) g, gs[i]? = some g → ∃ st', MoInv fs tol dynamic cols pf0 s (off + i) st' ∧
        (moRows fs tol dynamic st gs)[i]? = some (cols.map fun c => (c, (moUpdate fs tol dynamic st' g).2 c))
  | [], off, st, h, hs => ⟨rfl, by simp⟩
  | g :: gs, off, st, h, hs => by
    have h' := moInv_step h g (by have := hs 0 g rfl; simpa using this)
    obtain ⟨h1, h2⟩ := moRows_get fs tol dynamic cols pf0 s gs (off + 1) _ h' (fun i g' hg => by
      have := hs (i + 1) g' (by simpa using hg)
      rw [show off + 1 + i = off + (i + 1) by omega]
      exact this)
    refine ⟨by simp [moRows, h1], ?_⟩
    intro i g' hg
    cases i with
    | zero =>
      obtain rfl : g = g' := by simpa using hg
      refine ⟨st, by simpa using h, ?_⟩
      simp only [moRows, List.getElem?_cons_zero]
      rw [h'.cols]
    | succ i =>
      obtain ⟨st', e1, e2⟩ := h2 i g' (by simpa using hg)
      refine ⟨st', by rw [show off + (i + 1) = off + 1 + i by omega]; exact e1, ?_⟩
      simp only [moRows, List.getElem?_cons_succ]
      exact e2

theorem epsCells_shown (tol : ℝ) (d : Deltas) : ∃ v name, epsCells tol (some d) = (.num v, .name name) ∧ Shown d tol v name := by
  unfold epsCells Shown
  simp only
  split_ifs with h1 h2
  · exact ⟨_, _, rfl, Or.inl ⟨h1, rfl, rfl⟩⟩
  · exact ⟨_, _, rfl, Or.inr (Or.inl ⟨not_lt.1 h1, h2, rfl, rfl⟩)⟩
  · exact ⟨_, _, rfl, Or.inr (Or.inr ⟨not_lt.1 h1, not_lt.1 h2, rfl, rfl⟩)⟩

/-- The reference of a generation is earlier and has a feasible optimum. -/
theorem C154_reference {A : Type*} {delta : A → A → Deltas} {tol : ℝ} {s : ℕ → Option A} {k r : ℕ} (h : Ref delta tol s k r) :
    r < k ∧ (s r).isSome := by
  induction h with
  | first hr hlt hb => exact ⟨hlt, hr⟩
  | keep h hr hm hq hlt hb ih => exact ⟨by omega, ih.2⟩
  | move h hr hm hq hlt hb ih => exact ⟨hlt, by rw [hm]; rfl⟩

/-- **C154.** For every run of any length: there is one row per generation, and all rows have the same columns, determined at the first
generation by whether the problem has constraints, whether it has a known front, and the number of objectives. The row of a generation
depends on that generation only, except for `eps` and `indicator`:

* the counters, the size of the optimum, the least violation of the optimum, and the average violation of the population;
* if no member of the optimum is feasible, all indicators are empty;
* otherwise IGD, GD and HV (two objectives) are the indicators of the feasible members, relative to the front of the problem - for a dynamic
  problem, to the front at that moment;
* without a known front, `eps` and `indicator` are empty for the first generation with a feasible optimum, later they show the change relative to
  the reference generation. -/
theorem C154_table (fs : MoFuns P V) (tol : ℝ) (dynamic hasConstr : Bool) (nObj : ℕ) (gens : List (MoGen P V)) (g0 : MoGen P V)
    (h0 : gens[0]? = some g0) :
    (moTable fs tol dynamic hasConstr nObj gens).length = gens.length ∧
    ∀ (k : ℕ) g, gens[k]? = some g → ∃ cell : String → MoCell,
      (moTable fs tol dynamic hasConstr nObj gens)[k]? = some ((moColumns hasConstr g0.pf.isSome nObj).map fun c => (c, cell c)) ∧
      cell "n_gen" = .nat g.nGen ∧ cell "n_eval" = .nat g.nEval ∧ cell "n_nds" = .nat g.opt.length ∧
      (∀ v, v ∈ g.opt.map (fun e => e.2.2) → (∀ w ∈ g.opt.map (fun e => e.2.2), v ≤ w) → cell "cv_min" = .num v) ∧
      cell "cv_avg" = .num (g.popCv.sum / g.popCv.length) ∧
      (feasVals g = none → ∀ c ∈ ["igd", "gd", "hv", "eps", "indicator"], cell c = .none) ∧
      (∀ F, feasVals g = some F →
        (∀ p, (if dynamic then g.pf else g0.pf) = some p → cell "igd" = .num (fs.igd p F) ∧ cell "gd" = .num (fs.gd p F) ∧
          (g0.pf.isSome → nObj = 2 → cell "hv" = .num (fs.hv p F))) ∧
        ((if dynamic then g.pf else g0.pf) = none → ∀ c ∈ ["igd", "gd", "hv"], cell c = .none) ∧
        (g0.pf = none →
          ((∀ j < k, feasAt gens j = none) → cell "eps" = .none ∧ cell "indicator" = .none) ∧
          ((∃ j < k, feasAt gens j ≠ none) → ∃ r A v name, Ref fs.delta tol (feasAt gens) k r ∧ feasAt gens r = some A ∧
            cell "eps" = .num v ∧ cell "indicator" = .name name ∧ Shown (fs.delta A F) tol v name))) := by
  classical
  cases gens with
  | nil => simp at h0
  | cons g1 gs =>
    obtain rfl : g1 = g0 := by simpa using h0
    set st0 : MoState P V := moInit hasConstr nObj g1.pf moFresh with hst0
    have hinv : MoInv fs tol dynamic (moColumns hasConstr g1.pf.isSome nObj) g1.pf (feasAt (g1 :: gs)) 0 st0 := by
      refine ⟨moInit_columns _ _ _, fun _ => ?_, fun hs => ?_, fun hn => ?_⟩
      · rw [hst0]; unfold moInit; cases g1.pf <;> rfl
      · rw [hst0]; unfold moInit
        cases hp : g1.pf with
        | none => rw [hp] at hs; simp at hs
        | some p => rfl
      · refine ⟨none, none, ?_, fun _ => ⟨rfl, by intro j hj; omega⟩, by simp⟩
        rw [hst0, hn]
        rfl
    obtain ⟨hl, hrow⟩ := moRows_get fs tol dynamic (moColumns hasConstr g1.pf.isSome nObj) g1.pf (feasAt (g1 :: gs)) (g1 :: gs) 0 st0 hinv
      (fun i g hg => by rw [Nat.zero_add]; unfold feasAt; rw [hg]; rfl)
    refine ⟨hl, ?_⟩
    intro k g hg
    obtain ⟨st, hI, hr⟩ := hrow k g hg
    rw [Nat.zero_add] at hI
    refine ⟨(moUpdate fs tol dynamic st g).2, hr, ?_⟩
    have hbase : ∀ c, c ∉ ["igd", "gd", "hv", "eps", "indicator"] → (moUpdate fs tol dynamic st g).2 c = moBase g c := by
      intro c hc
      simp only [List.mem_cons, List.not_mem_nil, or_false, not_or] at hc
      obtain ⟨c1, c2, c3, c4, c5⟩ := hc
      have hfr : ∀ cols pf F, moFront fs cols pf F (moBase g) c = moBase g c := by
        intro cols pf F
        unfold moFront
        cases pf <;> simp [c1, c2, c3]
      by_cases hF : moFeasible g = []
      · rw [moUpdate_infeas hF]
      · cases hi : st.ind with
        | none => rw [moUpdate_front hF hi]; exact hfr _ _ _
        | some i => rw [moUpdate_nofront hF hi]; simp only [if_neg c4, if_neg c5]; exact hfr _ _ _
    refine ⟨by rw [hbase _ (by decide)]; simp [moBase], by rw [hbase _ (by decide)]; simp [moBase], by rw [hbase _ (by decide)]; simp [moBase], ?_,
      by rw [hbase _ (by decide)]; simp [moBase], ?_, ?_⟩
    · intro v hv hmin
      rw [hbase _ (by decide)]
      have : (g.opt.map fun e => e.2.2).min? = some v := List.min?_eq_some_iff.2 ⟨hv, hmin⟩
      simp [moBase, this]
    · intro hn c hc
      have hF : moFeasible g = [] := by
        by_contra h
        rw [feasVals_some h] at hn
        simp at hn
      rw [moUpdate_infeas hF]
      simp only [List.mem_cons, List.not_mem_nil, or_false] at hc
      rcases hc with rfl | rfl | rfl | rfl | rfl <;> simp [moBase]
    · intro F hFs
      have hF : moFeasible g ≠ [] := by
        intro h
        rw [feasVals_none h] at hFs
        simp at hFs
      obtain rfl : moFeasible g = F := by
        rw [feasVals_some hF] at hFs
        exact Option.some.inj hFs
      have hpf : (if dynamic then g.pf else st.pf) = if dynamic then g.pf else g1.pf := by
        cases hd : dynamic with
        | true => rfl
        | false => simp [hI.pf hd]
      have hfront : ∀ c, c ≠ "eps" → c ≠ "indicator" → (moUpdate fs tol dynamic st g).2 c =
          moFront fs st.columns (if dynamic then g.pf else g1.pf) (moFeasible g) (moBase g) c := by
        intro c h1 h2
        cases hi : st.ind with
        | none => rw [moUpdate_front hF hi, hpf]
        | some i => rw [moUpdate_nofront hF hi, hpf]; simp only [if_neg h1, if_neg h2]
      refine ⟨?_, ?_, ?_⟩
      · intro p hp
        refine ⟨?_, ?_, ?_⟩
        · rw [hfront _ (by decide) (by decide), hp]; simp [moFront]
        · rw [hfront _ (by decide) (by decide), hp]; simp [moFront]
        · intro hs h2
          have hm : "hv" ∈ st.columns := by
            rw [hI.cols, hs]
            simp [moColumns, h2]
          rw [hfront _ (by decide) (by decide), hp]
          simp [moFront, hm]
      · intro hp c hc
        simp only [List.mem_cons, List.not_mem_nil, or_false] at hc
        rcases hc with rfl | rfl | rfl <;> rw [hfront _ (by decide) (by decide), hp] <;> simp [moFront, moBase]
      · intro hn
        obtain ⟨data, dl, e1, e2, e3⟩ := hI.ind hn
        have hcell : (moUpdate fs tol dynamic st g).2 "eps" = (epsCells tol (indUpdate fs.delta tol (data, dl) (moFeasible g)).2).1 ∧
            (moUpdate fs tol dynamic st g).2 "indicator" = (epsCells tol (indUpdate fs.delta tol (data, dl) (moFeasible g)).2).2 := by
          rw [moUpdate_nofront hF e1]
          simp
        rw [hcell.1, hcell.2]
        constructor
        · intro hno
          cases data with
          | none =>
            rw [(e2 rfl).1]
            simp [indUpdate, epsCells]
          | some a =>
            exfalso
            obtain ⟨r, hr1, hR⟩ := e3 a rfl
            rw [hno r (C154_reference hR).1] at hr1
            simp at hr1
        · rintro ⟨j, hj, hne⟩
          cases data with
          | none => exact absurd ((e2 rfl).2 j hj) hne
          | some a =>
            obtain ⟨r, hr1, hR⟩ := e3 a rfl
            have hd : (indUpdate fs.delta tol (some a, dl) (moFeasible g)).2 = some (fs.delta a (moFeasible g)) := by
              unfold indUpdate
              simp only
              split_ifs <;> rfl
            rw [hd]
            obtain ⟨v, name, hv, hS⟩ := epsCells_shown tol (fs.delta a (moFeasible g))
            exact ⟨r, a, v, name, hR, hr1, by rw [hv], by rw [hv], hS⟩

/-- C154 (uniqueness). -/
theorem C154_reference_unique {A : Type*} {delta : A → A → Deltas} {tol : ℝ} {s : ℕ → Option A} : ∀ {k r r' : ℕ}, Ref delta tol s k r → Ref delta tol s k r' → r = r' := by
  intro k
  induction k using Nat.strong_induction_on with
  | _ k ih =>
    have last : ∀ {m m' : ℕ}, m < k → m' < k → (s m).isSome → (s m').isSome → (∀ j, m < j → j < k → s j = none) → (∀ j, m' < j → j < k → s j = none) → m = m' := by
      intro m m' h1 h2 h3 h4 h5 h6
      rcases Nat.lt_trichotomy m m' with h | h | h
      · rw [h5 m' h h2] at h4; simp at h4
      · exact h
      · rw [h6 m h h1] at h3; simp at h3
    have nofirst : ∀ {m r0 r1 : ℕ}, Ref delta tol s m r1 → m < k → (s m).isSome → (∀ j < k, (s j).isSome → j = r0) → False := by
      intro m r0 r1 hR hm hs hb
      obtain ⟨a, b⟩ := C154_reference hR
      have e1 := hb m hm hs
      have e2 := hb r1 (by omega) b
      omega
    intro r r' h h'
    cases h with
    | first hr hlt hb =>
      cases h' with
      | first hr' hlt' hb' => exact (hb _ hlt' hr').symm
      | keep h hr' hm hq hlt' hb' => exact absurd (nofirst h hlt' (by rw [hm]; rfl) hb) id
      | move h hr' hm hq hlt' hb' => exact absurd (nofirst h hlt' (by rw [hm]; rfl) hb) id
    | keep h hr hm hq hlt hb =>
      cases h' with
      | first hr' hlt' hb' => exact absurd (nofirst h hlt (by rw [hm]; rfl) hb') id
      | keep h' hr' hm' hq' hlt' hb' =>
        obtain rfl := last hlt hlt' (by rw [hm]; rfl) (by rw [hm']; rfl) hb hb'
        exact ih _ hlt h h'
      | move h' hr' hm' hq' hlt' hb' =>
        obtain rfl := last hlt hlt' (by rw [hm]; rfl) (by rw [hm']; rfl) hb hb'
        obtain rfl := ih _ hlt h h'
        rw [hr] at hr'
        rw [hm] at hm'
        obtain rfl := Option.some.inj hr'
        obtain rfl := Option.some.inj hm'
        exact absurd hq hq'
    | move h hr hm hq hlt hb =>
      cases h' with
      | first hr' hlt' hb' => exact absurd (nofirst h hlt (by rw [hm]; rfl) hb') id
      | keep h' hr' hm' hq' hlt' hb' =>
        obtain rfl := last hlt hlt' (by rw [hm]; rfl) (by rw [hm']; rfl) hb hb'
        obtain rfl := ih _ hlt h h'
        rw [hr] at hr'
        rw [hm] at hm'
        obtain rfl := Option.some.inj hr'
        obtain rfl := Option.some.inj hm'
        exact absurd hq' hq
      | move h' hr' hm' hq' hlt' hb' => exact last hlt hlt' (by rw [hm]; rfl) (by rw [hm']; rfl) hb hb'

/-- Three generations without a front, two constraints columns: the third is compared with the first, because the second is quiet. -/
example : ∃ gens : List (MoGen Unit ℝ), gens.length = 3 ∧
    Ref (fun a c => ⟨|(c.headD 0 : ℝ) - a.headD 0|, 0, 0⟩) (1 / 400) (feasAt gens) 2 0 ∧
    moColumns true false 2 = ["n_gen", "n_eval", "n_nds", "cv_min", "cv_avg", "eps", "indicator"] := by
  refine ⟨[⟨1, 10, [(0, true, 0)], [0], none⟩, ⟨2, 20, [(1 / 500, true, 0)], [0], none⟩, ⟨3, 30, [(1 / 250, true, 0)], [0], none⟩], rfl, ?_, by decide⟩
  refine .keep (m := 1) (a := [0]) (c := [1 / 500]) (.first rfl (by norm_num) ?_) rfl rfl ?_ (by norm_num) (by intro j h1 h2; omega)
  · intro j hj _
    omega
  · refine ⟨?_, by norm_num, by norm_num⟩
    simp only [List.headD_cons]
    rw [abs_le]
    constructor <;> norm_num

end Props
