import Verif.Spec.Ctp
import Verif.Model.CTP
import Verif.Spec.TestProblem
import Verif.Props.MultiProblems
import Mathlib.Analysis.SpecialFunctions.Trigonometric.Bounds
import Mathlib.Analysis.Complex.ExponentialBounds
import Mathlib.Topology.Order.IntermediateValue
import Mathlib.Tactic.FinCases

/-!
# C139: the constrained test problems CTP1 to CTP8
-/

set_option linter.unusedVariables false
set_option linter.unusedSectionVars false
set_option linter.unusedSimpArgs false

namespace Props
open Model Spec

/-- Rows of `n` variables within the bounds. -/
def CtpBox (n : ℕ) (o : CtpOption) (wide : Bool) (x : List ℝ) : Prop :=
  x.length = n ∧ (0 ≤ x.getD 0 0 ∧ x.getD 0 0 ≤ 1) ∧ ∀ v ∈ x.drop 1, (ctpBounds o wide).1 ≤ v ∧ v ≤ (ctpBounds o wide).2

theorem ctpG_ge (n : ℕ) (o : CtpOption) (wide : Bool) (x : List ℝ) (hx : CtpBox n o wide x) : 1 ≤ ctpG o (x.drop 1) := by
  cases o with
  | linear =>
    have : 0 ≤ (x.drop 1).sum := List.sum_nonneg fun v hv => (hx.2.2 v hv).1
    show 1 ≤ 1 + (x.drop 1).sum
    linarith
  | multimodal =>
    have key : ∀ l : List ℝ, 0 ≤ 10 * (l.length : ℝ) + (l.map fun v => v ^ 2 - 10 * Real.cos (2 * Real.pi * v)).sum := by
      intro l
      induction l with
      | nil => simp
      | cons v l ih =>
        simp only [List.length_cons, List.map_cons, List.sum_cons, Nat.cast_add, Nat.cast_one]
        have := Real.cos_le_one (2 * Real.pi * v)
        nlinarith [sq_nonneg v]
    have := key (x.drop 1)
    show 1 ≤ 1 + 10 * ((x.drop 1).length : ℝ) + _
    linarith

/-- A row whose variables after the second are zero. -/
def ctpRow (n : ℕ) (t v : ℝ) : List ℝ := t :: v :: List.replicate (n - 2) 0

theorem ctpRow_box (n : ℕ) (hn : 2 ≤ n) (o : CtpOption) (wide : Bool) (t v : ℝ) (t0 : 0 ≤ t) (t1 : t ≤ 1) (v0 : 0 ≤ v) (v1 : v ≤ 1) : CtpBox n o wide (ctpRow n t v) := by
  refine ⟨by simp [ctpRow]; omega, ⟨t0, t1⟩, fun w hw => ?_⟩
  have hb : (ctpBounds o wide).1 ≤ 0 ∧ 1 ≤ (ctpBounds o wide).2 := by
    cases o <;> cases wide <;> simp [ctpBounds] <;> norm_num
  simp only [ctpRow, List.drop_succ_cons, List.drop_zero, List.mem_cons] at hw
  rcases hw with rfl | hw
  · exact ⟨by linarith [hb.1], by linarith [hb.2]⟩
  · rw [List.eq_of_mem_replicate hw]; exact ⟨hb.1, by linarith [hb.2]⟩

/-- The distance along the second variable. -/
noncomputable def ctpAlong (o : CtpOption) (v : ℝ) : ℝ :=
  match o with
  | .linear => 1 + v
  | .multimodal => 1 + (v ^ 2 + 10 * (1 - Real.cos (2 * Real.pi * v)))

theorem ctpRow_g (n : ℕ) (o : CtpOption) (t v : ℝ) : ctpG o ((ctpRow n t v).drop 1) = ctpAlong o v := by
  cases o with
  | linear => simp [ctpRow, ctpG, ctpLinear, ctpAlong]
  | multimodal =>
    simp only [ctpRow, ctpG, ctpMultimodal, ctpAlong, List.drop_succ_cons, List.drop_zero, List.length_cons, List.length_replicate, List.map_cons, List.map_replicate,
      List.sum_cons, List.sum_replicate, nsmul_eq_mul]
    simp only [mul_zero, Real.cos_zero]
    push_cast
    ring

theorem ctpAlong_cont (o : CtpOption) : Continuous (ctpAlong o) := by
  cases o with
  | linear => exact continuous_const.add continuous_id
  | multimodal =>
    exact continuous_const.add ((continuous_pow 2).add (continuous_const.mul (continuous_const.sub (Real.continuous_cos.comp (continuous_const.mul continuous_id)))))

theorem ctpAlong_zero (o : CtpOption) : ctpAlong o 0 = 1 := by cases o <;> simp [ctpAlong]

/-- The distance reaches two within the unit interval. -/
theorem ctpAlong_two (o : CtpOption) : ∃ v, 0 ≤ v ∧ v ≤ 1 ∧ ctpAlong o v = 2 := by
  have h : ∃ u, 0 ≤ u ∧ u ≤ 1 ∧ 2 ≤ ctpAlong o u := by
    cases o with
    | linear => exact ⟨1, zero_le_one, le_refl 1, by simp [ctpAlong]; norm_num⟩
    | multimodal =>
      refine ⟨1 / 2, by norm_num, by norm_num, ?_⟩
      simp only [ctpAlong]
      rw [show 2 * Real.pi * (1 / 2) = Real.pi by ring, Real.cos_pi]
      norm_num
  obtain ⟨u, u0, u1, hu⟩ := h
  obtain ⟨v, ⟨v0, v1⟩, hv⟩ := intermediate_value_Icc u0 (ctpAlong_cont o).continuousOn ⟨by rw [ctpAlong_zero]; norm_num, hu⟩
  exact ⟨v, v0, by linarith, hv⟩

theorem ctpAlong_pos (o : CtpOption) (v : ℝ) (h0 : 0 ≤ v) : 1 ≤ ctpAlong o v := by
  cases o with
  | linear => simp [ctpAlong]; exact h0
  | multimodal =>
    have := Real.cos_le_one (2 * Real.pi * v)
    simp only [ctpAlong]
    nlinarith [sq_nonneg v]

/-! ### CTP1 -/

theorem ctp1Loop_spec (delta : ℝ) (hd : 0 < delta) : ∀ (n : ℕ) (alpha a b : ℝ), 0 < alpha → 0 < a → a ≤ 1 → 0 < b →
    (ctp1Loop delta n alpha a b).length = n ∧ ∀ p ∈ ctp1Loop delta n alpha a b, 0 < p.1 ∧ p.1 ≤ 1 ∧ 0 < p.2 := by
  intro n
  induction n with
  | zero => intro alpha a b _ _ _ _; exact ⟨rfl, by simp [ctp1Loop]⟩
  | succ n ih =>
    intro alpha a b hal ha ha1 hb
    have hbeta : a * Real.exp (-b * alpha) < a := by
      have : Real.exp (-b * alpha) < 1 := by rw [Real.exp_lt_one_iff]; nlinarith
      nlinarith
    have hbeta0 : 0 < a * Real.exp (-b * alpha) := mul_pos ha (Real.exp_pos _)
    have ha' : 0 < (a + a * Real.exp (-b * alpha)) / 2 := by linarith
    have ha1' : (a + a * Real.exp (-b * alpha)) / 2 ≤ 1 := by linarith
    have hb' : 0 < -1 / alpha * Real.log (a * Real.exp (-b * alpha) / ((a + a * Real.exp (-b * alpha)) / 2)) := by
      have h1 : Real.log (a * Real.exp (-b * alpha) / ((a + a * Real.exp (-b * alpha)) / 2)) < 0 :=
        Real.log_neg (div_pos hbeta0 ha') (by rw [div_lt_one ha']; linarith)
      have h2 : -1 / alpha < 0 := div_neg_of_neg_of_pos (by norm_num) hal
      exact mul_pos_of_neg_of_neg h2 h1
    obtain ⟨e1, e2⟩ := ih (alpha + delta) _ _ (by linarith) ha' ha1' hb'
    refine ⟨by simp only [ctp1Loop, List.length_cons, e1], fun p hp => ?_⟩
    simp only [ctp1Loop, List.mem_cons] at hp
    rcases hp with rfl | hp
    · exact ⟨ha', ha1', hb'⟩
    · exact e2 p hp

theorem ctp1Coef_spec (J : ℕ) : (ctp1Coef J).length = J ∧ ∀ p ∈ ctp1Coef J, 0 < p.1 ∧ p.1 ≤ 1 ∧ 0 < p.2 :=
  ctp1Loop_spec _ (by positivity) J _ 1 1 (by positivity) one_pos (le_refl 1) one_pos

/-- **C139** (coefficients of CTP1) Each constraint curve starts half way between the start of the previous one (for the first one `exp (-f1)`) and its value at `j / (J + 1)`, and
meets it there. -/
theorem C139_ctp1_curves (J j : ℕ) (hj : j < J) (a b a' b' : ℝ) (h : ((1, 1) :: ctp1Coef J)[j]? = some (a, b)) (h' : (ctp1Coef J)[j]? = some (a', b')) :
    a' = (a + a * Real.exp (-b * (((j : ℝ) + 1) / (J + 1)))) / 2 ∧
    a' * Real.exp (-b' * (((j : ℝ) + 1) / (J + 1))) = a * Real.exp (-b * (((j : ℝ) + 1) / (J + 1))) := by
  have key : ∀ (n : ℕ) (delta alpha a0 b0 : ℝ), 0 < delta → 0 < alpha → 0 < a0 → a0 ≤ 1 → 0 < b0 → ∀ (j : ℕ) (a b a' b' : ℝ), ((a0, b0) :: ctp1Loop delta n alpha a0 b0)[j]? = some (a, b) →
      (ctp1Loop delta n alpha a0 b0)[j]? = some (a', b') →
      a' = (a + a * Real.exp (-b * (alpha + j * delta))) / 2 ∧ a' * Real.exp (-b' * (alpha + j * delta)) = a * Real.exp (-b * (alpha + j * delta)) := by
    intro n
    induction n with
    | zero => intro delta alpha a0 b0 _ _ _ _ _ j a b a' b' _ h'; simp [ctp1Loop] at h'
    | succ n ih =>
      intro delta alpha a0 b0 hd hal ha ha1 hb j a b a' b' h h'
      have hbeta0 : 0 < a0 * Real.exp (-b0 * alpha) := mul_pos ha (Real.exp_pos _)
      have ha' : 0 < (a0 + a0 * Real.exp (-b0 * alpha)) / 2 := by linarith
      cases j with
      | zero =>
        simp only [ctp1Loop, List.getElem?_cons_zero, Option.some.injEq, Prod.mk.injEq] at h h'
        obtain ⟨rfl, rfl⟩ := h
        obtain ⟨rfl, rfl⟩ := h'
        simp only [Nat.cast_zero, zero_mul, add_zero]
        refine ⟨trivial, ?_⟩
        have : -(-1 / alpha * Real.log (a0 * Real.exp (-b0 * alpha) / ((a0 + a0 * Real.exp (-b0 * alpha)) / 2))) * alpha
            = Real.log (a0 * Real.exp (-b0 * alpha) / ((a0 + a0 * Real.exp (-b0 * alpha)) / 2)) := by
          field_simp
        rw [this, Real.exp_log (div_pos hbeta0 ha')]
        field_simp
      | succ j =>
        simp only [ctp1Loop, List.getElem?_cons_succ] at h h'
        obtain ⟨s1, s2⟩ := (ctp1Loop_spec delta hd 1 alpha a0 b0 hal ha ha1 hb).2 _ (List.mem_singleton.2 rfl)
        have := ih delta (alpha + delta) _ _ hd (by linarith) s1 s2.1 s2.2 j a b a' b' h h'
        rw [show alpha + ((j + 1 : ℕ) : ℝ) * delta = alpha + delta + j * delta by push_cast; ring]
        exact this
  have := key J (1 / ((J : ℝ) + 1)) (1 / ((J : ℝ) + 1)) 1 1 (by positivity) (by positivity) one_pos (le_refl 1) one_pos j a b a' b' h h'
  rw [show 1 / ((J : ℝ) + 1) + j * (1 / ((J : ℝ) + 1)) = ((j : ℝ) + 1) / (J + 1) by ring] at this
  exact this

/-- The rows of CTP1 within the bounds that violate no constraint. -/
def Ctp1Feasible (n J : ℕ) (o : CtpOption) (x : List ℝ) : Prop := CtpBox n o false x ∧ ∀ c ∈ ctp1G J o x, c ≤ 0

/-- The values of the unconstrained front and of the constraint curves at `t`. -/
def ctp1Curves (J : ℕ) (t : ℝ) : Set ℝ := {y | y = Real.exp (-t) ∨ ∃ p ∈ ctp1Coef J, y = p.1 * Real.exp (-p.2 * t)}

theorem curves_greatest (J : ℕ) (t : ℝ) : ∃ y, IsGreatest (ctp1Curves J t) y := by
  have key : ∀ l : List (ℝ × ℝ), ∃ y, IsGreatest {y | y = Real.exp (-t) ∨ ∃ p ∈ l, y = p.1 * Real.exp (-p.2 * t)} y := by
    intro l
    induction l with
    | nil => exact ⟨Real.exp (-t), Or.inl rfl, by rintro y (rfl | ⟨p, hp, -⟩); · exact le_refl _
                                                  · simp at hp⟩
    | cons q l ih =>
      obtain ⟨y, hy, hmax⟩ := ih
      rcases le_total y (q.1 * Real.exp (-q.2 * t)) with h | h
      · refine ⟨q.1 * Real.exp (-q.2 * t), Or.inr ⟨q, by simp, rfl⟩, ?_⟩
        rintro z (rfl | ⟨p, hp, rfl⟩)
        · exact le_trans (hmax (Or.inl rfl)) h
        · rcases List.mem_cons.1 hp with rfl | hp
          · exact le_refl _
          · exact le_trans (hmax (Or.inr ⟨p, hp, rfl⟩)) h
      · refine ⟨y, ?_, ?_⟩
        · rcases hy with hy | ⟨p, hp, hy⟩
          · exact Or.inl hy
          · exact Or.inr ⟨p, List.mem_cons_of_mem _ hp, hy⟩
        · rintro z (rfl | ⟨p, hp, rfl⟩)
          · exact hmax (Or.inl rfl)
          · rcases List.mem_cons.1 hp with rfl | hp
            · exact h
            · exact hmax (Or.inr ⟨p, hp, rfl⟩)
  exact key (ctp1Coef J)

/-- **C139** (CTP1) For any number of variables from two on, any number of constraints and both options, the feasible Pareto-optimal points of CTP1 are exactly the points above
`0 ≤ f1 ≤ 1` on the upper envelope of the curve `exp (-f1)` and the constraint curves `a exp (-b f1)`. -/
theorem C139_ctp1 (n J : ℕ) (hn : 2 ≤ n) (o : CtpOption) (f : Fin 2 → ℝ) :
    ParetoPoint (Ctp1Feasible n J o) (ctp1F o) f ↔ 0 ≤ f 0 ∧ f 0 ≤ 1 ∧ IsGreatest (ctp1Curves J (f 0)) (f 1) := by
  have hcoef := (ctp1Coef_spec J).2
  have hlow : ∀ x, CtpBox n o false x → Real.exp (-(x.getD 0 0)) ≤ ctp1F o x 1 := by
    intro x hx
    have hg := ctpG_ge n o false x hx
    set g := ctpG o (x.drop 1) with hgd
    show Real.exp (-(x.getD 0 0)) ≤ g * Real.exp (-(x.getD 0 0) / g)
    have h1 : Real.exp (-(x.getD 0 0)) ≤ Real.exp (-(x.getD 0 0) / g) := by
      rw [Real.exp_le_exp, le_div_iff₀ (by linarith)]
      nlinarith [hx.2.1.1]
    nlinarith [Real.exp_pos (-(x.getD 0 0) / g)]
  have hcon : ∀ x, (∀ c ∈ ctp1G J o x, c ≤ 0) ↔ ∀ p ∈ ctp1Coef J, p.1 * Real.exp (-p.2 * x.getD 0 0) ≤ ctp1F o x 1 := by
    intro x
    unfold ctp1G
    simp only [List.forall_mem_map]
    refine forall_congr' fun p => forall_congr' fun _ => ?_
    have : ctp1F o x 0 = x.getD 0 0 := rfl
    rw [this]
    constructor <;> intro h <;> linarith
  -- every value of at most one above the curve is attained
  have hatt : ∀ t y, 0 ≤ t → t ≤ 1 → Real.exp (-t) ≤ y → y ≤ 1 → ∃ x, CtpBox n o false x ∧ x.getD 0 0 = t ∧ ctp1F o x 1 = y := by
    intro t y t0 t1 hy hy1
    obtain ⟨u, u0, u1, hu⟩ := ctpAlong_two o
    have hcont : ContinuousOn (fun v => ctpAlong o v * Real.exp (-t / ctpAlong o v)) (Set.Icc 0 u) := by
      have hc := (ctpAlong_cont o).continuousOn (s := Set.Icc 0 u)
      refine hc.mul (Real.continuous_exp.comp_continuousOn (continuousOn_const.div hc fun v hv => ?_))
      have := ctpAlong_pos o v hv.1
      linarith
    have h2 : 1 ≤ ctpAlong o u * Real.exp (-t / ctpAlong o u) := by
      rw [hu]
      have h3 : Real.exp (-t / 2) ≥ 1 + (-t / 2) := by
        have := Real.add_one_le_exp (-t / 2)
        linarith
      linarith
    obtain ⟨v, ⟨v0, v1⟩, hv⟩ := intermediate_value_Icc u0 hcont ⟨by simp only [ctpAlong_zero, div_one, one_mul]; exact hy, le_trans hy1 h2⟩
    refine ⟨ctpRow n t v, ctpRow_box n hn o false t v t0 t1 v0 (by linarith), rfl, ?_⟩
    show ctpG o ((ctpRow n t v).drop 1) * Real.exp (-t / ctpG o ((ctpRow n t v).drop 1)) = y
    rw [ctpRow_g]
    exact hv
  have hle1 : ∀ t, 0 ≤ t → ∀ y ∈ ctp1Curves J t, y ≤ 1 := by
    rintro t t0 y (rfl | ⟨p, hp, rfl⟩)
    · rw [Real.exp_le_one_iff]; linarith
    · obtain ⟨p1, p2, p3⟩ := hcoef p hp
      have : Real.exp (-p.2 * t) ≤ 1 := by rw [Real.exp_le_one_iff]; nlinarith
      nlinarith [Real.exp_pos (-p.2 * t)]
  -- the envelope decreases
  have hanti : ∀ s t y z, s < t → IsGreatest (ctp1Curves J s) y → IsGreatest (ctp1Curves J t) z → z < y := by
    intro s t y z hst hy hz
    rcases hz.1 with h | ⟨p, hp, h⟩
    · exact lt_of_lt_of_le (by rw [h, Real.exp_lt_exp]; linarith) (hy.2 (Or.inl rfl))
    · obtain ⟨p1, p2, p3⟩ := hcoef p hp
      refine lt_of_lt_of_le ?_ (hy.2 (Or.inr ⟨p, hp, rfl⟩))
      rw [h]
      exact mul_lt_mul_of_pos_left (by rw [Real.exp_lt_exp]; nlinarith) p1
  have hge : ∀ x, Ctp1Feasible n J o x → ∀ y, IsGreatest (ctp1Curves J (x.getD 0 0)) y → y ≤ ctp1F o x 1 := by
    rintro x ⟨hx, hc⟩ y hy
    rcases hy.1 with h | ⟨p, hp, h⟩
    · rw [h]; exact hlow x hx
    · rw [h]; exact (hcon x).1 hc p hp
  refine front_exact (Ctp1Feasible n J o) (ctp1F o) (fun f => 0 ≤ f 0 ∧ f 0 ≤ 1 ∧ IsGreatest (ctp1Curves J (f 0)) (f 1)) ?_ ?_ f
  · rintro f ⟨h0, h1, hg⟩
    obtain ⟨x, hx, hxt, hxy⟩ := hatt (f 0) (f 1) h0 h1 (hg.2 (Or.inl rfl)) (hle1 _ h0 _ hg.1)
    have hF : ctp1F o x = f := by
      funext i
      fin_cases i
      · exact hxt
      · exact hxy
    refine ⟨⟨x, ⟨hx, (hcon x).2 fun p hp => ?_⟩, hF⟩, ?_⟩
    · rw [hxt, hxy]; exact hg.2 (Or.inr ⟨p, hp, rfl⟩)
    · rintro y hy ⟨hle, i, hi⟩
      obtain ⟨z, hz⟩ := curves_greatest J (y.getD 0 0)
      have e0 : y.getD 0 0 ≤ f 0 := hle 0
      have e1 := hle 1
      have hzy := hge y hy z hz
      rcases eq_or_lt_of_le e0 with he | hlt
      · have hzf : z = f 1 := by rw [he] at hz; exact hz.unique hg
        fin_cases i
        · have : y.getD 0 0 < f 0 := hi
          linarith
        · have : ctp1F o y 1 < f 1 := hi
          linarith
      · have := hanti _ _ _ _ hlt hz hg
        linarith
  · intro x hx
    obtain ⟨z, hz⟩ := curves_greatest J (x.getD 0 0)
    refine ⟨![x.getD 0 0, z], ⟨hx.1.2.1.1, hx.1.2.1.2, hz⟩, fun i => ?_⟩
    fin_cases i
    · exact le_refl _
    · exact hge x hx z hz

/-- With one constraint the corner `f1 = 0` of the front is `exp 0 = 1`. -/
example : ParetoPoint (Ctp1Feasible 2 1 .linear) (ctp1F .linear) ![0, 1] := by
  rw [C139_ctp1 2 1 (by norm_num)]
  refine ⟨le_refl _, zero_le_one, Or.inl (by simp), ?_⟩
  rintro y (rfl | ⟨p, hp, rfl⟩)
  · simp
  · obtain ⟨p1, p2, p3⟩ := (ctp1Coef_spec 1).2 p hp
    simpa using p2

/-! ### CTP2 to CTP8 -/

/-- **C139** (constraint) For a nonnegative `a`, the value of `calc_constraint` is satisfied exactly if the published inequality `exp1 ≥ exp2` holds, except where both sides are zero:
there the value is NaN and counts as violated. -/
theorem C139_constraint (theta a b : ℝ) (c : ℕ) (d e f1 f2 : ℝ) (ha : 0 ≤ a) :
    (ctpConstraint theta a b c d e f1 f2).ok ↔
      a * |Real.sin (b * Real.pi * (Real.sin theta * (f2 - e) + Real.cos theta * f1) ^ c)| ^ d ≤ Real.cos theta * (f2 - e) - Real.sin theta * f1 ∧
      ¬ (a * |Real.sin (b * Real.pi * (Real.sin theta * (f2 - e) + Real.cos theta * f1) ^ c)| ^ d = 0 ∧ Real.cos theta * (f2 - e) - Real.sin theta * f1 = 0) := by
  have h1 : Real.cos theta * (f2 - e) - Real.sin theta * f1 = ctpExp1 theta e f1 f2 := by unfold ctpExp1; ring
  have h2 : a * |Real.sin (b * Real.pi * (Real.sin theta * (f2 - e) + Real.cos theta * f1) ^ c)| ^ d = ctpExp2 theta a b c d e f1 f2 := by
    unfold ctpExp2; rw [mul_comm (Real.sin theta), mul_comm (Real.cos theta)]
  have h3 : 0 ≤ ctpExp2 theta a b c d e f1 f2 := by
    unfold ctpExp2
    exact mul_nonneg ha (Real.rpow_nonneg (abs_nonneg _) _)
  rw [h1, h2]
  unfold ctpConstraint ctpQuot
  generalize ctpExp1 theta e f1 f2 = u at *
  generalize ctpExp2 theta a b c d e f1 f2 = w at *
  rcases eq_or_lt_of_le h3 with hw | hw
  · rw [if_pos hw.symm, ← hw]
    by_cases hu : u = 0
    · rw [if_pos hu]
      simp [CtpVal.ok, hu]
    · rw [if_neg hu]
      by_cases hp : 0 < u
      · rw [if_pos hp]; simp [CtpVal.ok, hu, hp.le]
      · rw [if_neg hp]
        have : u < 0 := lt_of_le_of_ne (not_lt.1 hp) hu
        simp [CtpVal.ok, this]
  · rw [if_neg hw.ne']
    simp only [CtpVal.ok, hw.ne', false_and, not_false_eq_true, and_true]
    rw [sub_nonpos, le_div_iff₀ hw, one_mul]

/-- The feasible rows of CTP2 to CTP8. -/
def CtpFeasible (n : ℕ) (ps : List CtpParam) (o : CtpOption) (wide : Bool) (x : List ℝ) : Prop := CtpBox n o wide x ∧ ∀ c ∈ ctpCons ps o x, c.ok

theorem ctpObjectives_ge (n : ℕ) (o : CtpOption) (wide : Bool) (x : List ℝ) (hx : CtpBox n o wide x) : 1 - √(x.getD 0 0) ≤ ctpObjectives o x 1 := by
  have hg := ctpG_ge n o wide x hx
  set g := ctpG o (x.drop 1) with hgd
  show 1 - √(x.getD 0 0) ≤ g * (1 - √(x.getD 0 0 / g))
  have hs : g * √(x.getD 0 0 / g) = √g * √(x.getD 0 0) := by
    have h0 : (0 : ℝ) < g := by linarith
    rw [Real.sqrt_div hx.2.1.1]
    have : √g ≠ 0 := (Real.sqrt_pos.2 h0).ne'
    field_simp
    rw [Real.sq_sqrt h0.le]; ring
  rw [mul_sub, mul_one, hs]
  have h1 : 1 ≤ √g := Real.one_le_sqrt.2 hg
  have h2 : √g ^ 2 = g := Real.sq_sqrt (by linarith)
  have h3 : √(x.getD 0 0) ≤ 1 := Real.sqrt_le_one.2 hx.2.1.2
  have h4 := Real.sqrt_nonneg (x.getD 0 0)
  nlinarith

/-- **C139** (the inequalities). For each of CTP2, ..., CTP8 a row satisfies the computed constraints exactly if its objectives satisfy the published inequalities – except where both sides
of one are zero (there the code computes NaN). -/
theorem C139_published (k : Fin 7) (o : CtpOption) (x : List ℝ) (ps : List CtpParam) (rows : List CtpRow)
    (hps : [ctp2, ctp3, ctp4, ctp5, ctp6, ctp7, ctp8][k]? = some ps) (hrows : ctpPublished[k]? = some rows) :
    (∀ c ∈ ctpCons ps o x, c.ok) ↔ ∀ p ∈ rows, p.rhs (ctpObjectives o x 0) (ctpObjectives o x 1) ≤ p.lhs (ctpObjectives o x 0) (ctpObjectives o x 1) ∧
      ¬ (p.rhs (ctpObjectives o x 0) (ctpObjectives o x 1) = 0 ∧ p.lhs (ctpObjectives o x 0) (ctpObjectives o x 1) = 0) := by
  have key : ∀ (ps : List CtpParam) (rows : List CtpRow), ps.map (fun p => (⟨p.theta, p.a, p.b, p.c, p.d, p.e⟩ : CtpRow)) = rows → (∀ p ∈ ps, 0 ≤ p.a) →
      ((∀ c ∈ ctpCons ps o x, c.ok) ↔ ∀ p ∈ rows, p.rhs (ctpObjectives o x 0) (ctpObjectives o x 1) ≤ p.lhs (ctpObjectives o x 0) (ctpObjectives o x 1) ∧
      ¬ (p.rhs (ctpObjectives o x 0) (ctpObjectives o x 1) = 0 ∧ p.lhs (ctpObjectives o x 0) (ctpObjectives o x 1) = 0)) := by
    rintro ps rows rfl ha
    unfold ctpCons
    simp only [List.forall_mem_map]
    exact forall₂_congr fun p hp => C139_constraint p.theta p.a p.b p.c p.d p.e _ _ (ha p hp)
  apply key
  · fin_cases k <;> rw [Option.some_inj.1 hps.symm, Option.some_inj.1 hrows.symm] <;> rfl
  · fin_cases k <;> simp at hps <;> subst hps <;> simp [ctp2, ctp3, ctp4, ctp5, ctp6, ctp7, ctp8] <;> norm_num

/-- **C139** (easy half) In CTP2 to CTP8 a feasible solution at distance one is Pareto-optimal, and its objectives lie on the curve `f2 = 1 - √f1`. -/
theorem C139_on_curve (n : ℕ) (ps : List CtpParam) (o : CtpOption) (wide : Bool) (x : List ℝ) (hx : CtpFeasible n ps o wide x) (hg : ctpG o (x.drop 1) = 1) :
    ctpObjectives o x = ![x.getD 0 0, 1 - √(x.getD 0 0)] ∧ ParetoPoint (CtpFeasible n ps o wide) (ctpObjectives o) (ctpObjectives o x) := by
  have hF : ctpObjectives o x = ![x.getD 0 0, 1 - √(x.getD 0 0)] := by
    show ![x.getD 0 0, ctpG o (x.drop 1) * (1 - √(x.getD 0 0 / ctpG o (x.drop 1)))] = _
    rw [hg]; simp
  refine ⟨hF, ⟨x, hx, rfl⟩, ?_⟩
  rintro y hy ⟨hle, i, hi⟩
  rw [hF] at hle hi
  have e0 : y.getD 0 0 ≤ x.getD 0 0 := hle 0
  have e1 : ctpObjectives o y 1 ≤ 1 - √(x.getD 0 0) := hle 1
  have e2 := ctpObjectives_ge n o wide y hy.1
  have e3 : √(y.getD 0 0) ≤ √(x.getD 0 0) := Real.sqrt_le_sqrt e0
  fin_cases i
  · have h1 : y.getD 0 0 < x.getD 0 0 := hi
    have := Real.sqrt_lt_sqrt hy.1.2.1.1 h1
    linarith
  · have h1 : ctpObjectives o y 1 < 1 - √(x.getD 0 0) := hi
    linarith

/-- **C139** (CTP2 to CTP5) No feasible solution of CTP2, CTP3, CTP4 or CTP5 lies on the curve `f2 = 1 - √f1`. For `f1 = 0` this is not the constraint of the problem, which holds there, but the
NaN of `0 / 0`. -/
theorem C139_curve_infeasible (n : ℕ) (o : CtpOption) (ps : List CtpParam) (hps : ps ∈ [ctp2, ctp3, ctp4, ctp5]) (x : List ℝ)
    (hx : CtpFeasible n ps o false x) : ctpObjectives o x 1 ≠ 1 - √(x.getD 0 0) := by
  intro hf
  obtain ⟨p, hp, hth, he, ha⟩ : ∃ p ∈ ps, p.theta = -0.2 * Real.pi ∧ p.e = 1 ∧ 0 ≤ p.a := by
    simp only [List.mem_cons, List.not_mem_nil, or_false] at hps
    rcases hps with rfl | rfl | rfl | rfl <;> exact ⟨_, List.mem_singleton.2 rfl, rfl, rfl, by norm_num⟩
  have hok := hx.2 (ctpConstraint p.theta p.a p.b p.c p.d p.e (ctpObjectives o x 0) (ctpObjectives o x 1)) (List.mem_map.2 ⟨p, hp, rfl⟩)
  have hok' := hok
  rw [C139_constraint _ _ _ _ _ _ _ _ ha] at hok
  obtain ⟨h1, h2⟩ := hok
  have h0 : 0 ≤ p.a * |Real.sin (p.b * Real.pi * (Real.sin p.theta * (ctpObjectives o x 1 - p.e) + Real.cos p.theta * ctpObjectives o x 0) ^ p.c)| ^ p.d :=
    mul_nonneg ha (Real.rpow_nonneg (abs_nonneg _) _)
  have hf0 : ctpObjectives o x 0 = x.getD 0 0 := rfl
  have hpi := Real.pi_pos
  -- `sin (0.2 π) < cos (0.2 π)`
  have hsc : Real.sin (0.2 * Real.pi) < Real.cos (0.2 * Real.pi) := by
    rw [← Real.sin_pi_div_two_sub]
    exact Real.sin_lt_sin_of_lt_of_le_pi_div_two (by nlinarith) (by nlinarith) (by nlinarith)
  have hc0 : 0 < Real.cos (0.2 * Real.pi) := Real.cos_pos_of_mem_Ioo ⟨by nlinarith, by nlinarith⟩
  have hs0 : 0 < Real.sin (0.2 * Real.pi) := Real.sin_pos_of_pos_of_lt_pi (by positivity) (by nlinarith)
  have hrhs : Real.cos p.theta * (ctpObjectives o x 1 - p.e) - Real.sin p.theta * ctpObjectives o x 0
      = -(Real.cos (0.2 * Real.pi) * √(x.getD 0 0)) + Real.sin (0.2 * Real.pi) * x.getD 0 0 := by
    rw [hth, he, hf, hf0, show -0.2 * Real.pi = -(0.2 * Real.pi) by ring, Real.cos_neg, Real.sin_neg]
    ring
  have hsq : √(x.getD 0 0) ^ 2 = x.getD 0 0 := Real.sq_sqrt hx.1.2.1.1
  have hs1 : √(x.getD 0 0) ≤ 1 := Real.sqrt_le_one.2 hx.1.2.1.2
  have hsn := Real.sqrt_nonneg (x.getD 0 0)
  rw [hrhs] at h1 h2
  rcases eq_or_lt_of_le hsn with hz | hz
  · -- the corner
    have hx0 : x.getD 0 0 = 0 := by rw [← hsq, ← hz]; norm_num
    have hrz : -(Real.cos (0.2 * Real.pi) * √(x.getD 0 0)) + Real.sin (0.2 * Real.pi) * x.getD 0 0 = 0 := by rw [hx0]; simp
    rw [hrz] at h1 h2
    exact h2 ⟨le_antisymm h1 h0, rfl⟩
  · have h3 : Real.sin (0.2 * Real.pi) * x.getD 0 0 ≤ Real.sin (0.2 * Real.pi) * √(x.getD 0 0) := by
      refine mul_le_mul_of_nonneg_left ?_ hs0.le
      nlinarith
    have h4 : Real.sin (0.2 * Real.pi) * √(x.getD 0 0) < Real.cos (0.2 * Real.pi) * √(x.getD 0 0) := mul_lt_mul_of_pos_right hsc hz
    linarith

/-- **C139** (refuted) In CTP2 to CTP5 the solution `(0, …, 0)` satisfies the published inequality (with equality) and has the objectives `(0, 1)`, but its constraint value is NaN and it
counts as infeasible. -/
theorem C139_corner_refuted (o : CtpOption) (n : ℕ) (hn : 2 ≤ n) (ps : List CtpParam) (hps : ps ∈ [ctp2, ctp3, ctp4, ctp5]) :
    CtpBox n o false (ctpRow n 0 0) ∧ ctpObjectives o (ctpRow n 0 0) = ![0, 1] ∧ ctpCons ps o (ctpRow n 0 0) = [.nan] ∧
    ∀ p ∈ ps, p.a * |Real.sin (p.b * Real.pi * (Real.sin p.theta * (1 - p.e) + Real.cos p.theta * 0) ^ p.c)| ^ p.d ≤ Real.cos p.theta * (1 - p.e) - Real.sin p.theta * 0 := by
  have hF : ctpObjectives o (ctpRow n 0 0) = ![0, 1] := by
    show ![(0 : ℝ), ctpG o ((ctpRow n 0 0).drop 1) * (1 - √(0 / ctpG o ((ctpRow n 0 0).drop 1)))] = _
    rw [ctpRow_g, ctpAlong_zero]; simp
  refine ⟨ctpRow_box n hn o false 0 0 (le_refl 0) zero_le_one (le_refl 0) zero_le_one, hF, ?_, ?_⟩
  · unfold ctpCons
    rw [hF]
    simp only [List.mem_cons, List.not_mem_nil, or_false] at hps
    rcases hps with rfl | rfl | rfl | rfl <;>
      simp [ctp2, ctp3, ctp4, ctp5, ctpConstraint, ctpExp1, ctpExp2, ctpQuot, Real.zero_rpow (show (0.5 : ℝ) ≠ 0 by norm_num)]
  · intro p hp
    simp only [List.mem_cons, List.not_mem_nil, or_false] at hps
    rcases hps with rfl | rfl | rfl | rfl <;>
      (simp only [ctp2, ctp3, ctp4, ctp5, List.mem_singleton] at hp; subst hp; simp [Real.zero_rpow (show (0.5 : ℝ) ≠ 0 by norm_num)])

/-- **C139** (CTP7) The curve `f2 = 1 - √f1` contains feasible, hence Pareto-optimal points of CTP7. -/
theorem C139_ctp7_exists (n : ℕ) (hn : 2 ≤ n) (o : CtpOption) : ∃ t, 0 ≤ t ∧ t ≤ 1 ∧ ParetoPoint (CtpFeasible n ctp7 o false) (ctpObjectives o) ![t, 1 - √t] := by
  have hpi := Real.pi_pos
  have hc0 : 0 < Real.cos (0.05 * Real.pi) := Real.cos_pos_of_mem_Ioo ⟨by nlinarith, by nlinarith⟩
  have hs0 : 0 < Real.sin (0.05 * Real.pi) := Real.sin_pos_of_pos_of_lt_pi (by positivity) (by nlinarith)
  have hcont : ContinuousOn (fun t => Real.cos (0.05 * Real.pi) * t - Real.sin (0.05 * Real.pi) * (1 - √t)) (Set.Icc 0 1) :=
    ((continuous_const.mul continuous_id).sub (continuous_const.mul (continuous_const.sub Real.continuous_sqrt))).continuousOn
  obtain ⟨t, ⟨t0, t1⟩, ht⟩ := intermediate_value_Icc zero_le_one hcont (show (0 : ℝ) ∈ Set.Icc _ _ from ⟨by simp; exact hs0.le, by simp; exact hc0.le⟩)
  have hbox := ctpRow_box n hn o false t 0 t0 t1 (le_refl 0) zero_le_one
  have hgo : ctpG o ((ctpRow n t 0).drop 1) = 1 := by rw [ctpRow_g, ctpAlong_zero]
  have hF : ctpObjectives o (ctpRow n t 0) = ![t, 1 - √t] := by
    show ![t, ctpG o ((ctpRow n t 0).drop 1) * (1 - √(t / ctpG o ((ctpRow n t 0).drop 1)))] = _
    rw [hgo]; simp
  have hfeas : CtpFeasible n ctp7 o false (ctpRow n t 0) := by
    refine ⟨hbox, ?_⟩
    intro c hc
    simp only [ctpCons, ctp7, List.map_cons, List.map_nil, List.mem_singleton] at hc
    rw [hc, hF, C139_constraint _ _ _ _ _ _ _ _ (by norm_num)]
    simp only [Matrix.cons_val_zero, Matrix.cons_val_one, sub_zero]
    rw [show -0.05 * Real.pi = -(0.05 * Real.pi) by ring, Real.sin_neg, Real.cos_neg]
    have hin : -Real.sin (0.05 * Real.pi) * (1 - √t) + Real.cos (0.05 * Real.pi) * t = 0 := by
      simp only at ht; linarith
    rw [hin]
    have hst : √t ≤ 1 := Real.sqrt_le_one.2 t1
    have hpos : 0 < Real.cos (0.05 * Real.pi) * (1 - √t) - -Real.sin (0.05 * Real.pi) * t := by
      rcases eq_or_lt_of_le t0 with h | h
      · rw [← h]; simp; exact hc0
      · have := mul_pos hs0 h
        have := mul_nonneg hc0.le (sub_nonneg.2 hst)
        linarith
    constructor
    · have : (40 : ℝ) * |Real.sin (5 * Real.pi * 0 ^ 1)| ^ (6 : ℝ) = 0 := by
        norm_num
      rw [this]; exact hpos.le
    · rintro ⟨-, h⟩; exact absurd h hpos.ne'
  refine ⟨t, t0, t1, ?_⟩
  rw [← hF]
  exact (C139_on_curve n ctp7 o false _ hfeas hgo).2

end Props
