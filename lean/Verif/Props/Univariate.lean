import Verif.Model.Univariate
import Mathlib.Algebra.Order.Ring.Rat
import Mathlib.Algebra.Order.Archimedean.Basic
import Mathlib.Analysis.Real.Sqrt
import Mathlib.Tactic.Linarith
import Mathlib.Tactic.LinearCombination
import Mathlib.Tactic.NormNum
import Mathlib.Tactic.Ring
import Mathlib.Tactic.Positivity

/-!
# C66. Univariate searches: golden section, quadratic interpolation
# C67. Wolfe line search
-/

set_option linter.unusedSimpArgs false
set_option linter.unusedVariables false
set_option linter.unusedSectionVars false

namespace Props
open Model

section
variable {K : Type*} [Field K] [LinearOrder K] [IsStrictOrderedRing K]

/-- `f` falls strictly up to `x` and rises strictly after it, on `[a, b]`: `x` is the only local minimum. -/
def Unimodal (f : K → K) (a b x : K) : Prop :=
  (∀ s t, a ≤ s → s < t → t ≤ x → f t < f s) ∧ (∀ s t, x ≤ s → s < t → t ≤ b → f s < f t)

/-- The golden ratio constant: `R = (√5 - 1) / 2` is the positive number with `R² = 1 - R`. -/
def IsGolden (R : K) : Prop := R * R = 1 - R ∧ 0 < R

theorem IsGolden.lt_one {R : K} (h : IsGolden R) : R < 1 := by
  by_contra hge
  nlinarith [h.1, h.2]

theorem IsGolden.half_lt {R : K} (h : IsGolden R) : 1 / 2 < R := by
  by_contra hge
  nlinarith [h.1, h.2]

/-- The constant in the code is that number. -/
theorem C66_constant : IsGolden ((Real.sqrt 5 - 1) / 2) := by
  have h5 : Real.sqrt 5 * Real.sqrt 5 = 5 := Real.mul_self_sqrt (by norm_num)
  have h1 : 1 < Real.sqrt 5 := by
    rw [show (1 : ℝ) = Real.sqrt 1 by simp]
    exact Real.sqrt_lt_sqrt (by norm_num) (by norm_num)
  exact ⟨by nlinarith, by linarith⟩

/-- The inner points divide the bracket by the golden ratio. -/
def Divided (R : K) (g : Golden K) : Prop := g.a ≤ g.b ∧ g.c = g.b - R * (g.b - g.a) ∧ g.d = g.a + R * (g.b - g.a)

theorem divided_order (R : K) (hR : IsGolden R) (g : Golden K) (h : Divided R g) : g.a ≤ g.c ∧ g.c ≤ g.d ∧ g.d ≤ g.b := by
  obtain ⟨h1, h2, h3⟩ := h
  have hl := hR.lt_one
  have hh := hR.half_lt
  have h0 := hR.2
  rw [h2, h3]
  refine ⟨by nlinarith, by nlinarith, by nlinarith⟩

/-- C66. The initial bracket: the bounds, divided by the golden ratio; an error iff they are in the wrong order. -/
theorem C66_initial (R a b : K) (hR : IsGolden R) : (b < a → goldenInit R a b = none) ∧
    (a ≤ b → ∃ g, goldenInit R a b = some g ∧ g.a = a ∧ g.b = b ∧ Divided R g ∧ a ≤ g.c ∧ g.c ≤ g.d ∧ g.d ≤ b) := by
  refine ⟨fun h => by rw [goldenInit, if_neg (not_le.2 h)], ?_⟩
  intro h
  have hd : Divided R (⟨a, b - R * (b - a), a + R * (b - a), b⟩ : Golden K) := ⟨h, rfl, rfl⟩
  exact ⟨_, by rw [goldenInit, if_pos h], rfl, rfl, hd, divided_order R hR _ hd⟩

/-- C66. One iteration: the new bracket lies in the old one and is smaller by the golden ratio, the inner points again divide it (so one of them, with its
objective value, is reused and exactly one new point, inside of the bracket, is evaluated), and the minimum of a unimodal function stays inside. -/
theorem C66_step (R : K) (hR : IsGolden R) (f : K → K) (g : Golden K) (h : Divided R g) :
    Divided R (goldenAdvance R f g).1 ∧
    g.a ≤ (goldenAdvance R f g).1.a ∧ (goldenAdvance R f g).1.b ≤ g.b ∧
    (goldenAdvance R f g).1.b - (goldenAdvance R f g).1.a = R * (g.b - g.a) ∧
    (g.a ≤ (goldenAdvance R f g).2 ∧ (goldenAdvance R f g).2 ≤ g.b) ∧
    (∀ x ∈ (goldenAdvance R f g).1.members, x ∈ g.members ∨ x = (goldenAdvance R f g).2) ∧
    ∀ x, g.a ≤ x → x ≤ g.b → Unimodal f g.a g.b x → (goldenAdvance R f g).1.a ≤ x ∧ x ≤ (goldenAdvance R f g).1.b := by
  obtain ⟨o1, o2, o3⟩ := divided_order R hR g h
  obtain ⟨h1, h2, h3⟩ := h
  have hRR := hR.1
  have h0 := hR.2
  have hl := hR.lt_one
  unfold goldenAdvance
  by_cases hlt : f g.c < f g.d
  · rw [if_pos hlt]
    refine ⟨⟨by linarith, rfl, ?_⟩, le_refl _, o3, ?_, ⟨?_, ?_⟩, ?_, ?_⟩
    · simp only []
      rw [h2, h3]
      linear_combination -(g.b - g.a) * hRR
    · simp only []
      rw [h3]; ring
    · simp only []
      nlinarith
    · simp only []
      nlinarith
    · intro x hx
      simp only [Golden.members, List.mem_cons, List.not_mem_nil, or_false] at hx ⊢
      tauto
    · intro x hax hxb hu
      refine ⟨hax, ?_⟩
      by_contra hd
      rw [not_le] at hd
      simp only [] at hd
      have hcd : g.c < g.d := lt_of_le_of_ne o2 (by rintro e; rw [e] at hlt; exact lt_irrefl _ hlt)
      exact absurd (hu.1 g.c g.d o1 hcd hd.le) (not_lt.2 hlt.le)
  · rw [if_neg hlt]
    rw [not_lt] at hlt
    refine ⟨⟨by linarith, ?_, rfl⟩, o1, le_refl _, ?_, ⟨?_, ?_⟩, ?_, ?_⟩
    · simp only []
      rw [h2, h3]
      linear_combination (g.b - g.a) * hRR
    · simp only []
      rw [h2]; ring
    · simp only []
      nlinarith
    · simp only []
      nlinarith
    · intro x hx
      simp only [Golden.members, List.mem_cons, List.not_mem_nil, or_false] at hx ⊢
      tauto
    · intro x hax hxb hu
      refine ⟨?_, hxb⟩
      by_contra hc
      rw [not_le] at hc
      simp only [] at hc
      rcases o2.lt_or_eq with hcd | hcd
      · exact absurd (hu.2 g.c g.d hc.le hcd o3) (not_lt.2 hlt)
      · have : g.a = g.b := by
          have hh := hR.half_lt
          rw [h2, h3] at hcd
          by_contra hne
          have : g.a < g.b := lt_of_le_of_ne h1 hne
          nlinarith
        linarith

theorem Unimodal.mono {f : K → K} {a b a' b' x : K} (h : Unimodal f a b x) (ha : a ≤ a') (hb : b' ≤ b) : Unimodal f a' b' x :=
  ⟨fun s t hs hst ht => h.1 s t (ha.trans hs) hst ht, fun s t hs hst ht => h.2 s t hs hst (ht.trans hb)⟩

/-- C66. Any number of iterations: the bracket lies in the initial one, has shrunk by exactly the golden ratio in every iteration, and the minimum of a unimodal
function lies in it, so both inner points are that close to the minimum. -/
theorem C66_run (R : K) (hR : IsGolden R) (f : K → K) (n : ℕ) (g : Golden K) (h : Divided R g) :
    Divided R (goldenRun R f n g) ∧ g.a ≤ (goldenRun R f n g).a ∧ (goldenRun R f n g).b ≤ g.b ∧
    (goldenRun R f n g).b - (goldenRun R f n g).a = R ^ n * (g.b - g.a) ∧
    ∀ x, g.a ≤ x → x ≤ g.b → Unimodal f g.a g.b x → (goldenRun R f n g).a ≤ x ∧ x ≤ (goldenRun R f n g).b ∧
      ∀ y ∈ (goldenRun R f n g).members, |y - x| ≤ R ^ n * (g.b - g.a) := by
  have key : Divided R (goldenRun R f n g) ∧ g.a ≤ (goldenRun R f n g).a ∧ (goldenRun R f n g).b ≤ g.b ∧
    (goldenRun R f n g).b - (goldenRun R f n g).a = R ^ n * (g.b - g.a) ∧
    ∀ x, g.a ≤ x → x ≤ g.b → Unimodal f g.a g.b x → (goldenRun R f n g).a ≤ x ∧ x ≤ (goldenRun R f n g).b := by
    induction n generalizing g with
    | zero => exact ⟨h, le_refl _, le_refl _, by simp [goldenRun], fun x h1 h2 _ => ⟨h1, h2⟩⟩
    | succ n ih =>
      obtain ⟨s1, s2, s3, s4, -, -, s5⟩ := C66_step R hR f g h
      obtain ⟨i1, i2, i3, i4, i5⟩ := ih (goldenAdvance R f g).1 s1
      refine ⟨i1, s2.trans i2, i3.trans s3, ?_, ?_⟩
      · rw [goldenRun, i4, s4]; ring
      · intro x h1 h2 hu
        obtain ⟨q1, q2⟩ := s5 x h1 h2 hu
        exact i5 x q1 q2 (hu.mono s2 s3)
  obtain ⟨k1, k2, k3, k4, k5⟩ := key
  refine ⟨k1, k2, k3, k4, ?_⟩
  intro x h1 h2 hu
  obtain ⟨q1, q2⟩ := k5 x h1 h2 hu
  refine ⟨q1, q2, ?_⟩
  intro y hy
  obtain ⟨o1, o2, o3⟩ := divided_order R hR _ k1
  rw [← k4, abs_le]
  simp only [Golden.members, List.mem_cons, List.not_mem_nil, or_false] at hy
  rcases hy with rfl | rfl | rfl | rfl <;> constructor <;> linarith

/-- C66. Hence the search converges: any precision is reached after finitely many iterations. -/
theorem C66_converges [Archimedean K] (R : K) (hR : IsGolden R) (f : K → K) (g : Golden K) (h : Divided R g) (x eps : K) (h1 : g.a ≤ x) (h2 : x ≤ g.b)
    (hu : Unimodal f g.a g.b x) (he : 0 < eps) : ∃ N, ∀ n ≥ N, ∀ y ∈ (goldenRun R f n g).members, |y - x| < eps := by
  have hw : 0 ≤ g.b - g.a := by linarith
  obtain ⟨N, hN⟩ := exists_pow_lt_of_lt_one (show 0 < eps / (g.b - g.a + 1) by positivity) hR.lt_one
  refine ⟨N, fun n hn y hy => ?_⟩
  have hb := ((C66_run R hR f n g h).2.2.2.2 x h1 h2 hu).2.2 y hy
  refine lt_of_le_of_lt hb ?_
  have hpow : R ^ n ≤ R ^ N := pow_le_pow_of_le_one hR.2.le hR.lt_one.le hn
  have hp : 0 ≤ R ^ n := pow_nonneg hR.2.le n
  calc R ^ n * (g.b - g.a) ≤ R ^ N * (g.b - g.a + 1) := by nlinarith
    _ < eps / (g.b - g.a + 1) * (g.b - g.a + 1) := by
        apply mul_lt_mul_of_pos_right hN; linarith
    _ = eps := by field_simp

/-- The hypotheses are met by a parabola. -/
example : ∃ g : Golden ℝ, goldenInit ((Real.sqrt 5 - 1) / 2) 0 3 = some g ∧ Divided ((Real.sqrt 5 - 1) / 2) g ∧
    Unimodal (fun x : ℝ => (x - 1) * (x - 1)) g.a g.b 1 := by
  obtain ⟨g, h1, h2, h3, h4, -⟩ := (C66_initial ((Real.sqrt 5 - 1) / 2) 0 3 C66_constant).2 (by norm_num)
  refine ⟨g, h1, h4, ?_, ?_⟩
  · intro s t hs hst ht
    nlinarith
  · intro s t hs hst ht
    nlinarith

/-- C66 (negative). For a function that is not unimodal the reported optimum can get worse: the best point of the bracket, its end, is thrown away. -/
theorem C66_loses_best_refuted (R : K) (hR : IsGolden R) : ∃ (f : K → K) (g : Golden K), goldenInit R 0 1 = some g ∧ (∃ x ∈ g.members, f x = 0) ∧
    ∀ x ∈ (goldenAdvance R f g).1.members, 0 < f x := by
  have h0 := hR.2
  have hl := hR.lt_one
  have hh := hR.half_lt
  refine ⟨fun x => if x = 0 then 0 else 1, ⟨0, 1 - R, R, 1⟩, by simp [goldenInit, zero_le_one], ⟨0, by simp [Golden.members], by simp⟩, ?_⟩
  have e1 : (1 - R) ≠ 0 := by intro e; linarith
  have e2 : R ≠ 0 := ne_of_gt h0
  have e3 : 1 - R + R * (1 - (1 - R)) ≠ 0 := by
    intro e
    nlinarith [mul_pos h0 h0]
  intro x hx
  simp only [goldenAdvance, e1, e2, if_false, lt_irrefl, Golden.members, List.mem_cons, List.not_mem_nil, or_false] at hx
  rcases hx with rfl | rfl | rfl | rfl
  · simp [e1]
  · simp [e2]
  · show 0 < (if 1 - R + R * (1 - (1 - R)) = 0 then (0 : K) else 1)
    rw [if_neg e3]; exact one_pos
  · simp

end

/-! ### Quadratic interpolation -/

/-- C66 (negative). The "middle" of the bracket is not between its ends. -/
theorem C66_quadratic_middle_refuted : ∃ a b : ℚ, a ≤ b ∧ ∃ g, quadrInit a b = some g ∧ ¬ (a ≤ g.c) :=
  ⟨2, 4, by norm_num, ⟨2, 4, 1⟩, by decide +kernel, by decide +kernel⟩

/-- C66 (negative). On the parabola `(x - 3/2)²` with the bracket `[0, 4]` the interpolated point is not the vertex, not even in the bracket: it is `-63/32`; the new
bracket then exceeds the bounds of the problem. -/
theorem C66_quadratic_refuted : quadrInit (0 : ℚ) 4 = some ⟨0, 4, 2⟩ ∧
    quadrAdvance (fun x : ℚ => (x - 3 / 2) * (x - 3 / 2)) ⟨0, 4, 2⟩ = ⟨-63 / 32, 4, 2⟩ := by
  constructor <;> decide +kernel

/-- C66 (negative). If the function is not U-shaped on the bracket and the left end is the better one, the code (whose comment says "choose the left side") gives up the left end, the best of the
three points, and keeps the right half, with a "middle" outside it: for `f x = x` on `[0, 4]` the bracket becomes `[2, 4]` with the middle `1`. -/
theorem C66_quadratic_side_refuted {K : Type*} [Field K] [LinearOrder K] (f : K → K) (g : Quadr K) (h : f g.a ≤ f g.c) (h' : f g.a ≤ f g.b) :
    quadrAdvance f g = ⟨g.c, g.b, (g.b - g.c) / 2⟩ ∧ quadrAdvance (fun x : ℚ => x) ⟨0, 4, 2⟩ = ⟨2, 4, 1⟩ := by
  refine ⟨?_, by decide +kernel⟩
  unfold quadrAdvance
  simp only [if_pos (Or.inl h), if_pos h']

/-- C66. Otherwise, with the right end better, the bracket becomes the left half; with the middle below both ends, the bracket is cut at one of the two inner points and keeps the better of them inside. -/
theorem C66_quadratic_step {K : Type*} [Field K] [LinearOrder K] (f : K → K) (g : Quadr K) :
    (f g.b < f g.a → f g.b ≤ f g.c → quadrAdvance f g = ⟨g.a, g.c, (g.c - g.a) / 2⟩) ∧
    (f g.c < f g.a → f g.c < f g.b → ∃ x, (x = (g.a - g.b - (f g.c - f g.a) / (g.c - g.a) /
          (((f g.b - f g.c) / (g.b - g.c) - (f g.c - f g.a) / (g.c - g.a)) * (g.b - g.a))) / 2) ∧
        ((quadrAdvance f g).c = g.c ∨ (quadrAdvance f g).c = x) ∧ f (quadrAdvance f g).c ≤ f g.c ∧ f (quadrAdvance f g).c ≤ f x ∧
        ((quadrAdvance f g).a = g.a ∧ (quadrAdvance f g).b = max g.c x ∨ (quadrAdvance f g).a = min g.c x ∧ (quadrAdvance f g).b = g.b)) := by
  constructor
  · intro h1 h2
    unfold quadrAdvance
    simp only [if_pos (show f g.a ≤ f g.c ∨ f g.b ≤ f g.c from Or.inr h2), if_neg (not_le.2 h1)]
  · intro h1 h2
    refine ⟨quadrInterp g.a (f g.a) g.b (f g.b) g.c (f g.c), ?_, ?_⟩
    · unfold quadrInterp
      ring
    · unfold quadrAdvance
      simp only [if_neg (show ¬ (f g.a ≤ f g.c ∨ f g.b ≤ f g.c) from by rintro (h | h) <;> exact absurd h (not_le.2 ‹_›))]
      generalize quadrInterp g.a (f g.a) g.b (f g.b) g.c (f g.c) = x
      by_cases hx : g.c > x
      · simp only [if_pos hx]
        split_ifs with hf
        · exact ⟨Or.inr rfl, hf, le_refl _, Or.inl ⟨rfl, (max_eq_left hx.le).symm⟩⟩
        · exact ⟨Or.inl rfl, le_refl _, (not_le.1 hf).le, Or.inr ⟨(min_eq_right hx.le).symm, rfl⟩⟩
      · simp only [if_neg hx]
        split_ifs with hf
        · exact ⟨Or.inl rfl, le_refl _, hf, Or.inl ⟨rfl, (max_eq_right (not_lt.1 hx)).symm⟩⟩
        · exact ⟨Or.inr rfl, (not_le.1 hf).le, le_refl _, Or.inr ⟨(min_eq_left (not_lt.1 hx)).symm, rfl⟩⟩

/-! ### Wolfe line search -/

section
variable {K : Type*} [Field K] [LinearOrder K] [IsStrictOrderedRing K]

/-- Sufficient decrease at step `x`. -/
def Armijo (l : WolfeLine K) (c1 x : K) : Prop := l.phi x ≤ l.phi 0 + c1 * x * l.slope 0

/-- Small slope at step `x`. -/
def Curvature (l : WolfeLine K) (c2 x : K) : Prop := |l.slope x| ≤ -c2 * l.slope 0

/-- C67. A step found by bisection satisfies both strong Wolfe conditions and lies between the two steps it started from. -/
theorem C67_zoom (l : WolfeLine K) (c1 c2 : K) (fuel : ℕ) (low high x lo hi : K) (h : wolfeZoom l c1 c2 fuel low high = some x)
    (h1 : lo ≤ low) (h2 : lo ≤ high) (h3 : low ≤ hi) (h4 : high ≤ hi) : Armijo l c1 x ∧ Curvature l c2 x ∧ lo ≤ x ∧ x ≤ hi := by
  induction fuel generalizing low high with
  | zero => simp [wolfeZoom] at h
  | succ fuel ih =>
    rw [wolfeZoom] at h
    have b1 : lo ≤ (high + low) / 2 := by linarith
    have b2 : (high + low) / 2 ≤ hi := by linarith
    by_cases c : l.phi 0 + c1 * ((high + low) / 2) * l.slope 0 < l.phi ((high + low) / 2) ∨ l.phi low < l.phi ((high + low) / 2)
    · rw [if_pos c] at h
      exact ih low _ h h1 b1 h3 b2
    · rw [if_neg c] at h
      push Not at c
      by_cases c' : |l.slope ((high + low) / 2)| ≤ -c2 * l.slope 0
      · rw [if_pos c', Option.some.injEq] at h
        subst h
        exact ⟨c.1, c', b1, b2⟩
      · rw [if_neg c'] at h
        by_cases c'' : 0 ≤ l.slope ((high + low) / 2) * (high - low)
        · rw [if_pos c''] at h
          exact ih _ low h b1 h1 b2 h3
        · rw [if_neg c''] at h
          exact ih _ high h b1 h2 b2 h4

/-- What the loop returns. -/
theorem wolfeLoop_result (l : WolfeLine K) (c1 c2 : K) (fuel rounds i : ℕ) (last alpha : K) (out : WolfeOut K)
    (h : wolfeLoop l c1 c2 fuel rounds i last alpha = some out) (hl : 0 ≤ last) (ha : last ≤ alpha) (h0 : 0 < alpha) :
    (out.evaluated = false → out.alpha = 2 ^ rounds * alpha) ∧ 0 ≤ out.alpha ∧ out.alpha ≤ 2 ^ rounds * alpha ∧
    (out.evaluated = true → Curvature l c2 out.alpha ∧
      (Armijo l c1 out.alpha ∨ (l.phi out.alpha ≤ l.phi 0 + c1 * l.slope 0 ∧ ∃ k < rounds, out.alpha = 2 ^ k * alpha))) := by
  induction rounds generalizing i last alpha with
  | zero =>
    simp only [wolfeLoop, Option.some.injEq] at h
    subst h
    simp [h0.le]
  | succ rounds ih =>
    rw [wolfeLoop] at h
    have hpow : (1 : K) ≤ 2 ^ (rounds + 1) := one_le_pow₀ (by norm_num)
    by_cases c : l.phi 0 + c1 * l.slope 0 < l.phi alpha ∨ (1 < i ∧ l.phi alpha ≤ l.phi last)
    · rw [if_pos c] at h
      obtain ⟨x, hx, rfl⟩ := Option.map_eq_some_iff.1 h
      obtain ⟨q1, q2, q3, q4⟩ := C67_zoom l c1 c2 fuel last alpha x 0 alpha hx hl h0.le ha le_rfl
      exact ⟨by simp, q3, by simp only []; nlinarith, fun _ => ⟨q2, Or.inl q1⟩⟩
    · rw [if_neg c] at h
      push Not at c
      by_cases c' : |l.slope alpha| ≤ -c2 * l.slope 0
      · rw [if_pos c', Option.some.injEq] at h
        subst h
        exact ⟨by simp, h0.le, by simp only []; nlinarith, fun _ => ⟨c', Or.inr ⟨c.1, 0, by omega, by simp⟩⟩⟩
      · rw [if_neg c'] at h
        by_cases c'' : 0 ≤ l.slope alpha
        · rw [if_pos c''] at h
          obtain ⟨x, hx, rfl⟩ := Option.map_eq_some_iff.1 h
          obtain ⟨q1, q2, q3, q4⟩ := C67_zoom l c1 c2 fuel alpha last x 0 alpha hx h0.le hl le_rfl ha
          exact ⟨by simp, q3, by simp only []; nlinarith, fun _ => ⟨q2, Or.inl q1⟩⟩
        · rw [if_neg c''] at h
          obtain ⟨q1, q2, q3, q4⟩ := ih (i + 1) alpha (2 * alpha) h h0.le (by linarith) (by linarith)
          refine ⟨fun he => by rw [q1 he]; ring, q2, q3.trans (le_of_eq (by ring)), fun he => ?_⟩
          obtain ⟨r1, r2⟩ := q4 he
          refine ⟨r1, r2.imp id ?_⟩
          rintro ⟨r2, k, hk, e⟩
          exact ⟨r2, k + 1, by omega, by rw [e]; ring⟩

/-- C67. What the Wolfe line search returns: a step between `0` and `2 ^ max_iter`, in the direction given; an evaluated one satisfies the curvature condition,
is not worse than the start for a descent direction, and satisfies the sufficient decrease condition unless it is one of the doubled steps `2, 4, 8, …`; a step that was never evaluated is `2 ^ max_iter`. -/
theorem C67_result_partial (l : WolfeLine K) (c1 c2 : K) (maxIter fuel : ℕ) (out : WolfeOut K) (h : wolfeSearch l c1 c2 maxIter fuel = some out)
    (hc1 : 0 ≤ c1) (hdesc : l.slope 0 ≤ 0) :
    0 ≤ out.alpha ∧ out.alpha ≤ 2 ^ maxIter ∧ (out.evaluated = false → out.alpha = 2 ^ maxIter) ∧
    (out.evaluated = true → Curvature l c2 out.alpha ∧ l.phi out.alpha ≤ l.phi 0 ∧
      (out.alpha ≤ 1 → Armijo l c1 out.alpha) ∧ (Armijo l c1 out.alpha ∨ ∃ k, 0 < k ∧ k < maxIter ∧ out.alpha = 2 ^ k)) := by
  obtain ⟨q1, q2, q3, q4⟩ := wolfeLoop_result l c1 c2 fuel maxIter 1 0 1 out h le_rfl zero_le_one one_pos
  rw [mul_one] at q1 q3
  refine ⟨q2, q3, q1, fun he => ?_⟩
  obtain ⟨r1, r2⟩ := q4 he
  have hneg : c1 * l.slope 0 ≤ 0 := mul_nonpos_of_nonneg_of_nonpos hc1 hdesc
  refine ⟨r1, ?_, ?_, ?_⟩
  · rcases r2 with r2 | ⟨r2, -⟩
    · unfold Armijo at r2
      nlinarith
    · linarith
  · intro h1
    rcases r2 with r2 | ⟨r2, k, hk, e⟩
    · exact r2
    · unfold Armijo
      have : c1 * out.alpha * l.slope 0 ≥ c1 * l.slope 0 := by nlinarith
      linarith
  · rcases r2 with r2 | ⟨r2, k, hk, e⟩
    · exact Or.inl r2
    · rw [mul_one] at e
      rcases k with _ | k
      · left
        unfold Armijo
        rw [e] at r2 ⊢
        simpa using r2
      · exact Or.inr ⟨k + 1, by omega, hk, e⟩

/-- A parabola with its minimum at step 1: the first step is taken. -/
example : wolfeSearch ⟨fun x : ℚ => (x - 1) * (x - 1), fun x => 2 * (x - 1)⟩ (1 / 10000) (9 / 10) 10 100 = some ⟨1, true⟩ := by decide +kernel

/-- C67 (negative). A step with a doubled length is accepted without sufficient decrease: the bound is not multiplied with the step (`wolfe.py:146`). -/
theorem C67_armijo_refuted : ∃ (l : WolfeLine ℚ) (out : WolfeOut ℚ), l.slope 0 < 0 ∧ wolfeSearch l (1 / 10000) (9 / 10) 10 100 = some out ∧
    out.evaluated = true ∧ ¬ Armijo l (1 / 10000) out.alpha := by
  refine ⟨⟨fun x => if x = 0 then 0 else if x = 1 then -3 / 20000 else -12 / 100000,
    fun x => if x = 0 then -1 else if x = 1 then -19 / 20 else 0⟩, ⟨2, true⟩, by decide +kernel, by decide +kernel, rfl, ?_⟩
  unfold Armijo
  decide +kernel

/-- C67 (negative). The bisection has no bound on its rounds: for a direction of ascent it never ends. -/
theorem C67_never_ends_refuted (fuel : ℕ) : wolfeSearch (⟨fun x => 2 * x, fun _ => 1⟩ : WolfeLine ℚ) (1 / 10000) (9 / 10) 10 fuel = none := by
  have key : ∀ (fuel : ℕ) (x : ℚ), 0 < x → wolfeZoom (⟨fun x => 2 * x, fun _ => 1⟩ : WolfeLine ℚ) (1 / 10000) (9 / 10) fuel 0 x = none := by
    intro fuel
    induction fuel with
    | zero => intro x _; rfl
    | succ fuel ih =>
      intro x hx
      rw [wolfeZoom]
      simp only []
      rw [if_pos (Or.inl (by linarith))]
      exact ih _ (by linarith)
  unfold wolfeSearch wolfeLoop
  rw [if_pos (Or.inl (by norm_num)), key fuel 1 (by norm_num)]
  rfl

/-- C67 (negative). With no acceptable step within `max_iter` rounds an individual is returned that was never evaluated. -/
theorem C67_unevaluated_refuted : wolfeSearch (⟨fun x => if x = 1 then -2 else 0 - x, fun _ => -1⟩ : WolfeLine ℚ) (1 / 10000) (9 / 10) 1 100 =
    some ⟨2, false⟩ := by decide +kernel

end
end Props
