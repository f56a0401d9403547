import Verif.Model.ConstraintProblems
import Verif.Props.Individual
import Mathlib.Tactic.Linarith
import Mathlib.Tactic.Positivity
import Mathlib.Tactic.FieldSimp
import Mathlib.Tactic.NormNum

/-!
# C56: constraint handling by changing the problem
-/

set_option linter.unusedSimpArgs false
set_option linter.unusedVariables false
set_option linter.unusedSectionVars false

namespace Props

open Model

section
variable {K : Type*} [Field K] [LinearOrder K] [IsStrictOrderedRing K]

/-- The constraints of one point, with the default tolerances. -/
def Satisfied (g h : List K) : Prop := (∀ x ∈ g, x ≤ 0) ∧ ∀ x ∈ h, |x| ≤ 1 / 10000

theorem default_cv (g h : List K) : 0 ≤ calcCv (defaultConfig (K := K)) g h ∧
    (calcCv (defaultConfig (K := K)) g h = 0 ↔ Satisfied g h) := by
  have hi : SumConfig (defaultConfig (K := K)).ieq := ⟨rfl, by simp [defaultConfig], by simp [defaultConfig]⟩
  have he : SumConfig (defaultConfig (K := K)).eq := ⟨rfl, by simp [defaultConfig], by simp [defaultConfig]⟩
  exact C19_cv_zero_iff_satisfied defaultConfig hi he g h

/-- **C56** (penalty). For a problem with one objective, row `i` of the new objectives is `f + penalty * cv`, where `cv ≥ 0` is zero
exactly if the constraints of point `i` are satisfied: feasible points keep their value, infeasible ones get a worse one. -/
theorem C56_penalty (penalty : K) (hp : 0 < penalty) (out : DoOut K) (G H : List (List K)) (hm : out.m = 1) (hG : out.G = some G)
    (hH : out.H = some H) (hlG : G.length = out.F.length) (hlH : H.length = out.F.length) :
    ∃ F', penaltyDo penalty out = some F' ∧ F'.length = out.F.length ∧
      ∀ (i : ℕ) f g h, out.F[i]? = some [f] → G[i]? = some g → H[i]? = some h →
        ∃ f' cv, F'[i]? = some [f'] ∧ f' = f + penalty * cv ∧ cv = calcCv defaultConfig g h ∧
          (Satisfied g h → f' = f) ∧ (¬ Satisfied g h → f < f') := by
  refine ⟨_, by simp only [penaltyDo, hG, hH, hm, Nat.mul_one, if_true]; rfl, ?_, ?_⟩
  · simp [calcCvRows, hlG, hlH]
  · intro i f g h hf hg hh
    obtain ⟨h0, h1⟩ := default_cv g h
    refine ⟨f + penalty * calcCv defaultConfig g h, calcCv defaultConfig g h, ?_, rfl, rfl, ?_, ?_⟩
    · simp [List.getElem?_zipWith, calcCvRows, hf, hg, hh]
    · intro hs
      rw [h1.2 hs]; simp
    · intro hs
      have : 0 < calcCv defaultConfig g h := lt_of_le_of_ne h0 fun e => hs (h1.1 e.symm)
      have := mul_pos hp this
      linarith

/-- **C56** (penalty, limits). With more than one objective (and at least one point), or if the equality or inequality constraints
are not in the dictionary of the wrapped problem, the wrapper raises. The latter happens whenever `evaluate` is called without
`return_values_of` on a wrapped problem whose evaluation function does not set both. -/
theorem C56_penalty_raises (penalty : K) (out : DoOut K)
    (h : out.G = none ∨ out.H = none ∨ (out.m ≠ 1 ∧ out.F ≠ [])) : penaltyDo penalty out = none := by
  simp only [penaltyDo]
  cases hG : out.G with
  | none => rfl
  | some G =>
    cases hH : out.H with
    | none => rfl
    | some H =>
      simp only
      rw [if_neg]
      rcases h with h | h | ⟨h1, h2⟩
      · simp [hG] at h
      · simp [hH] at h
      · intro e
        have : 0 < out.F.length := List.length_pos_iff.2 h2
        have e' : out.F.length * 1 = out.F.length * out.m := by omega
        exact h1 (Nat.eq_of_mul_eq_mul_left this e').symm

/-- Dominance of objective vectors (as lists). -/
def ListDominates (a b : List K) : Prop := List.Forall₂ (· ≤ ·) a b ∧ a ≠ b

/-- **C56** (violation as objective). The new first objective is the violation, the others are unchanged: it is zero exactly for the
points that satisfy their constraints; a feasible point is never dominated by an infeasible one, and among feasible points the
dominance is the one of the original objectives. -/
theorem C56_objective (out : DoOut K) (G H : List (List K)) (hG : out.G = some G) (hH : out.H = some H)
    (hlG : G.length = out.F.length) (hlH : H.length = out.F.length) :
    ∃ F', objectiveDo defaultConfig out = some F' ∧ F'.length = out.F.length ∧
      (∀ (i : ℕ) f g h, out.F[i]? = some f → G[i]? = some g → H[i]? = some h →
        ∃ cv, F'[i]? = some (cv :: f) ∧ 0 ≤ cv ∧ (cv = 0 ↔ Satisfied g h)) ∧
      ∀ (i j : ℕ) fi gi hi fj gj hj, out.F[i]? = some fi → G[i]? = some gi → H[i]? = some hi → out.F[j]? = some fj → G[j]? = some gj →
        H[j]? = some hj → ∀ a b, F'[i]? = some a → F'[j]? = some b → Satisfied gj hj →
          (¬ Satisfied gi hi → ¬ ListDominates a b) ∧ (Satisfied gi hi → (ListDominates a b ↔ ListDominates fi fj)) := by
  have main : ∀ (i : ℕ) f g h, out.F[i]? = some f → G[i]? = some g → H[i]? = some h →
      (List.zipWith (fun cv f => cv :: f) (calcCvRows defaultConfig G H) out.F)[i]? = some (calcCv defaultConfig g h :: f) := by
    intro i f g h hf hg hh
    simp [List.getElem?_zipWith, calcCvRows, hf, hg, hh]
  refine ⟨_, by simp only [objectiveDo, hG, hH]; rfl, ?_, ?_, ?_⟩
  · simp [calcCvRows, hlG, hlH]
  · intro i f g h hf hg hh
    exact ⟨_, main i f g h hf hg hh, default_cv g h⟩
  · intro i j fi gi hi fj gj hj e1 e2 e3 e4 e5 e6 a b ha hb hs
    rw [main i fi gi hi e1 e2 e3] at ha
    rw [main j fj gj hj e4 e5 e6] at hb
    obtain rfl := Option.some.inj ha
    obtain rfl := Option.some.inj hb
    rw [(default_cv gj hj).2.2 hs]
    constructor
    · rintro hns ⟨hle, -⟩
      have := (List.forall₂_cons.1 hle).1
      exact hns ((default_cv gi hi).2.1 (le_antisymm this (default_cv gi hi).1))
    · intro hsi
      rw [(default_cv gi hi).2.2 hsi]
      simp [ListDominates]

/-- **C56** (violation only). With `append=False` the objectives are the violations. -/
theorem C56_objective_only (out : DoOut K) (G H : List (List K)) (hG : out.G = some G) (hH : out.H = some H) (i : ℕ) (g h : List K)
    (hg : G[i]? = some g) (hh : H[i]? = some h) :
    ∃ F', objectiveOnlyDo defaultConfig out = some F' ∧ ∃ cv, F'[i]? = some cv ∧ 0 ≤ cv ∧ (cv = 0 ↔ Satisfied g h) := by
  refine ⟨_, by simp only [objectiveOnlyDo, hG, hH]; rfl, _, ?_, default_cv g h⟩
  simp [List.getElem?_zipWith, calcCvRows, hg, hh]

/-- **C56** (bounds as constraints). All new inequality constraints of point `i` are satisfied exactly if the original ones are and the
point is inside the bounds; their number grows by twice the number of variables. -/
theorem C56_bounds (xl xu : List K) (X : List (List K)) (out : DoOut K) (G : List (List K)) (hG : out.G = some G)
    (hlG : G.length = X.length) (hxu : xu.length = xl.length) (hX : ∀ x ∈ X, x.length = xl.length) :
    ∃ G', boundsDo (some (xl, xu)) X out = some G' ∧ G'.length = X.length ∧
      ∀ (i : ℕ) x g, X[i]? = some x → G[i]? = some g → ∃ g', G'[i]? = some g' ∧ g'.length = g.length + 2 * xl.length ∧
        ((∀ c ∈ g', c ≤ 0) ↔ (∀ c ∈ g, c ≤ 0) ∧
          ∀ (j : ℕ) (v l u : K), x[j]? = some v → xl[j]? = some l → xu[j]? = some u → l ≤ v ∧ v ≤ u) := by
  refine ⟨_, by simp only [boundsDo, hG]; rfl, ?_, ?_⟩
  · simp [hlG]
  · intro i x g hx hg
    have hxl : x.length = xl.length := hX x (List.mem_of_getElem? hx)
    refine ⟨_, by simp only [List.getElem?_zipWith, hg, hx]; rfl, ?_, ?_⟩
    · simp only [List.length_append, List.length_zipWith]
      omega
    · constructor
      · intro hall
        refine ⟨fun c hc => hall c (by simp [hc]), ?_⟩
        intro j v l u hv hl hu
        constructor
        · have h1 : (List.zipWith (fun l v => l - v) xl x)[j]? = some (l - v) := by simp [List.getElem?_zipWith, hv, hl]
          have := hall _ (List.mem_append_right _ (List.mem_append_left _ (List.mem_of_getElem? h1)))
          linarith
        · have h1 : (List.zipWith (fun v u => v - u) x xu)[j]? = some (v - u) := by simp [List.getElem?_zipWith, hv, hu]
          have := hall _ (List.mem_append_right _ (List.mem_append_right _ (List.mem_of_getElem? h1)))
          linarith
      · rintro ⟨h1, h2⟩ c hc
        rcases List.mem_append.1 hc with hc | hc
        · exact h1 c hc
        · have get : ∀ (j : ℕ), j < xl.length → ∃ v l u, x[j]? = some v ∧ xl[j]? = some l ∧ xu[j]? = some u := fun j hj =>
            ⟨x[j], xl[j], xu[j], by simp, by simp, by simp⟩
          rcases List.mem_append.1 hc with hc | hc
          · obtain ⟨j, hj, e⟩ := List.getElem_of_mem hc
            simp only [List.length_zipWith] at hj
            obtain ⟨v, l, u, e1, e2, e3⟩ := get j (by omega)
            have := (h2 j v l u e1 e2 e3).1
            have e' := List.getElem?_eq_getElem (l := List.zipWith (fun l v => l - v) xl x) (i := j) (by simp; omega)
            simp only [List.getElem?_zipWith, e1, e2, e] at e'
            obtain rfl := Option.some.inj e'
            linarith
          · obtain ⟨j, hj, e⟩ := List.getElem_of_mem hc
            simp only [List.length_zipWith] at hj
            obtain ⟨v, l, u, e1, e2, e3⟩ := get j (by omega)
            have := (h2 j v l u e1 e2 e3).2
            have e' := List.getElem?_eq_getElem (l := List.zipWith (fun v u => v - u) x xu) (i := j) (by simp; omega)
            simp only [List.getElem?_zipWith, e1, e3, e] at e'
            obtain rfl := Option.some.inj e'
            linarith

/-- **C56** (`remove_bonds`, refuted). With `remove_bonds=True` every evaluation raises. -/
theorem C56_remove_bounds_raises (bounds : Option (List K × List K)) (X : List (List K)) (out : DoOut K) :
    boundsDo (boundsOfWrapper true bounds) X out = none := by simp [boundsDo, boundsOfWrapper]

/-- Two points, the second infeasible by 2. -/
example : penaltyDo (10 : ℚ) ⟨1, [[1], [5]], some [[-1], [2]], some [[], []]⟩ = some [[1], [25]] ∧
    objectiveDo (defaultConfig (K := ℚ)) ⟨2, [[1, 3], [5, 6]], some [[-1], [2]], some [[], []]⟩ = some [[0, 1, 3], [2, 5, 6]] ∧
    boundsDo (boundsOfWrapper false (some ([0], [(1 : ℚ)]))) [[1 / 2], [3]] ⟨1, [[1], [5]], some [[-1], [2]], none⟩ =
      some [[-1, -1 / 2, -1 / 2], [2, -3, 2]] := by decide +kernel

/-! ### Adaptive epsilon -/

/-- **C56** (epsilon). The tolerance is never negative, never grows with the progress, equals the mean initial violation at the
start and is zero from the given percentage on. -/
theorem C56_epsilon (perc maxCv : K) (hp : 0 < perc) (hm : 0 ≤ maxCv) (s t : K) :
    0 ≤ epsAdapt perc t maxCv ∧ (s ≤ t → epsAdapt perc t maxCv ≤ epsAdapt perc s maxCv) ∧ epsAdapt perc 0 maxCv = maxCv ∧
    (perc ≤ t → epsAdapt perc t maxCv = 0) ∧ (0 ≤ t → t ≤ perc → epsAdapt perc t maxCv = (1 - t / perc) * maxCv) := by
  refine ⟨mul_nonneg (le_max_left _ _) hm, ?_, by simp [epsAdapt], ?_, ?_⟩
  · intro hst
    apply mul_le_mul_of_nonneg_right _ hm
    apply max_le_max le_rfl
    have : 1 / perc * s ≤ 1 / perc * t := mul_le_mul_of_nonneg_left hst (by positivity)
    linarith
  · intro ht
    have : 1 ≤ 1 / perc * t := by
      rw [one_div, ← div_eq_inv_mul, le_div_iff₀ hp]; linarith
    rw [epsAdapt, max_eq_left (show 1 - 1 / perc * t ≤ 0 by linarith), zero_mul]
  · intro h0 ht
    have : 1 / perc * t ≤ 1 := by
      rw [one_div, ← div_eq_inv_mul, div_le_iff₀ hp]; linarith
    rw [epsAdapt, max_eq_right (by linarith)]
    congr 1
    field_simp

/-- No step of the run fails. -/
def AllOk : List (EpsOp K) → Prop
  | [] => True
  | .init _ ok :: ops => ok = true ∧ AllOk ops
  | .infill ok :: ops => ok = true ∧ AllOk ops
  | .advance _ ok :: ops => ok = true ∧ AllOk ops

/-- **C56** (configuration at rest). After every sequence of steps without exception the individuals are judged with the default
tolerance again: the adapted one is only in force during a step. -/
theorem C56_at_rest (perc dflt : K) (ops : List (EpsOp K)) : AllOk ops → ∀ s : EpsState K, s.config = dflt →
    (epsRun perc dflt s ops).1.config = dflt := by
  induction ops with
  | nil => intro _ s h; exact h
  | cons op ops ih =>
    intro hok s h
    simp only [epsRun]
    cases op with
    | init m ok => obtain ⟨rfl, h'⟩ := hok; exact ih h' _ rfl
    | infill ok => obtain ⟨rfl, h'⟩ := hok; exact ih h' _ rfl
    | advance t ok => obtain ⟨rfl, h'⟩ := hok; exact ih h' _ rfl

/-- The generations of a run: initialisation, then for each generation new offspring and an advance. -/
def generations (meanCv : K) (ts : List K) : List (EpsOp K) := .init meanCv true :: ts.flatMap fun t => [.infill true, .advance t true]

/-- **C56** (tolerance in use). In the initialisation and in the first generation the default tolerance is used; in every later
generation (offspring and advance) the tolerance for the progress at the end of the generation before. -/
theorem C56_in_use (perc dflt meanCv : K) (ts : List K) :
    (epsRun perc dflt (epsInit dflt) (generations meanCv ts)).2 =
      dflt :: (List.zipWith (fun _ e => [e, e]) ts (dflt :: ts.map fun t => epsAdapt perc t meanCv)).flatten := by
  have gen : ∀ (ts : List K) (c a : K),
      (epsRun perc dflt ⟨c, a, meanCv⟩ (ts.flatMap fun t => [.infill true, .advance t true])).2 =
        (List.zipWith (fun _ e => [e, e]) ts (a :: ts.map fun t => epsAdapt perc t meanCv)).flatten := by
    intro ts
    induction ts with
    | nil => intro c a; rfl
    | cons t ts ih =>
      intro c a
      simp only [List.flatMap_cons, List.cons_append, List.nil_append, epsRun, epsStep, if_true, List.map_cons, List.zipWith_cons_cons,
        List.flatten_cons]
      rw [ih]
  simp only [generations, epsRun, epsInit, epsStep, if_true]
  rw [gen]

/-- **C56** (exception, refuted). If the wrapped step raises, the adapted tolerance stays in force: an infeasible individual counts as
feasible for whoever catches the exception. -/
theorem C56_exception_leaves_tolerance :
    (epsRun (1 / 2 : ℚ) 0 (epsInit 0) [.init 4 true, .infill true, .advance (1 / 4) true, .infill false]).1.config = 2 := by decide +kernel

example : (epsRun (1 / 2 : ℚ) 0 (epsInit 0) (generations 4 [1 / 8, 1 / 4, 1])).2 = [0, 0, 0, 3, 3, 2, 2] := by decide +kernel

end

end Props
