import Verif.Model.Gta
import Mathlib.Analysis.SpecialFunctions.Log.Basic

/-!
# Model: the GTA benchmark functions DB1a to DB12m (`pymoo/vendor/gta.py`)

Over the reals, for times `t ≥ 0` (`int(t)` is the floor). `DELTA_STATE` is 1. `none`: the exception for points outside the bounds or of the wrong dimension.
-/

namespace Model

/-- `k` (gta.py 55, 82, 90, 100, 112): `int(abs(5.0 * (int(T / 5.0) % 2) - (T % 5)))` for `T = int(t)`. -/
noncomputable def gtaK (t : ℝ) : ℕ :=
  let T : ℕ := ⌊t⌋₊
  (5 * ((T / 5 % 2 : ℕ) : ℤ) - ((T % 5 : ℕ) : ℤ)).natAbs

/-- `g(x, t)` (gta.py 120-124). -/
noncomputable def gtaG (x : List ℝ) (t : ℝ) : ℝ := Real.sin (0.5 * Real.pi * (t - x.getD 0 0))

/-- The three beta functions. -/
inductive GtaBeta | uni | multi | mix

/-- The summand of `beta_uni`, `beta_multi` and `beta_mix` (gta.py 30, 42-43, 58) for the distance `d = x[i] - g(x, t)`. -/
noncomputable def gtaTerm (b : GtaBeta) (k : ℕ) (d : ℝ) : ℝ :=
  match b with
  | .uni => d * d
  | .multi => d * d * (1 + |Real.sin (4 * Real.pi * d)|)
  | .mix => 1 + d * d - Real.cos (2 * Real.pi * k * d)

/-- `beta_uni`, `beta_multi`, `beta_mix` (gta.py 24-33, 36-46, 49-61) with `obj_num = m`; `LOWER_BOUND` has 21 entries (gta.py 17). -/
noncomputable def gtaBeta (m : ℕ) (b : GtaBeta) (x : List ℝ) (t : ℝ) (o : Fin m) : ℝ :=
  2 / ((21 / m : ℕ) : ℝ) *
    (((List.range' (m - 1) (x.length - (m - 1))).filter fun i => (i + 1) % m = o).map fun i => gtaTerm b (gtaK t) (x.getD i 0 - gtaG x t)).sum

/-- The alpha functions for two objectives. -/
inductive GtaAlpha2 | conv | disc | mix | conf

/-- `alpha_conf`, the exponent (gta.py 92), with `np.finfo(float).eps = 2 ** -52`. -/
noncomputable def gtaExp (k : ℕ) : ℝ := Real.log (1 - 0.1 * k) / Real.log (0.1 * k + 1 / 2 ^ 52)

/-- `alpha_conv`, `alpha_disc`, `alpha_mix`, `alpha_conf` (gta.py 64-92), of the first variable `u`. -/
noncomputable def gtaAlpha2 (a : GtaAlpha2) (k : ℕ) (u : ℝ) : Fin 2 → ℝ :=
  match a with
  | .conv => ![u, 1 - √u]
  | .disc => ![u, 1.5 - √u - 0.5 * Real.sin (10 * Real.pi * u)]
  | .mix => ![u, 1 - √u + 0.1 * k * (1 + Real.sin (10 * Real.pi * u))]
  | .conf => ![u, 1 - u ^ gtaExp k]

open Classical in
/-- `fix_numerical_instability` (gta.py 158-167), with `np.allclose(a, b)`: `|a - b| ≤ 1e-8 + 1e-5 |b|`. -/
noncomputable def gtaFix (x : ℝ) : ℝ :=
  if |0 - x| ≤ 1e-8 + 1e-5 * |x| then 0 else if |√0.5 - x| ≤ 1e-8 + 1e-5 * |x| then √0.5 else x

/-- The alpha functions for three objectives. -/
inductive GtaAlpha3 | type1 | type2

/-- `alpha_conf_3obj_type1`, `alpha_conf_3obj_type2` (gta.py 95-117), of the first two variables. -/
noncomputable def gtaAlpha3 (a : GtaAlpha3) (k : ℕ) (u v : ℝ) : Fin 3 → ℝ :=
  match a with
  | .type1 => ![gtaFix (Real.cos (0.5 * u * Real.pi) * Real.cos (0.5 * v * Real.pi)), gtaFix (Real.cos (0.5 * u * Real.pi) * Real.sin (0.5 * v * Real.pi)),
      gtaFix (Real.sin (0.5 * u * Real.pi + 0.25 * (k / 5) * Real.pi))]
  | .type2 =>
    let r : ℝ := (5 - k) / 5
    ![gtaFix (Real.cos (0.5 * u * Real.pi) * Real.cos (0.5 * v * Real.pi * r)), gtaFix (Real.cos (0.5 * u * Real.pi) * Real.sin (0.5 * v * Real.pi * r)),
      gtaFix (Real.sin (0.5 * u * Real.pi))]

/-- `additive` and `multiplicative` (gta.py 170-182). -/
def gtaCombine {m : ℕ} (mult : Bool) (alpha beta : Fin m → ℝ) (i : Fin m) : ℝ := if mult then alpha i * (1 + beta i) else alpha i + beta i

/-- `check_boundary`, `check_boundary_3obj` (gta.py 17-18, 128-155). -/
def gtaCheck (lower upper x : List ℝ) : Prop :=
  x.length = upper.length ∧ x.length = lower.length ∧ ∀ e ∈ x.zip (upper.zip lower), e.2.2 ≤ e.1 ∧ e.1 ≤ e.2.1

/-- `LOWER_BOUND` and `UPPER_BOUND` (gta.py 17-18). -/
def gtaLower : List ℝ := 0 :: List.replicate 20 (-1)
def gtaUpper : List ℝ := List.replicate 21 1

/-- Which functions DB1 to DB8 combine (gta.py 189-362). -/
def gtaParts2 : ℕ → Option (GtaAlpha2 × GtaBeta)
  | 1 => some (.conv, .uni)
  | 2 => some (.conv, .multi)
  | 3 => some (.conv, .mix)
  | 4 => some (.disc, .mix)
  | 5 => some (.mix, .multi)
  | 6 => some (.mix, .mix)
  | 7 => some (.conf, .multi)
  | 8 => some (.conf, .mix)
  | _ => none

/-- Which functions DB9 to DB12 combine (gta.py 365-450). -/
def gtaParts3 : ℕ → Option (GtaAlpha3 × GtaBeta)
  | 9 => some (.type1, .multi)
  | 10 => some (.type1, .mix)
  | 11 => some (.type2, .multi)
  | 12 => some (.type2, .mix)
  | _ => none

open Classical in
/-- `DB1a(x, t)` to `DB8m(x, t)` (gta.py 189-362): `mult` is false for `a`, true for `m`. -/
noncomputable def gtaDB2 (p : ℕ) (mult : Bool) (x : List ℝ) (t : ℝ) : Option (Fin 2 → ℝ) :=
  (gtaParts2 p).bind fun ab =>
    if gtaCheck gtaLower gtaUpper x then some (gtaCombine mult (gtaAlpha2 ab.1 (gtaK t) (x.getD 0 0)) (gtaBeta 2 ab.2 x t)) else none

open Classical in
/-- `DB9a(x, t)` to `DB12m(x, t)` (gta.py 365-450). -/
noncomputable def gtaDB3 (p : ℕ) (mult : Bool) (x : List ℝ) (t : ℝ) : Option (Fin 3 → ℝ) :=
  (gtaParts3 p).bind fun ab =>
    if gtaCheck (0 :: gtaLower) (1 :: gtaUpper) x then
      some (gtaCombine mult (gtaAlpha3 ab.1 (gtaK t) (x.getD 0 0) (x.getD 1 0)) (gtaBeta 3 ab.2 x t)) else none

end Model
