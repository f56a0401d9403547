import Mathlib.Algebra.Order.Field.Basic

/-!
# Model of `pymoo/algorithms/soo/univariate/{golden,quadr_interp,wolfe}.py`

Points of the interval are elements of an ordered field `K`; `f` is the objective (every individual is evaluated with it, so its
`F` is `f x`).
-/

namespace Model

variable {K : Type*} [Field K] [LinearOrder K]

/-! ### Golden section -/

/-- The four individuals `a, c, d, b` of the population (`golden.py:24-27`). -/
structure Golden (K : Type*) where
  a : K
  c : K
  d : K
  b : K
  deriving DecidableEq, Repr

/-- `golden.py:14-29` `_initialize_infill`; `none` if the bounds are in the wrong order (`bracket.py:40`). -/
def goldenInit (R a b : K) : Option (Golden K) :=
  if a ≤ b then some ⟨a, b - R * (b - a), a + R * (b - a), b⟩ else none

/-- `golden.py:31-62` `_advance`: the new population and the individual that was evaluated. -/
def goldenAdvance (R : K) (f : K → K) (g : Golden K) : Golden K × K :=
  if f g.c < f g.d then
    let b := g.d
    let c := b - R * (b - g.a)
    (⟨g.a, c, g.c, b⟩, c)
  else
    let a := g.c
    let d := a + R * (g.b - a)
    (⟨a, g.d, d, g.b⟩, d)

/-- `n` iterations. -/
def goldenRun (R : K) (f : K → K) : ℕ → Golden K → Golden K
  | 0, g => g
  | n + 1, g => goldenRun R f n (goldenAdvance R f g).1

/-- The members of the population, from which `opt` is taken. -/
def Golden.members (g : Golden K) : List K := [g.a, g.c, g.d, g.b]

/-! ### Quadratic interpolation -/

/-- `quadr_interp.py:8-12`. -/
def quadrInterp (xa fa xb fb xc fc : K) : K :=
  let g1 := (fc - fa) / (xc - xa)
  let g2 := ((fb - fc) / (xb - xc) - g1) * (xb - xa)
  1 / 2 * ((xa - xb) - g1 / g2)

/-- The three individuals `a, b, c` of the population (`quadr_interp.py:40-41`). -/
structure Quadr (K : Type*) where
  a : K
  b : K
  c : K
  deriving DecidableEq, Repr

/-- `quadr_interp.py:33-43` `_initialize_infill`. -/
def quadrInit (a b : K) : Option (Quadr K) := if a ≤ b then some ⟨a, b, (b - a) / 2⟩ else none

/-- `quadr_interp.py:45-79` `_advance`. -/
def quadrAdvance (f : K → K) (g : Quadr K) : Quadr K :=
  if f g.a ≤ f g.c ∨ f g.b ≤ f g.c then
    let a := if f g.a ≤ f g.b then g.c else g.a
    let b := if f g.a ≤ f g.b then g.b else g.c
    ⟨a, b, (b - a) / 2⟩
  else
    let x := quadrInterp g.a (f g.a) g.b (f g.b) g.c (f g.c)
    let c := if g.c > x then x else g.c
    let d := if g.c > x then g.c else x
    if f c ≤ f d then ⟨g.a, d, c⟩ else ⟨c, g.b, d⟩

/-! ### Wolfe line search -/

/-- A line: `phi α` is the objective at `sol.X + α * direction`, `slope α` is `dF @ direction` there (`wolfe.py:101-161`). -/
structure WolfeLine (K : Type*) where
  phi : K → K
  slope : K → K

/-- `wolfe.py:110-129` `zoom`, at most `fuel` rounds of its `while True` (`none`: still running). -/
def wolfeZoom (l : WolfeLine K) (c1 c2 : K) : ℕ → K → K → Option K
  | 0, _, _ => none
  | fuel + 1, low, high =>
    let x := (high + low) / 2
    if l.phi 0 + c1 * x * l.slope 0 < l.phi x ∨ l.phi low < l.phi x then wolfeZoom l c1 c2 fuel low x
    else if |l.slope x| ≤ -c2 * l.slope 0 then some x
    else if 0 ≤ l.slope x * (high - low) then wolfeZoom l c1 c2 fuel x low
    else wolfeZoom l c1 c2 fuel x high

/-- What `wolfe_line_search` returns: the step, and whether that individual was evaluated. -/
structure WolfeOut (K : Type*) where
  alpha : K
  evaluated : Bool
  deriving DecidableEq, Repr

/-- `wolfe.py:136-161`: the loop from round `i` with `rounds` rounds left, the steps `last` and `alpha`. -/
def wolfeLoop (l : WolfeLine K) (c1 c2 : K) (fuel : ℕ) : ℕ → ℕ → K → K → Option (WolfeOut K)
  | 0, _, _, alpha => some ⟨alpha, false⟩
  | rounds + 1, i, last, alpha =>
    if l.phi 0 + c1 * l.slope 0 < l.phi alpha ∨ (1 < i ∧ l.phi alpha ≤ l.phi last) then
      (wolfeZoom l c1 c2 fuel last alpha).map fun x => ⟨x, true⟩
    else if |l.slope alpha| ≤ -c2 * l.slope 0 then some ⟨alpha, true⟩
    else if 0 ≤ l.slope alpha then (wolfeZoom l c1 c2 fuel alpha last).map fun x => ⟨x, true⟩
    else wolfeLoop l c1 c2 fuel rounds (i + 1) alpha (2 * alpha)

/-- `wolfe.py:101-161` `wolfe_line_search`. -/
def wolfeSearch (l : WolfeLine K) (c1 c2 : K) (maxIter fuel : ℕ) : Option (WolfeOut K) := wolfeLoop l c1 c2 fuel maxIter 1 0 1

end Model
