import Verif.Model.Termination

/-!
# Model of `pymoo/termination/indicator.py`

The value `v` of the indicator on the objective values of the current optimum is the input of one update.
-/

namespace Model

variable {K : Type*} [Field K] [LinearOrder K]

/-- `termination/indicator.py:18`: the two admissible values of `goal` (anything else fails the assertion of the
constructor). -/
inductive Goal | minimize | maximize

/-- `termination/indicator.py:7-25`: `threshold`, `goal` and the attributes `_min`, `_max`; `none` is the initial pair
`inf`, `-inf`. -/
structure IndState (K : Type*) where
  threshold : K
  goal : Goal
  range : Option (K × K)

/-- `termination/indicator.py:38-40`: `min(self._min, v)` and `max(self._max, v)` (the first argument is kept when the two
are equal). -/
def indRange (r : Option (K × K)) (v : K) : K × K :=
  match r with
  | none => (v, v)
  | some (lo, hi) => (if v < lo then v else lo, if hi < v then v else hi)

/-- `termination/indicator.py:27-48` `_update`. A zero denominator is `none`: with a Python number the division raises;
with a numpy number `0 / 0` is NaN, which fails the assertion of `Termination.update` (a nonzero numerator over a zero
denominator needs an earlier value equal to the threshold that was the extreme one then, so an earlier update had already
raised). -/
def indicatorUpdate (s : IndState K) (v : K) : Option (K × IndState K) :=
  let r := indRange s.range v
  match s.goal with
  | .minimize =>
    if r.2 - s.threshold = 0 then none
    else some (1 - (v - s.threshold) / (r.2 - s.threshold), { s with range := some r })
  | .maximize =>
    if s.threshold - r.1 = 0 then none
    else some ((v - r.1) / (s.threshold - r.1), { s with range := some r })

/-- The criterion as a primitive of the termination tree; `self.perc` is not read. -/
def indicatorRaw (s : IndState K) (_ : K) (v : K) : Option (K × IndState K) := indicatorUpdate s v

/-- `termination/indicator.py:8-25`: a new `IndicatorTermination(indicator, threshold, goal)`. -/
def newIndicator (goal : Goal) (threshold : K) : Crit (IndState K) K :=
  .prim false 0 { threshold := threshold, goal := goal, range := none }

end Model
