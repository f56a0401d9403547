import Mathlib.Algebra.Order.Ring.Rat
import Mathlib.Algebra.BigOperators.Group.List.Basic

/-!
# Model of `pymoo/util/roulette.py`
-/

namespace Model

/-- `roulette.py:20-22`: the weights of the wheel; with `larger_is_better=False` the distance to the largest value. -/
def rouletteWeights (val : List ℚ) (largerIsBetter : Bool) : List ℚ :=
  if largerIsBetter then val else val.map fun v => (val.max?).getD 0 - v

/-- `X >= M` for one entry of `self.cumulative` (`roulette.py:23,48`): the entry is the quotient `part / total`. With
`total = 0` numpy gives `nan` (`part = 0`), `inf` or `-inf`. -/
def rouletteGe (x part total : ℚ) : Bool :=
  if total = 0 then decide (part < 0) else decide (part / total ≤ x)

/-- `roulette.py:22-23,47-49`: the index selected by the random number `x`. -/
def rouletteIndex (w : List ℚ) (x : ℚ) : ℕ :=
  ((List.range (w.length - 1)).filter fun k => rouletteGe x ((w.take (k + 1)).sum) w.sum).length

/-- `roulette.py:25-53` `next(n)`: one index per random number (line 45 has no effect). -/
def rouletteNext (val : List ℚ) (largerIsBetter : Bool) (xs : List ℚ) : List ℕ :=
  xs.map (rouletteIndex (rouletteWeights val largerIsBetter))

end Model
