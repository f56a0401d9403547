import Mathlib.Algebra.Order.Floor.Ring
import Mathlib.Algebra.Order.Field.Basic
import Mathlib.Algebra.Ring.Int.Parity

/-!
# Model of the bound repairs

`pymoo/operators/repair/{bounds_repair,bounce_back,to_bound,inverse_penalty,rounding}.py` and the repairs of
`pymoo/operators/crossover/dex.py`. The numbers are an ordered field with floor (exact arithmetic, no rounding, no
infinities). Matrices are functions of row and column; the functions update their argument in place, which is not
modelled: the model is the matrix returned.
-/

namespace Model

variable {K : Type*} [Field K] [LinearOrder K] {r n : ℕ}

/-- An assignment `X[mask] = values[mask]` with an entrywise mask. -/
def setWhere (X : Fin r → Fin n → K) (mask : Fin r → Fin n → Bool) (values : Fin r → Fin n → K) :
    Fin r → Fin n → K := fun i j => if mask i j then values i j else X i j

/-- The entries below the lower bound / above the upper bound (`np.where(Xp < XL)`, `np.where(Xp > XU)`). -/
def below (X : Fin r → Fin n → K) (xl : Fin n → K) : Fin r → Fin n → Bool := fun i j => decide (X i j < xl j)

/-- See `below`. -/
def above (X : Fin r → Fin n → K) (xu : Fin n → K) : Fin r → Fin n → Bool := fun i j => decide (xu j < X i j)

/-- `bounds_repair.py:12-23` `is_in_bounds`: the row indices. -/
def isInBounds (X : Fin r → Fin n → K) (xl xu : Fin n → K) : List (Fin r) :=
  (List.finRange r).filter fun i => (List.finRange n).all fun j => decide (xl j ≤ X i j) && decide (X i j ≤ xu j)

/-- `bounds_repair.py:39-50` `is_out_of_bounds`: the row indices. -/
def isOutOfBounds (X : Fin r → Fin n → K) (xl xu : Fin n → K) : List (Fin r) :=
  (List.finRange r).filter fun i => (List.finRange n).any fun j => decide (X i j < xl j) || decide (xu j < X i j)

/-- `bounds_repair.py:82-101` `repair_clamp`, and `dex.py:183-192` `to_bounds`. -/
def repairClamp (X : Fin r → Fin n → K) (xl xu : Fin n → K) : Fin r → Fin n → K :=
  let X := setWhere X (below X xl) (fun _ j => xl j)
  setWhere X (above X xu) (fun _ j => xu j)

/-- `to_bound.py:9-33` `set_to_bounds_if_outside`; bounds may be missing. -/
def setToBounds (X : Fin r → Fin n → K) (xl xu : Option (Fin n → K)) : Fin r → Fin n → K :=
  let X := match xl with
    | some xl => setWhere X (below X xl) (fun _ j => xl j)
    | none => X
  match xu with
  | some xu => setWhere X (above X xu) (fun _ j => xu j)
  | none => X

/-- `a % s` of numpy for floats: the floored modulo; `none` is NaN (`s = 0`). -/
def npMod [FloorRing K] (a s : K) : Option K := if s = 0 then none else some (a - s * (⌊a / s⌋ : ℤ))

/-- An entry after `x + y % s` or `x - y % s`, where NaN propagates. -/
def repairPeriodicEntry [FloorRing K] (x xl xu : K) : Option K :=
  let s := xu - xl
  let x1 := if x < xl then (npMod (xl - x) s).map fun v => xu - v else some x
  match x1 with
  | none => none -- NaN: the next comparison is False
  | some x1 => if xu < x1 then (npMod (x1 - xu) s).map fun v => xl + v else some x1

/-- `bounds_repair.py:104-125` `repair_periodic`; an entry `none` is NaN. -/
def repairPeriodic [FloorRing K] (X : Fin r → Fin n → K) (xl xu : Fin n → K) : Fin r → Fin n → Option K :=
  fun i j => repairPeriodicEntry (X i j) (xl j) (xu j)

/-- One entry of `bounce_back.py:9-34`. -/
def bounceBackEntry [FloorRing K] (x xl xu : K) : Option K :=
  let s := xu - xl
  let x1 := if x < xl then (npMod (xl - x) s).map fun v => xl + v else some x
  match x1 with
  | none => none
  | some x1 => if xu < x1 then (npMod (x1 - xu) s).map fun v => xu - v else some x1

/-- `bounce_back.py:9-34` `bounce_back`. -/
def bounceBack [FloorRing K] (X : Fin r → Fin n → K) (xl xu : Fin n → K) : Fin r → Fin n → Option K :=
  fun i j => bounceBackEntry (X i j) (xl j) (xu j)

/-- `bounds_repair.py:128-152` `repair_random_init(Xp, X, xl, xu)`, and `dex.py:157-168` `bounce_back`. `u1`, `u2` are
the random numbers of the two calls of `random`, addressed by entry. -/
def repairRandomInit (Xp X : Fin r → Fin n → K) (xl xu : Fin n → K) (u1 u2 : Fin r → Fin n → K) :
    Fin r → Fin n → K :=
  let Xp := setWhere Xp (below Xp xl) (fun i j => xl j + u1 i j * (X i j - xl j))
  setWhere Xp (above Xp xu) (fun i j => xu j - u2 i j * (xu j - X i j))

/-- `dex.py:171-180` `midway`. -/
def repairMidway (Xp X : Fin r → Fin n → K) (xl xu : Fin n → K) : Fin r → Fin n → K :=
  let Xp := setWhere Xp (below Xp xl) (fun i j => xl j + (X i j - xl j) / 2)
  setWhere Xp (above Xp xu) (fun i j => xu j - (xu j - X i j) / 2)

/-- `dex.py:195-206` `rand_init`. -/
def repairRandInit (Xp : Fin r → Fin n → K) (xl xu : Fin n → K) (u1 u2 : Fin r → Fin n → K) : Fin r → Fin n → K :=
  let Xp := setWhere Xp (below Xp xl) (fun i j => xl j + u1 i j * (xu j - xl j))
  setWhere Xp (above Xp xu) (fun i j => xu j - u2 i j * (xu j - xl j))

/-- `inverse_penalty.py:10-60` `inverse_penality(x, p, xl, xu)` for one row: `raw` stands for the value `x + (p - x) * Y /
normv` of the formula (lines 38-54, with tangents; not modelled); lines 56-58 clamp it. -/
def inversePenalty (raw : (Fin n → K)) (x xl xu : Fin n → K) : Fin n → K :=
  if (List.finRange n).any fun j => decide (x j < xl j) || decide (xu j < x j) then
    fun j =>
      let v := if raw j < xl j then xl j else raw j
      if xu j < v then xu j else v
  else x

/-- `bounds_repair.py:158-187` `BoundsRepair._do` for an array: `none` = the assertion on the result. -/
def boundsRepairDo (repair : (Fin r → Fin n → K) → Fin r → Fin n → K) (xl xu : Fin n → K) (X : Fin r → Fin n → K) :
    Option (Fin r → Fin n → K) :=
  let X := repair X
  if (isOutOfBounds X xl xu).length = 0 then some X else none

/-- `np.around`: to the nearest integer, halves to the even neighbour (`rounding.py:25`, then `astype(int)`). -/
def npAround [FloorRing K] (x : K) : ℤ :=
  let d := x - (⌊x⌋ : ℤ)
  if d < 1 / 2 then ⌊x⌋ else if 1 / 2 < d then ⌊x⌋ + 1 else if Even ⌊x⌋ then ⌊x⌋ else ⌊x⌋ + 1

/-- `rounding.py:15-25` `RoundingRepair._do`. -/
def roundingRepair [FloorRing K] (X : Fin r → Fin n → K) : Fin r → Fin n → ℤ := fun i j => npAround (X i j)

end Model
