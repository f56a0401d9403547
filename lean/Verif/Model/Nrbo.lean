import Mathlib.Algebra.Order.Field.Basic
import Mathlib.Algebra.BigOperators.Fin
import Mathlib.Data.Fintype.BigOperators
import Verif.Model.Repair

/-!
# Model of the offspring of `pymoo/algorithms/soo/nonconvex/nrbo.py`

What happens to the offspring (`_advance`, `_set_optimum`) is in `Model/Swarm.lean`. Vectors are functions on `Fin n`; a
coordinate of an offspring is `none` if it is NaN: a division by zero (`x / 0` or `0 / 0`) makes `X1` and `X2` infinite or NaN with
the same sign, so that `X2 - X1`, and with it `X3` and the new coordinate, is NaN in both cases.
-/

namespace Model

variable {K : Type*} [Field K] [LinearOrder K] {n : ℕ}

/-- `np.mean` of a vector. -/
def nrMean (x : Fin n → K) : K := (∑ j, x j) / (n : K)

/-- nrbo.py:113, the factor `delta`. -/
def nrDelta (nIter maxIter : ℕ) : K := (1 - 2 * (nIter : K) / (maxIter : K)) ^ 5

/-- The random numbers of one offspring: positions `r1`, `r2` (129), `a`, `b` (131), in `Search_Rule` the vector `u` (38), the
normal numbers `g1`, `g2` (45, 55) and `q` (48), then `w` (139), `tao` (143), `theta1`, `theta2` (144-145), `coin`, `v1`, `v2`
(147-149). -/
structure NrDraws (K : Type*) (n : ℕ) where
  r1 : ℕ
  r2 : ℕ
  a : K
  b : K
  u : Fin n → K
  g1 : K
  q : K
  g2 : K
  w : K
  tao : K
  theta1 : K
  theta2 : K
  coin : K
  v1 : K
  v2 : K

/-- nrbo.py:38 `dx`. -/
def nrDx (Xb Xn : Fin n → K) (u : Fin n → K) : Fin n → K := fun j => u j * |Xb j - Xn j|

/-- nrbo.py:40-46 `Z`; `tiny` is 1e-12. -/
def nrZ (tiny : K) (Xb Xw Xn : Fin n → K) (u : Fin n → K) (g1 : K) : Fin n → K := fun j =>
  let t := Xw j + Xb j - 2 * Xn j
  let t := if t = 0 then t + tiny else t
  Xn j - g1 * (((Xw j - Xb j) * nrDx Xb Xn u j) / (2 * t))

/-- nrbo.py:34-60 `Search_Rule`, the vector `step` (57); `X1` and `X2` are `Xn - step` and `Xb - step`. -/
def nrStep (tiny : K) (Xb Xw Xn rho : Fin n → K) (u : Fin n → K) (g1 q g2 : K) : Fin n → Option K := fun j =>
  let m := nrMean fun i => nrZ tiny Xb Xw Xn u g1 i + Xn i
  let dx := nrDx Xb Xn u j
  let yw := q * (m + q * dx)
  let yb := q * (m - q * dx)
  let den := 2 * (yw + yb - 2 * Xn j)
  if den = 0 then none else some (g2 * ((yw - yb) * dx) / den - rho j)

/-- nrbo.py:131-158: the new vector for `Xi`, before the bounds are looked at. -/
def nrNew (tiny deciding delta : K) (Xb Xw Xi Xr1 Xr2 : Fin n → K) (d : NrDraws K n) : Fin n → Option K := fun j =>
  let rho := fun k => d.a * (Xb k - Xi k) + d.b * (Xr1 k - Xr2 k)
  let xNew := (nrStep tiny Xb Xw Xi rho d.u d.g1 d.q d.g2 j).map fun step =>
    let X1 := Xi j - step
    let X2 := Xb j - step
    let X3 := Xi j - delta * (X2 - X1)
    d.w * (d.w * X1 + (1 - d.w) * X2) + (1 - d.w) * X3
  if d.tao < deciding then
    let beta : K := if d.coin > 1 / 2 then 0 else 1
    let u1 := beta * 3 * d.v1 + (1 - beta)
    let u2 := beta * d.v2 + (1 - beta)
    let tmp := d.theta1 * (u1 * Xb j - u2 * Xi j) + d.theta2 * delta * (u1 * nrMean Xi - u2 * Xi j)
    if u1 < 1 / 2 then xNew.map (· + tmp) else some (Xb j + tmp)
  else xNew

/-- `repair_random_init` (bounds_repair.py:145-152) for one entry: NaN is neither below nor above a bound. `r1`, `r2` are the
random numbers. -/
def nrRepair (xl xu x r1 r2 : K) : Option K → Option K
  | none => none
  | some y =>
    let y := if y < xl then xl + r1 * (x - xl) else y
    some (if y > xu then xu - r2 * (xu - x) else y)

/-- nrbo.py:127-129: the candidates for `r1`, `r2`; `choice(idx, size=2, replace=False)` raises if there are fewer than two. -/
def nrOthers (popSize i : ℕ) : List ℕ := (List.range popSize).eraseIdx i

/-- nrbo.py:112-168 `_infill` with the positions `best`, `worst` of the smallest and largest rank (116-121) and bounds; `none` is
an exception: a position outside the population, or too few individuals. The random numbers of the repair are `p i j`. -/
def nrInfill (tiny deciding : K) (nIter maxIter popSize best worst : ℕ) (X : List (Fin n → K)) (xl xu : Fin n → K)
    (draws : ℕ → NrDraws K n) (p : ℕ → Fin n → K × K) : Option (List (Fin n → Option K)) :=
  match X[best]?, X[worst]? with
  | some Xb, some Xw =>
    (List.range popSize).mapM fun i =>
      if (nrOthers popSize i).length < 2 then none
      else
        match X[i]?, X[(draws i).r1]?, X[(draws i).r2]? with
        | some Xi, some Xr1, some Xr2 =>
          some fun j => nrRepair (xl j) (xu j) (Xi j) (p i j).1 (p i j).2
            (nrNew tiny deciding (nrDelta nIter maxIter) Xb Xw Xi Xr1 Xr2 (draws i) j)
        | _, _, _ => none
  | _, _ => none

end Model
