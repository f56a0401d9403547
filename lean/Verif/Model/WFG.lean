import Mathlib.Analysis.SpecialFunctions.Pow.Real
import Mathlib.Analysis.SpecialFunctions.Trigonometric.Basic
import Mathlib.Algebra.BigOperators.Group.List.Basic
import Mathlib.Algebra.Order.Floor.Ring
import Verif.Model.DTLZ
import Verif.Model.Misc

/-!
# Model: the WFG problems (pymoo/problems/many/wfg.py)

`_evaluate` for one row over the reals; `m` is `n_obj`, `k` the number of position variables, the length of the row `n_var`. The
matrix of reduced parameters `t` is kept as a pair: the first `m - 1` columns and the last one. The arrays changed in place are
fresh (`y = x / self.xu`), so the model returns new lists. In `_calc_pareto_front` the choice of the rows closest to the reference
directions (wfg.py:144-152) is an arbitrary function to row numbers.
-/

namespace Model

/-- wfg.py:691-703 `correct_to_01`, for one value. -/
noncomputable def correct01 (x : ℝ) : ℝ :=
  if x < 0 ∧ 0 - 1e-10 ≤ x then 0 else if 1 < x ∧ x ≤ 1 + 1e-10 then 1 else x

/-- wfg.py:534-536. -/
noncomputable def wfgShiftLinear (shift v : ℝ) : ℝ := correct01 (|v - shift| / |(⌊shift - v⌋ : ℝ) + shift|)

/-- wfg.py:539-544 and 577-582: the two functions have the same body. -/
noncomputable def wfgDeceptive (A B C y : ℝ) : ℝ :=
  let tmp1 := (⌊y - A + B⌋ : ℝ) * (1 - C + (A - B) / B) / (A - B)
  let tmp2 := (⌊A + B - y⌋ : ℝ) * (1 - C + (1 - A - B) / B) / (1 - A - B)
  correct01 (1 + (|y - A| - B) * (tmp1 + tmp2 + 1 / B))

/-- wfg.py:547-552. -/
noncomputable def wfgMultiModal (A B C y : ℝ) : ℝ :=
  let tmp1 := |y - C| / (2 * ((⌊C - y⌋ : ℝ) + C))
  let tmp2 := (4 * A + 2) * Real.pi * (0.5 - tmp1)
  correct01 ((1 + Real.cos tmp2 + 4 * B * tmp1 ^ 2) / (B + 2))

/-- wfg.py:555-562. -/
noncomputable def wfgBiasFlat (a b c y : ℝ) : ℝ :=
  correct01 (a + min 0 (⌊y - b⌋ : ℝ) * (a * (b - y) / b) - min 0 (⌊c - y⌋ : ℝ) * ((1 - a) * (y - c) / (1 - c)))

/-- wfg.py:565-567. -/
noncomputable def wfgBiasPoly (alpha y : ℝ) : ℝ := correct01 (y ^ alpha)

/-- wfg.py:572-573: the exponent of the parameter dependent bias. -/
noncomputable def wfgExponent (A B C u : ℝ) : ℝ := B + (C - B) * (A - (1 - 2 * u) * |(⌊0.5 - u⌋ : ℝ) + A|)

/-- wfg.py:570-574, with the default parameters (which WFG8 passes again, wfg.py:437). -/
noncomputable def wfgParam (y u : ℝ) : ℝ := correct01 (y ^ wfgExponent (0.98 / 49.98) 0.02 50 u)

/-- wfg.py:590-592. -/
noncomputable def wfgWeighted (w y : List ℝ) : ℝ := correct01 ((List.zipWith (fun a b => a * b) y w).sum / w.sum)

/-- wfg.py:595-597. -/
noncomputable def wfgMean (y : List ℝ) : ℝ := correct01 (y.sum / y.length)

/-- wfg.py:605-609: the numerator of the reduction. -/
noncomputable def wfgNonSepNum (A : ℕ) (y : List ℝ) : ℝ :=
  ((List.range y.length).map fun j : ℕ =>
    y.getD j 0 + ((List.range (A - 1)).map fun k : ℕ => |y.getD j 0 - y.getD ((1 + j + k) % y.length) 0|).sum).sum

/-- wfg.py:600-613. -/
noncomputable def wfgNonSep (A : ℕ) (y : List ℝ) : ℝ :=
  let val : ℝ := (⌈(A : ℝ) / 2⌉ : ℤ)
  correct01 (wfgNonSepNum A y / (y.length * val * (1 + 2 * A - 2 * val) / A))

/-- The three shapes with a product (wfg.py:621-657) have the same branches; `m` counts from one. -/
noncomputable def wfgShape (c s : ℝ → ℝ) (x : List ℝ) (m : ℕ) : ℝ :=
  correct01 (if m = 1 then (x.map c).prod
    else if 1 < m ∧ m ≤ x.length then ((x.take (x.length - m + 1)).map c).prod * s (x.getD (x.length - m + 1) 0)
    else s (x.getD 0 0))

/-- wfg.py:621-631. -/
noncomputable def wfgConcave : List ℝ → ℕ → ℝ :=
  wfgShape (fun v => Real.sin (0.5 * v * Real.pi)) (fun v => Real.cos (0.5 * v * Real.pi))

/-- wfg.py:634-644. -/
noncomputable def wfgConvex : List ℝ → ℕ → ℝ :=
  wfgShape (fun v => 1 - Real.cos (0.5 * v * Real.pi)) (fun v => 1 - Real.sin (0.5 * v * Real.pi))

/-- wfg.py:647-657. -/
noncomputable def wfgLinear : List ℝ → ℕ → ℝ := wfgShape (fun v => v) (fun v => 1 - v)

/-- wfg.py:660-664, with `alpha = 1`. -/
noncomputable def wfgMixed (A x : ℝ) : ℝ :=
  let aux := 2 * A * Real.pi
  correct01 (1 - x - Real.cos (aux * x + 0.5 * Real.pi) / aux)

/-- wfg.py:667-670, with `alpha = beta = 1`. -/
noncomputable def wfgDisconnected (A x : ℝ) : ℝ := correct01 (1 - x * Real.cos (A * Real.pi * x) ^ 2)

/-- wfg.py:85-91 `_post`. -/
noncomputable def wfgPost (a : ℕ → ℝ) (t : List ℝ × ℝ) : List ℝ × ℝ :=
  (t.1.zipIdx.map fun e => max t.2 (a e.2) * (e.1 - 0.5) + 0.5, t.2)

/-- wfg.py:93-95 `_calculate`, with `self.S` (wfg.py:47). -/
noncomputable def wfgCalc (m : ℕ) (d : ℝ) (h : ℕ → ℝ) : Fin m → ℝ := fun i => d + 2 * ((i : ℕ) + 1) * h i

/-- `x / self.xu`, with `xu` (wfg.py:42). -/
noncomputable def wfgNorm (x : List ℝ) : List ℝ := x.zipIdx.map fun e => e.1 / (2 * ((e.2 : ℝ) + 1))

/-- `X * self.xu` (wfg.py:106, and wfg.py:464, 519), for as many columns as variables. -/
noncomputable def wfgScale (z : List ℝ) : List ℝ := z.zipIdx.map fun e => e.1 * (2 * ((e.2 : ℝ) + 1))

/-- The reduction of the position variables in `m - 1` groups of `k // (m - 1)` (wfg.py:183-188, 248-250, 324-325, 377-378, 490-491). -/
noncomputable def wfgGroups (red : ℕ → List ℝ → ℝ) (m k : ℕ) (y : List ℝ) : List ℝ :=
  (List.range (m - 1)).map fun i : ℕ => red i ((y.drop (i * (k / (m - 1)))).take (k / (m - 1)))

/-- wfg.py:162-165 `WFG1.t1`. -/
noncomputable def wfg1T1 (k : ℕ) (y : List ℝ) : List ℝ := y.take k ++ (y.drop k).map (wfgShiftLinear 0.35)

/-- wfg.py:168-171 `WFG1.t2`. -/
noncomputable def wfg1T2 (k : ℕ) (y : List ℝ) : List ℝ := y.take k ++ (y.drop k).map (wfgBiasFlat 0.8 0.75 0.85)

/-- wfg.py:174-177 `WFG1.t3`. -/
noncomputable def wfg1T3 (y : List ℝ) : List ℝ := y.map (wfgBiasPoly 0.02)

/-- wfg.py:182 the weights. -/
noncomputable def wfgWeights (n : ℕ) : List ℝ := (List.range n).map fun i : ℕ => 2 * ((i : ℝ) + 1)

/-- wfg.py:180-190 `WFG1.t4`. -/
noncomputable def wfg1T4 (m k : ℕ) (y : List ℝ) : List ℝ × ℝ :=
  let w := wfgWeights y.length
  (wfgGroups (fun i g => wfgWeighted ((w.drop (i * (k / (m - 1)))).take (k / (m - 1))) g) m k y, wfgWeighted (w.drop k) (y.drop k))

/-- wfg.py:195-198: the reduced parameters of WFG1. -/
noncomputable def wfg1Red (m k : ℕ) (y : List ℝ) : List ℝ × ℝ := wfg1T4 m k (wfg1T3 (wfg1T2 k (wfg1T1 k y)))

/-- wfg.py:192-205 `WFG1._evaluate`; `self.A` are ones (wfg.py:48). -/
noncomputable def wfg1 (m k : ℕ) (x : List ℝ) : Fin m → ℝ :=
  let y := wfgPost (fun _ => 1) (wfg1Red m k (wfgNorm x))
  wfgCalc m y.2 fun i => if i < m - 1 then wfgConvex y.1 (i + 1) else wfgMixed 5 (y.1.getD 0 0)

/-- wfg.py:235-240: the pairs of distance variables; an odd one at the end is left out. -/
noncomputable def wfgPairs : List ℝ → List ℝ
  | a :: b :: r => wfgNonSep 2 [a, b] :: wfgPairs r
  | _ => []

/-- wfg.py:228-242 `WFG2.t2`. -/
noncomputable def wfg2T2 (k : ℕ) (y : List ℝ) : List ℝ := y.take k ++ wfgPairs (y.drop k)

/-- wfg.py:245-253 `WFG2.t3`; the columns after `k` are exactly the pairs. -/
noncomputable def wfg2T3 (m k : ℕ) (y : List ℝ) : List ℝ × ℝ := (wfgGroups (fun _ => wfgMean) m k y, wfgMean (y.drop k))

/-- wfg.py:258-260 and 298-300. -/
noncomputable def wfg2Red (m k : ℕ) (y : List ℝ) : List ℝ × ℝ := wfg2T3 m k (wfg2T2 k (wfg1T1 k y))

/-- wfg.py:255-266 `WFG2._evaluate`. -/
noncomputable def wfg2 (m k : ℕ) (x : List ℝ) : Fin m → ℝ :=
  let y := wfgPost (fun _ => 1) (wfg2Red m k (wfgNorm x))
  wfgCalc m y.2 fun i => if i < m - 1 then wfgConvex y.1 (i + 1) else wfgDisconnected 5 (y.1.getD 0 0)

/-- wfg.py:295-305 `WFG3._evaluate`, with `self.A` of wfg.py:282. -/
noncomputable def wfg3 (m k : ℕ) (x : List ℝ) : Fin m → ℝ :=
  let y := wfgPost (fun i => if i = 0 then 1 else 0) (wfg2Red m k (wfgNorm x))
  wfgCalc m y.2 fun i => wfgLinear y.1 (i + 1)

/-- The last steps of WFG4-8 (wfg.py:334-338, 359-363, 387-391, 416-420, 446-450). -/
noncomputable def wfgSphere (m : ℕ) (t : List ℝ × ℝ) : Fin m → ℝ :=
  let y := wfgPost (fun _ => 1) t
  wfgCalc m y.2 fun i => wfgConcave y.1 (i + 1)

/-- wfg.py:322-327 `WFG4.t2`. -/
noncomputable def wfg4T2 (m k : ℕ) (y : List ℝ) : List ℝ × ℝ := (wfgGroups (fun _ => wfgMean) m k y, wfgMean (y.drop k))

/-- wfg.py:332-333, with `WFG4.t1` (wfg.py:317-319). -/
noncomputable def wfg4Red (m k : ℕ) (y : List ℝ) : List ℝ × ℝ := wfg4T2 m k (y.map (wfgMultiModal 30 10 0.35))

/-- wfg.py:329-338 `WFG4._evaluate`. -/
noncomputable def wfg4 (m k : ℕ) (x : List ℝ) : Fin m → ℝ := wfgSphere m (wfg4Red m k (wfgNorm x))

/-- wfg.py:357-358, with `WFG5.t1` (wfg.py:350-352). -/
noncomputable def wfg5Red (m k : ℕ) (y : List ℝ) : List ℝ × ℝ := wfg4T2 m k (y.map (wfgDeceptive 0.35 0.001 0.05))

/-- wfg.py:354-363 `WFG5._evaluate`. -/
noncomputable def wfg5 (m k : ℕ) (x : List ℝ) : Fin m → ℝ := wfgSphere m (wfg5Red m k (wfgNorm x))

/-- wfg.py:375-380 `WFG6.t2` and wfg.py:488-493 `WFG9.t3`. -/
noncomputable def wfg6T2 (m k : ℕ) (y : List ℝ) : List ℝ × ℝ :=
  (wfgGroups (fun _ => wfgNonSep (k / (m - 1))) m k y, wfgNonSep (y.length - k) (y.drop k))

/-- wfg.py:385-386. -/
noncomputable def wfg6Red (m k : ℕ) (y : List ℝ) : List ℝ × ℝ := wfg6T2 m k (wfg1T1 k y)

/-- wfg.py:382-391 `WFG6._evaluate`. -/
noncomputable def wfg6 (m k : ℕ) (x : List ℝ) : Fin m → ℝ := wfgSphere m (wfg6Red m k (wfgNorm x))

/-- wfg.py:403-408 `WFG7.t1` (the first `k` columns, in place, each from the later ones that are still unchanged) and wfg.py:472-478
`WFG9.t1` (all but the last column). -/
noncomputable def wfgParamRest : ℕ → List ℝ → List ℝ
  | k + 1, a :: y => wfgParam a (wfgMean y) :: wfgParamRest k y
  | _, y => y

/-- wfg.py:413-415. -/
noncomputable def wfg7Red (m k : ℕ) (y : List ℝ) : List ℝ × ℝ := wfg4T2 m k (wfg1T1 k (wfgParamRest k y))

/-- wfg.py:410-420 `WFG7._evaluate`. -/
noncomputable def wfg7 (m k : ℕ) (x : List ℝ) : Fin m → ℝ := wfgSphere m (wfg7Red m k (wfgNorm x))

/-- wfg.py:432-438 `WFG8.t1`: each remaining column from all the columns `before` it. -/
noncomputable def wfgParamCum : List ℝ → List ℝ → List ℝ
  | _, [] => []
  | before, a :: y => wfgParam a (wfgMean before) :: wfgParamCum (before ++ [a]) y

/-- wfg.py:443-445. -/
noncomputable def wfg8Red (m k : ℕ) (y : List ℝ) : List ℝ × ℝ :=
  wfg4T2 m k (wfg1T1 k (y.take k ++ wfgParamCum (y.take k) (y.drop k)))

/-- wfg.py:440-450 `WFG8._evaluate`. -/
noncomputable def wfg8 (m k : ℕ) (x : List ℝ) : Fin m → ℝ := wfgSphere m (wfg8Red m k (wfgNorm x))

/-- wfg.py:481-485 `WFG9.t2`. -/
noncomputable def wfg9T2 (k : ℕ) (y : List ℝ) : List ℝ :=
  (y.take k).map (wfgDeceptive 0.35 0.001 0.05) ++ (y.drop k).map (wfgMultiModal 30 95 0.35)

/-- wfg.py:498-500. -/
noncomputable def wfg9Red (m k : ℕ) (y : List ℝ) : List ℝ × ℝ := wfg6T2 m k (wfg9T2 k (wfgParamRest (y.length - 1) y))

/-- wfg.py:495-504 `WFG9._evaluate`, which does not call `_post`. -/
noncomputable def wfg9 (m k : ℕ) (x : List ℝ) : Fin m → ℝ :=
  let y := wfg9Red m k (wfgNorm x)
  wfgCalc m y.2 fun i => wfgConcave y.1 (i + 1)

/-- wfg.py:102-106 `_positional_to_optimal` before the scaling, for one row. -/
noncomputable def wfgOptimal (l : ℕ) (K : List ℝ) : List ℝ := K ++ List.replicate l 0.35

/-- wfg.py:452-462 `WFG8._positional_to_optimal` before the scaling. -/
noncomputable def wfg8Optimal : ℕ → List ℝ → List ℝ
  | 0, K => K
  | l + 1, K =>
    let u := K.sum / K.length
    let tmp1 := |(⌊0.5 - u⌋ : ℝ) + 0.98 / 49.98|
    let tmp2 := 0.02 + 49.98 * (0.98 / 49.98 - (1 - 2 * u) * tmp1)
    wfg8Optimal l (K ++ [(0.35 : ℝ) ^ (tmp2 ^ (-1 : ℝ))])

/-- wfg.py:510-517: the distance variables of `WFG9._positional_to_optimal`, from the last to the first. -/
noncomputable def wfg9Suffix : ℕ → List ℝ
  | 0 => []
  | 1 => [0.35]
  | l + 2 =>
    let r := wfg9Suffix (l + 1)
    (0.35 : ℝ) ^ ((0.02 + 1.96 * (r.sum / r.length)) ^ (-1 : ℝ)) :: r

/-- wfg.py:506-517 `WFG9._positional_to_optimal` before the scaling. -/
noncomputable def wfg9Optimal (l : ℕ) (K : List ℝ) : List ℝ := K ++ wfg9Suffix l

/-- wfg.py:108-113: the rows of positions of the extremes. -/
noncomputable def wfgExtremes (k : ℕ) : List (List ℝ) := (wfgCorners k).map fun c => List.ofFn fun j => (c j : ℝ)

/-- wfg.py:115-123 `_calc_pareto_set`: `draws n` are the rows drawn for the interior, and a negative number of rows is refused by numpy. -/
noncomputable def wfgSet (opt : List ℝ → List ℝ) (k : ℕ) (draws : ℕ → List (List ℝ)) (nPoints : ℕ) : Except String (List (List ℝ)) :=
  if nPoints < (wfgExtremes k).length then .error "negative dimensions are not allowed"
  else .ok (((wfgExtremes k) ++ draws (nPoints - (wfgExtremes k).length)).map fun K => wfgScale (opt K))

/-- wfg.py:144-152: the rows `closest` of the front and the new points. -/
def wfgRound {m : ℕ} (closest : List (Fin m → ℝ) → List ℕ) (pf new : List (Fin m → ℝ)) : List (Fin m → ℝ) :=
  (closest (pf ++ new)).filterMap fun i => (pf ++ new)[i]?

/-- wfg.py:125-155 `_calc_pareto_front` (without the final sorting of the rows): `draws` are the rows drawn in each iteration. -/
noncomputable def wfgFront {m : ℕ} (F : List ℝ → Fin m → ℝ) (opt : List ℝ → List ℝ) (k : ℕ)
    (closest : List (Fin m → ℝ) → List ℕ) (draws : List (List (List ℝ))) : List (Fin m → ℝ) :=
  draws.foldl (fun pf Ks => wfgRound closest pf (Ks.map fun K => F (wfgScale (opt K)))) ((wfgExtremes k).map fun K => F (wfgScale (opt K)))

/-- wfg.py:522-526 `WFG9._calc_pareto_front`, for one reference direction. -/
noncomputable def wfg9Front {m : ℕ} (r : Fin m → ℝ) : Fin m → ℝ := fun i => genericSphere r i * (2 * ((i : ℕ) + 1))

/-- wfg.py:50-61: the parameters used, where zero counts as not given. -/
def wfgParams (nVar nObj : ℤ) (k l : Option ℤ) : ℤ × ℤ :=
  let kk := if k.getD 0 ≠ 0 then k.getD 0 else if nObj = 2 then 4 else 2 * (nObj - 1)
  (kk, if l.getD 0 ≠ 0 then l.getD 0 else nVar - kk)

/-- wfg.py:65-83 `validate`; `even` for WFG2 and WFG3 (wfg.py:216-225, 284-293, 678-688). -/
def wfgValidate (even : Bool) (l k nObj : ℤ) : Except String Unit :=
  if nObj < 2 then .error "WFG problems must have two or more objectives."
  else if k.fmod (nObj - 1) ≠ 0 then .error "Position parameter (k) must be divisible by number of objectives minus one."
  else if k < 4 then .error "Position parameter (k) must be greater or equal than 4."
  else if k + l < nObj then .error "Sum of distance and position parameters must be greater than num. of objs. (k + l >= M)."
  else if even ∧ l.fmod 2 ≠ 0 then .error "In WFG2/WFG3 the distance-related parameter (l) must be divisible by 2."
  else .ok ()

/-- wfg.py:21-63 `WFG.__init__`. -/
def wfgInit (even : Bool) (nVar nObj : ℤ) (k l : Option ℤ) : Except String (ℤ × ℤ) :=
  let p := wfgParams nVar nObj k l
  (wfgValidate even p.2 p.1 nObj).map fun _ => p

end Model
