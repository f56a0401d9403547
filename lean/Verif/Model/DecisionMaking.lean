import Verif.Model.Indicators

/-!
# Model of `pymoo/core/decision_making.py` and `pymoo/mcdm/{pseudo_weights,high_tradeoff}.py`

Floating point numbers are real numbers, extended by `inf` and `nan` where the code can produce them. The kd-tree of scipy is a
parameter.
-/

namespace Model

variable {m : ℕ}

/-- A floating point result: a number, `+inf` or `nan`. -/
inductive Flt
  | nan
  | inf
  | fin (x : ℝ)

/-- Not larger, for two results that are not `nan`. -/
def Flt.Le : Flt → Flt → Prop
  | .fin x, .fin y => x ≤ y
  | _, .inf => True
  | _, _ => False

open Classical in
/-- `a < b` of numpy: false if one is `nan`. -/
noncomputable def Flt.lt : Flt → Flt → Bool
  | .fin x, .fin y => decide (x < y)
  | .fin _, .inf => true
  | _, _ => false

/-- `np.isnan`. -/
def Flt.isNan : Flt → Bool
  | .nan => true
  | _ => false

/-- `np.isnan or np.isinf` negated (`decision_making.py:81-85`). -/
def Flt.isFinite : Flt → Bool
  | .fin _ => true
  | _ => false

/-- The number (`0` for `inf` and `nan`). -/
noncomputable def Flt.val : Flt → ℝ
  | .fin x => x
  | _ => 0

/-- `np.argmin`: the first `nan` if there is one, else the first smallest entry. The accumulator is (position, value) of the best
entry so far. -/
noncomputable def fltArgmin (l : List Flt) : ℕ :=
  match l.findIdx? Flt.isNan with
  | some i => i
  | none => ((l.zipIdx.foldl (fun b e => if Flt.lt e.1 b.1 then e else b) (l.headD .nan, 0))).2

/-! ### pseudo weights -/

open Classical in
/-- `pseudo_weights.py:21-25`: one row of pseudo weights before and after the normalisation. -/
noncomputable def pwRaw (ideal nadir f : Fin m → ℝ) : Fin m → ℝ := fun k => (nadir k - f k) / (nadir k - ideal k)

noncomputable def pwRow (ideal nadir f : Fin m → ℝ) : Fin m → ℝ :=
  fun k => pwRaw ideal nadir f k / ∑ j, pwRaw ideal nadir f j

open Classical in
/-- `pseudo_weights.py:21-28`: the distance of one solution. A zero range in an objective makes an entry of the row `nan` or
`±inf`, hence the row sum `nan` or `±inf` and the distance `nan`; a row sum of zero makes every entry `nan` (`0/0`) or
`±inf`. -/
noncomputable def pwCost (w ideal nadir f : Fin m → ℝ) : Flt :=
  if ∃ k, nadir k - ideal k = 0 then .nan
  else if ∑ j, pwRaw ideal nadir f j = 0 then (if ∃ k, pwRaw ideal nadir f k = 0 then .nan else .inf)
  else .fin (∑ k, |pwRow ideal nadir f k - w k|)

/-- `pseudo_weights.py:13-33` `PseudoWeights(weights, ideal, nadir).do(F)` without `zero_to_one`; `none` is the default result for
an empty set. -/
noncomputable def pseudoWeights (w : Fin m → ℝ) (ideal nadir : Option (Fin m → ℝ)) (F : List (Fin m → ℝ)) : Option ℕ :=
  if F.isEmpty then none
  else (ptMin F).bind fun lo => (ptMax F).map fun hi =>
    fltArgmin (F.map (pwCost w (ideal.getD lo) (nadir.getD hi)))

/-! ### neighbours in two dimensions -/

/-- `np.argsort(rank)` of a permutation (`decision_making.py:47`): the position of each index. -/
def posInRank (rank : List ℕ) (i : ℕ) : ℕ := rank.idxOf i

/-- `decision_making.py:54-61` `NeighborFinder.find(i)` with two objectives: `rank` is `np.argsort(N[:, 0])`. -/
def find2d (rank : List ℕ) (i : ℕ) : List ℕ :=
  let pos := posInRank rank i
  (if 0 < pos then (rank[pos - 1]?).toList else []) ++ (if pos < rank.length - 1 then (rank[pos + 1]?).toList else [])

/-! ### high trade-off points -/

/-- `high_tradeoff.py:31-36`: what is given up and what is gained by moving from `f` to `g`. -/
noncomputable def sacrifice (f g : Fin m → ℝ) : ℝ := ∑ k, max 0 (g k - f k)
noncomputable def gain (f g : Fin m → ℝ) : ℝ := ∑ k, max 0 (-(g k - f k))

open Classical in
/-- `high_tradeoff.py:39`. -/
noncomputable def tradeoff (f g : Fin m → ℝ) : Flt :=
  if gain f g = 0 then (if sacrifice f g = 0 then .nan else .inf) else .fin (sacrifice f g / gain f g)

/-- `np.nanmin` (`high_tradeoff.py:42`): the smallest entry that is not `nan`, `nan` if there is none. -/
noncomputable def nanmin (l : List Flt) : Flt :=
  match l.filter (fun x => !x.isNan) with
  | [] => .nan
  | x :: xs => xs.foldl (fun b e => if Flt.lt e b then e else b) x

/-- `high_tradeoff.py:19-42`: the trade-off value of every solution; `nb i` are the neighbours found for solution `i`. -/
noncomputable def tradeoffs (nb : ℕ → List ℕ) (F : List (Fin m → ℝ)) : List Flt :=
  F.zipIdx.map fun e => nanmin ((nb e.2).filterMap fun j => (F[j]?).map (tradeoff e.1))

/-- `mu.std()`: the population standard deviation. -/
noncomputable def npStd (l : List ℝ) : ℝ :=
  Real.sqrt ((l.map fun x => (x - l.sum / l.length) ^ 2).sum / l.length)

open Classical in
/-- `decision_making.py:79-99` `find_outliers_upper_tail(mu)`: `none` = it raises (no finite value), `some none` = no outlier.
The code divides the deviations by the standard deviation; if that is zero all of them are `nan` and nothing is selected. -/
noncomputable def outliers (mu : List Flt) : Option (Option (List ℕ)) :=
  let I := (List.range mu.length).filter fun i => ((mu[i]?).map Flt.isFinite).getD false
  let v := I.map fun i => ((mu[i]?).map Flt.val).getD 0
  if I.isEmpty then none
  else
    let mean := v.sum / v.length
    let sigma := npStd v
    if sigma = 0 then some none
    else
      let dev := v.map fun x => (x - mean) / sigma
      let S := ((I.zip dev).filter fun e => decide (2 ≤ e.2)).map Prod.fst
      if S.isEmpty ∧ (∃ d ∈ dev, 1 < d) then some (some [I.getD (fltArgmin (v.map fun x => Flt.fin (-x))) 0])
      else if S.isEmpty then some none
      else some (some S)

end Model
