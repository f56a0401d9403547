import Verif.Spec.Indicators

/-!
# Model of `pymoo/core/indicator.py` and `pymoo/indicators/{distance_indicator,gd,gd_plus,igd,igd_plus,epsilon,spacing}.py`

Floating point numbers are real numbers, a point of the objective space is a function `Fin m → ℝ`, an array of points is a list.
`none` = the code raises. The compiled functions of the package `moocore` enter as a parameter.
-/

namespace Model

variable {m : ℕ}

/-- `distance_indicator.py:12-14` `euclidean_distance`, one pair of rows. -/
noncomputable def indEuclid (norm a b : Fin m → ℝ) : ℝ := Real.sqrt (∑ k, ((a k - b k) / norm k) ^ 2)

/-- `distance_indicator.py:17-22` `modified_distance(z, a)`, one pair of rows. -/
noncomputable def indModified (norm z a : Fin m → ℝ) : ℝ :=
  Real.sqrt (∑ k, ((if a k - z k < 0 then 0 else a k - z k) / norm k) ^ 2)

/-- `np.repeat(A, n, axis=0)` (`misc.py:371`). -/
def npRepeat {P : Type*} (A : List P) (n : ℕ) : List P := A.flatMap fun a => List.replicate n a

/-- `np.tile(B, (n, 1))` (`misc.py:372`). -/
def npTile {P : Type*} (B : List P) (n : ℕ) : List P := (List.replicate n B).flatten

/-- `np.reshape(D, (r, c))` (`misc.py:375`). -/
def npReshape {R : Type*} (D : List R) (r c : ℕ) : List (List R) := (List.range r).map fun i => (D.drop (i * c)).take c

/-- `misc.py:347-387` `vectorized_cdist(A, B, func)` for two matrices. -/
def vcdist {P R : Type*} (f : P → P → R) (A B : List P) : List (List R) :=
  npReshape (List.zipWith f (npRepeat A B.length) (npTile B A.length)) A.length B.length

/-- `np.min(D, axis)` of a matrix with `nCols` columns (`distance_indicator.py:89`); raises for an empty reduction. -/
noncomputable def minAxis (axis1 : Bool) (nCols : ℕ) (D : List (List ℝ)) : Option (List ℝ) :=
  if axis1 then D.mapM fun r => r.min?
  else (List.range nCols).mapM fun j => (D.filterMap fun r => r[j]?).min?

/-- `np.mean`; for an empty array the code returns `nan`, here `none`. -/
noncomputable def npMean (l : List ℝ) : Option ℝ := if l.isEmpty then none else some (l.sum / l.length)

/-- `normalization.py:71-87` `ZeroToOneNormalization.forward` for float arrays with both bounds given, one point: a component
with equal bounds is only shifted (line 51). -/
noncomputable def indForward (norm : Option ((Fin m → ℝ) × (Fin m → ℝ))) (x : Fin m → ℝ) : Fin m → ℝ :=
  match norm with
  | none => x
  | some b => fun k => if b.1 k = b.2 k then x k - b.1 k else (x k - b.1 k) / (b.2 k - b.1 k)

/-- `np.min(pf, axis=0)`. -/
noncomputable def ptMin : List (Fin m → ℝ) → Option (Fin m → ℝ)
  | [] => none
  | p :: ps => some fun k => ps.foldl (fun a q => min a (q k)) (p k)

/-- `np.max(pf, axis=0)`. -/
noncomputable def ptMax : List (Fin m → ℝ) → Option (Fin m → ℝ)
  | [] => none
  | p :: ps => some fun k => ps.foldl (fun a q => max a (q k)) (p k)

/-- Which of the four distance indicators: `gd.py`, `igd.py`, `gd_plus.py`, `igd_plus.py`. -/
inductive DistKind | gd | igd | gdPlus | igdPlus
  deriving DecidableEq, Repr

/-- The arguments of the constructor (`distance_indicator.py:44-54`). -/
structure DistArgs (m : ℕ) where
  pf : List (Fin m → ℝ)
  zeroToOne : Bool := false
  ideal : Option (Fin m → ℝ) := none
  nadir : Option (Fin m → ℝ) := none
  normByDist : Bool := false

/-- The object (`distance_indicator.py:67-75`, `normalization.py:202-217`). -/
structure DistInd (m : ℕ) where
  norm : Option ((Fin m → ℝ) × (Fin m → ℝ))
  ideal : Fin m → ℝ
  nadir : Fin m → ℝ
  normByDist : Bool
  pf : List (Fin m → ℝ)

open Classical in
/-- `distance_indicator.py:67-75` with `derive_ideal_and_nadir_from_pf` (25-38) and `PreNormalization.__init__`
(`normalization.py:202-217`). `none`: an empty front, or the assertion `xl <= xu` of the normalisation fails. -/
noncomputable def distInit (a : DistArgs m) : Option (DistInd m) :=
  (ptMin a.pf).bind fun lo => (ptMax a.pf).bind fun hi =>
    let ideal := a.ideal.getD lo
    let nadir := a.nadir.getD hi
    if a.zeroToOne then
      if ∀ k, ideal k ≤ nadir k then
        some ⟨some (ideal, nadir), fun _ => 0, fun _ => 1, a.normByDist, a.pf.map (indForward (some (ideal, nadir)))⟩
      else none
    else some ⟨none, ideal, nadir, a.normByDist, a.pf⟩

/-- `distance_indicator.py:77-89` `_do(F)` of the base class. -/
noncomputable def distBase (dist : (Fin m → ℝ) → (Fin m → ℝ) → (Fin m → ℝ) → ℝ) (axis1 : Bool) (I : DistInd m)
    (F : List (Fin m → ℝ)) : Option ℝ :=
  let norm : Fin m → ℝ := if I.normByDist then fun k => I.nadir k - I.ideal k else fun _ => 1
  (minAxis axis1 F.length (vcdist (dist norm) I.pf F)).bind npMean

/-- The functions of the compiled package `moocore` used by the indicators: `igd(F, ref)`, `igd_plus(F, ref)`,
`epsilon_additive(F, ref)`, `hypervolume(F, ref_point)`. -/
structure Moocore (m : ℕ) where
  igd : List (Fin m → ℝ) → List (Fin m → ℝ) → ℝ
  igdPlus : List (Fin m → ℝ) → List (Fin m → ℝ) → ℝ
  epsAdd : List (Fin m → ℝ) → List (Fin m → ℝ) → ℝ
  hv : List (Fin m → ℝ) → (Fin m → ℝ) → ℝ

/-- `_do` of the four indicators (`gd.py:22`, `igd.py:14-17`, `gd_plus.py:22`, `igd_plus.py:26-29`). -/
noncomputable def distDo' (moo : Moocore m) (kind : DistKind) (I : DistInd m) (F : List (Fin m → ℝ)) : Option ℝ :=
  match kind with
  | .gd => distBase indEuclid false I F
  | .gdPlus => distBase indModified false I F
  | .igd => if I.normByDist then distBase indEuclid true I F else some (moo.igd F I.pf)
  | .igdPlus => if I.normByDist then distBase indModified true I F else some (moo.igdPlus F I.pf)

/-- `core/indicator.py:18-31` `Indicator.do(F)` of a matrix. -/
noncomputable def distDo (moo : Moocore m) (kind : DistKind) (I : DistInd m) (F : List (Fin m → ℝ)) : Option ℝ :=
  if F.isEmpty then some 0 else distDo' moo kind I (F.map (indForward I.norm))

/-- `epsilon.py:16-46` `Epsilon(pf, zero_to_one).do(F)`; the constructor takes neither ideal nor nadir. -/
noncomputable def epsDo (moo : Moocore m) (pf : List (Fin m → ℝ)) (zeroToOne : Bool) (F : List (Fin m → ℝ)) : Option ℝ :=
  (distInit { pf := pf, zeroToOne := zeroToOne }).map fun I =>
    if F.isEmpty then 0 else moo.epsAdd (F.map (indForward I.norm)) I.pf

/-! ### Spacing -/

/-- `spacing.py:47`: the city block distances between all points, `squareform(pdist(F))`: symmetric with zero diagonal. -/
noncomputable def cityBlock (F : List (Fin m → ℝ)) : List (List ℝ) :=
  F.map fun a => F.map fun b => ∑ k, |a k - b k|

/-- `np.partition(row, 1)[1]` (`spacing.py:48`): the second smallest entry of a row; raises if there is only one. -/
noncomputable def secondSmallest (row : List ℝ) : Option ℝ := (row.insertionSort (· ≤ ·))[1]?

/-- `spacing.py:41-54` `_do(F)`. -/
noncomputable def spacingDo' (F : List (Fin m → ℝ)) : Option ℝ :=
  ((cityBlock F).mapM secondSmallest).bind fun d =>
    (npMean d).map fun dm => Real.sqrt ((d.map fun x => (x - dm) ^ 2).sum / F.length)

/-- `SpacingIndicator().do(F)` without normalisation. -/
noncomputable def spacingDo (F : List (Fin m → ℝ)) : Option ℝ := if F.isEmpty then some 0 else spacingDo' F

end Model
