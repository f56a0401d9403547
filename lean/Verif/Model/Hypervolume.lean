import Verif.Model.Indicators

/-!
# Model of `pymoo/indicators/hv/__init__.py` and `pymoo/indicators/hv/approximate.py`

The volume computations are compiled functions of the package `moocore` (parameters).
-/

namespace Model

variable {m : ℕ}

/-- The arguments of `Hypervolume(...)` (`hv/__init__.py:14-23`). -/
structure HvArgs (m : ℕ) where
  refPoint : Option (Fin m → ℝ) := none
  pf : Option (List (Fin m → ℝ)) := none
  normRefPoint : Bool := true
  ideal : Option (Fin m → ℝ) := none
  nadir : Option (Fin m → ℝ) := none
  zeroToOne : Bool := false

/-- The object: normalisation and reference point. -/
structure HvInd (m : ℕ) where
  norm : Option ((Fin m → ℝ) × (Fin m → ℝ))
  ref : Fin m → ℝ

open Classical in
/-- `hv/__init__.py:35-55` with `derive_ideal_and_nadir_from_pf` and `PreNormalization.__init__`. `none` = an exception: an empty
front, no bounds although `zero_to_one` is set, bounds in the wrong order, or no reference point. -/
noncomputable def hvInit (a : HvArgs m) : Option (HvInd m) :=
  let lo : Option (Fin m → ℝ) := a.pf.bind ptMin
  let hi : Option (Fin m → ℝ) := a.pf.bind ptMax
  if a.pf = some [] then none else
  let ideal := a.ideal.orElse fun _ => lo
  let nadir := a.nadir.orElse fun _ => hi
  let ref := a.refPoint.orElse fun _ => hi
  if a.zeroToOne then
    ideal.bind fun l => nadir.bind fun u =>
      if ∀ k, l k ≤ u k then
        ref.map fun r => ⟨some (l, u), if a.normRefPoint then indForward (some (l, u)) r else r⟩
      else none
  else ref.map fun r => ⟨none, r⟩

/-- `Indicator.do(F)` with `_do` of `hv/__init__.py:57-60`. -/
noncomputable def hvDo (moo : Moocore m) (I : HvInd m) (F : List (Fin m → ℝ)) : ℝ :=
  if F.isEmpty then 0 else moo.hv (F.map (indForward I.norm)) I.ref

/-! ### ApproximateHypervolume -/

/-- The state of `ApproximateHypervolume` (`hv/approximate.py:31-37`) with the functions of `moocore`. -/
structure ApproxHv (m : ℕ) where
  F : List (Fin m → ℝ)
  hv : ℝ
  hvc : List ℝ

/-- `hv/approximate.py:31-37`. -/
noncomputable def approxInit : ApproxHv m := ⟨[], 0, []⟩

/-- `hv/approximate.py:65-78` `_update`. -/
noncomputable def approxUpdate (approx : List (Fin m → ℝ) → ℝ) (contr : List (Fin m → ℝ) → List ℝ)
    (F : List (Fin m → ℝ)) : ApproxHv m :=
  if F.isEmpty then ⟨F, 0, []⟩ else ⟨F, approx F, contr F⟩

/-- The two operations of the object. -/
inductive ApproxOp (m : ℕ)
  | add (F : List (Fin m → ℝ))
  | delete (k : ℤ)

/-- `hv/approximate.py:39-63`: `np.vstack` / `np.delete`; a negative position counts from the end, an invalid one raises. -/
noncomputable def approxStep (approx : List (Fin m → ℝ) → ℝ) (contr : List (Fin m → ℝ) → List ℝ) (s : ApproxHv m) :
    ApproxOp m → Option (ApproxHv m)
  | .add F => some (approxUpdate approx contr (s.F ++ F))
  | .delete k =>
    if 0 ≤ k ∧ k < s.F.length then some (approxUpdate approx contr (s.F.eraseIdx k.toNat))
    else if k < 0 ∧ -(s.F.length : ℤ) ≤ k then some (approxUpdate approx contr (s.F.eraseIdx (k + s.F.length).toNat))
    else none

end Model
