import Verif.Model.Optimum
import Verif.Model.Distances
import Verif.Model.Hypervolume

/-!
# Model: the R-metric (pymoo/indicators/rmetric.py)

Over the reals; `m + 1` objectives, `q` reference points, a point is a function `Fin (m + 1) → ℝ`, an array of points a list.
`none` at the outermost level: the code raises.
-/

namespace Model

variable {m q : ℕ}

open Classical in
/-- rmetric.py:37-51 `check_dominance(a, b, n_obj)`. -/
noncomputable def rmCheck (a b : Fin (m + 1) → ℝ) : ℤ :=
  let flag1 := ∃ i, a i < b i
  let flag2 := ∃ i, ¬ a i < b i ∧ b i < a i
  if flag1 ∧ ¬ flag2 then 1 else if ¬ flag1 ∧ flag2 then -1 else 0

open Classical in
/-- rmetric.py:35-68 `_filter`. -/
noncomputable def rmFilter (others : Option (List (Fin (m + 1) → ℝ))) (F : List (Fin (m + 1) → ℝ)) : List (Fin (m + 1) → ℝ) :=
  match others with
  | none => F
  | some o => F.filter fun x => decide (¬ ∃ y ∈ o, rmCheck x y = -1)

/-- rmetric.py:27-28: the points `w_points`. A given `w` with two or more entries raises: for an array its truth value is ambiguous,
and twice a list or tuple is a list of twice the length. -/
noncomputable def rmPoints (refs : Fin q → Fin (m + 1) → ℝ) (w : Option (Fin (m + 1) → ℝ)) : Option (Fin q → Fin (m + 1) → ℝ) :=
  match w with
  | none => some fun i k => refs i k + 2
  | some w => if m = 0 then some fun i k => refs i k + 2 * (if w 0 = 0 then 1 else w k) else none

/-- rmetric.py:78, 88: the ratios. -/
noncomputable def rmRatio (r w x : Fin (m + 1) → ℝ) (i : Fin (m + 1)) : ℝ := (x i - r i) / (w i - r i)

/-- rmetric.py:79: the largest ratio. -/
noncomputable def rmAgg (r w x : Fin (m + 1) → ℝ) : ℝ := Finset.univ.sup' Finset.univ_nonempty (rmRatio r w x)

/-- rmetric.py:70-83 `_preprocess`: the representative point; raises for an empty array. -/
noncomputable def rmRep (r w : Fin (m + 1) → ℝ) (data : List (Fin (m + 1) → ℝ)) : Option (Fin (m + 1) → ℝ) := npArgmin (rmAgg r w) data

/-- rmetric.py:88-96: the shift of the representative point. -/
noncomputable def rmShift (r w zp : Fin (m + 1) → ℝ) : Fin (m + 1) → ℝ :=
  let k := (npArgmin (fun i => OrderDual.toDual (rmRatio r w zp i)) (List.finRange (m + 1))).getD 0
  fun i => r i + rmRatio r w zp k * (w i - r i) - zp i

open Classical in
/-- rmetric.py:100-105 `_trim`. -/
noncomputable def rmTrim (range : ℝ) (c : Fin (m + 1) → ℝ) (pop : List (Fin (m + 1) → ℝ)) : List (Fin (m + 1) → ℝ) :=
  pop.filter fun x => decide (∀ i, |x i - c i| < range / 2)

/-- rmetric.py:139: the number of the closest reference point. -/
noncomputable def rmLabel (refs : Fin q → Fin (m + 1) → ℝ) (x : Fin (m + 1) → ℝ) : ℕ :=
  firstMin (fun j => if h : j < q then indEuclid (fun _ => 1) x (refs ⟨j, h⟩) else 0) q

/-- rmetric.py:142-150: the translated solutions of the cluster `i`. -/
noncomputable def rmCluster (refs wp : Fin q → Fin (m + 1) → ℝ) (delta : ℝ) (pop : List (Fin (m + 1) → ℝ)) (i : Fin q) :
    List (Fin (m + 1) → ℝ) :=
  let cluster := pop.filter fun x => decide (rmLabel refs x = i)
  match rmRep (refs i) (wp i) cluster with
  | none => []
  | some zp => (rmTrim delta zp cluster).map fun x k => x k + rmShift (refs i) (wp i) zp k

/-- rmetric.py:153-155: the part of the Pareto front for the reference point `i`. -/
noncomputable def rmFront (refs wp : Fin q → Fin (m + 1) → ℝ) (pf : List (Fin (m + 1) → ℝ)) (i : Fin q) : List (Fin (m + 1) → ℝ) :=
  match rmRep (refs i) (wp i) pf with
  | none => []
  | some t => rmTrim 0.2 t pf

/-- rmetric.py:141-157 `translated`. -/
noncomputable def rmTranslated (refs wp : Fin q → Fin (m + 1) → ℝ) (delta : ℝ) (pop : List (Fin (m + 1) → ℝ)) : List (Fin (m + 1) → ℝ) :=
  (List.finRange q).flatMap (rmCluster refs wp delta pop)

/-- rmetric.py:14-33 and 112-179 `RMetric(problem, ref_points, w, delta, pf).do(F, others, calc_hv)`: R-IGD and R-HV. `pf = none`: no Pareto front is
known. The front must not be empty (`np.argmin`). -/
noncomputable def rmDo (moo : Moocore (m + 1)) (refs : Fin q → Fin (m + 1) → ℝ) (w : Option (Fin (m + 1) → ℝ)) (delta : ℝ)
    (pf : Option (List (Fin (m + 1) → ℝ))) (F : List (Fin (m + 1) → ℝ)) (others : Option (List (Fin (m + 1) → ℝ))) (calcHv : Bool) :
    Option (Option ℝ × Option ℝ) :=
  (rmPoints refs w).bind fun wp =>
    match pf with
    | none => none
    | some [] => none
    | some pf =>
      let translated := rmTranslated refs wp delta (rmFilter others F)
      let front := (List.finRange q).flatMap (rmFront refs wp pf)
      if translated = [] then some (none, none)
      else (distInit { pf := front }).bind fun I => (distDo moo .igd I translated).map fun rigd =>
        (some rigd, if calcHv ∧ m + 1 ≤ 3 then
          (hvInit { refPoint := ptMax ((List.finRange q).map wp) }).map fun H => hvDo moo H translated else none)

end Model
