import Verif.Model.Optimum
import Mathlib.Algebra.Group.Defs

/-! # Model of `pymoo/core/replacement.py` and `parameter_less` of `pymoo/util/misc.py` (one objective) -/

namespace Model

variable {ι α β : Type*}

section Replacement
variable [LT α] [DecidableLT α] [LT β] [DecidableLT β]

/-- `replacement.py:11-22` `is_better(_new, _old, eps)`; objective and violation have one type here because both are
compared with `eps`. -/
def isBetter [Sub α] (at' : Attrs ι α α 1) (new old : ι) (eps : α) : Bool :=
  if (!at'.feas old && !at'.feas new) = true ∧ eps < at'.cv old - at'.cv new then true
  else if (!at'.feas old && at'.feas new) = true then true
  else if (at'.feas old && at'.feas new) = true ∧ eps < at'.F old 0 - at'.F new 0 then true
  else false

/-- `replacement.py:60-75`: the entry of `ret` before duplicates are taken out. -/
def improves (at' : Attrs ι α β 1) (hasConstraints : Bool) (old new : ι) : Bool :=
  if hasConstraints then
    (!at'.feas old && !at'.feas new && decide (at'.cv new < at'.cv old)) ||
    (!at'.feas old && at'.feas new) ||
    (at'.feas old && at'.feas new && decide (at'.F new 0 < at'.F old 0))
  else decide (at'.F new 0 < at'.F old 0)

/-- `replacement.py:57-82` `ImprovementReplacement._do`: `near` is `D <= 0.0` of the design vectors. -/
def improvementMask [DecidableEq ι] (near : ι → ι → Bool) (at' : Attrs ι α β 1) (hasConstraints : Bool)
    (pop off : List ι) : List Bool :=
  let isDuplicate := (dedupIndices (defaultMasks near) true off [pop]).2.2
  (pop.zip off).zipIdx.map fun ((p, o), k) => improves at' hasConstraints p o && !decide (k ∈ isDuplicate)

/-- `replacement.py:25-52` `ReplacementSurvival.do(problem, pop, off)` for two populations, with the mask function of
the subclass; `none` = the assertion on the lengths. -/
def replacementDo (mask : List ι → List ι → List Bool) (pop off : List ι) : Option (List ι) :=
  if off.length = 0 then some pop
  else if pop.length ≠ off.length then none
  else some (((pop.zip off).zip (mask pop off)).map fun ((p, o), b) => if b then o else p)

/-- Repeated replacement, e.g. the generations of `algorithms/soo/nonconvex/de.py:288-305`. -/
def replacementRun (mask : List ι → List ι → List Bool) : List ι → List (List ι) → Option (List ι)
  | pop, [] => some pop
  | pop, off :: offs => (replacementDo mask pop off).bind fun pop => replacementRun mask pop offs

end Replacement

/-- `replacement.py:85-89` and `misc.py:18-43` `parameter_less(F, CV, fmax)` for one column: `fmax` is given or the
largest value (`none` = `ValueError`, maximum of an empty array). -/
def parameterLess [LinearOrder α] [Zero α] [Add α] (f cv : List α) (fmax : Option α) : Option (List α) :=
  let fmax := match fmax with
    | some m => some m
    | none => f.max?
  fmax.map fun m => (f.zip cv).map fun (v, c) => if 0 < c then m + c else v

end Model
