import Verif.Model.NonDominatedSorting
import Verif.Model.Duplicate

/-!
# Model of `pymoo/util/optimum.py` and `pymoo/util/archive.py`

Individuals have a type `ι`; their objective vector, feasibility and constraint violation are functions. Objective
values and violations are linearly ordered (no NaN). moocore's `pareto_rank` is the argument `paretoRank`.
-/

namespace Model

variable {ι α β : Type*} {m : ℕ}

/-- `np.argmin`: the first element with the smallest value; `none` = `ValueError` on an empty array. -/
def npArgmin [LT β] [DecidableLT β] (f : ι → β) : List ι → Option ι
  | [] => none
  | x :: xs => some (xs.foldl (fun best y => if f y < f best then y else best) x)

/-- What is read from an individual: `F`, `feas`, `CV`. -/
structure Attrs (ι α β : Type*) (m : ℕ) where
  F : ι → Fin m → α
  feas : ι → Bool
  cv : ι → β

/-- `NonDominatedSorting().do(F, only_non_dominated_front=True)` on the matrix of a population, and indexing the
population with the result (`optimum.py:24-25`, `archive.py:128-129,134`). -/
def ndsPop [Sub α] (paretoRank : ∀ n, (Fin n → Fin m → α) → Fin n → ℕ) (F : ι → Fin m → α) (pop : List ι) :
    Option (List ι) :=
  (ndsFirst (paretoRank pop.length) none none 0 (fun i => F (pop.get i))).map fun I => I.map pop.get

/-- `optimum.py:10-43` `filter_optimum(pop, least_infeasible)`. The outer option is `none` if an exception is
raised, the inner one is the returned `None`; the input `None` is `none`. -/
def filterOptimum [Sub α] [LT α] [DecidableLT α] [LT β] [DecidableLT β]
    (paretoRank : ∀ n, (Fin n → Fin m → α) → Fin n → ℕ) (at' : Attrs ι α β m) (leastInfeasible : Bool)
    (pop : Option (List ι)) : Option (Option (List ι)) :=
  match pop with
  | none => some none
  | some pop =>
    if pop.length = 0 then some none
    else
      let ret := pop.filter at'.feas
      if ret.length > 0 then
        if m > 1 then (ndsPop paretoRank at'.F ret).map some
        else if h : 0 < m then (npArgmin (fun x => at'.F x ⟨0, h⟩) ret).map fun x => some [x]
        else none
      else if leastInfeasible then (npArgmin at'.cv pop).map fun x => some [x]
      else some none

/-! ## Archives -/

/-- `archive.py:107-108, 111-112, 131-132`: `np.where(v == v[v.argmin()])` used as an index; `none` =
`ValueError` (argmin of an empty array). -/
def minimal [LT β] [DecidableLT β] [DecidableEq β] (v : ι → β) (sols : List ι) : Option (List ι) :=
  (npArgmin v sols).map fun x => sols.filter fun y => decide (v y = v x)

/-- `archive.py:101-114` `SingleObjectiveArchive._find_opt`. -/
def findOptSingle [LT α] [DecidableLT α] [DecidableEq α] [LT β] [DecidableLT β] [DecidableEq β]
    (at' : Attrs ι α β 1) (sols : List ι) : Option (List ι) :=
  if sols.any at'.feas then minimal (fun x => at'.F x 0) (sols.filter at'.feas) else minimal at'.cv sols

/-- `archive.py:121-134` `MultiObjectiveArchive._find_opt`. -/
def findOptMulti [Sub α] [LT β] [DecidableLT β] [DecidableEq β]
    (paretoRank : ∀ n, (Fin n → Fin m → α) → Fin n → ℕ) (at' : Attrs ι α β m) (sols : List ι) : Option (List ι) :=
  if sols.any at'.feas then ndsPop paretoRank at'.F (sols.filter at'.feas) else minimal at'.cv sols

/-- The attributes of an archive: `max_size` and `truncate_size` (`none` = both `None`), and the duplicate test
(`D <= 1e-32` by default; `none` = no duplicate elimination). -/
structure ArchiveCfg (ι : Type*) where
  limits : Option (ℕ × ℕ)
  near : Option (ι → ι → Bool)

/-- `archive.py:40-55` `Archive.__new__`: `none` = `TypeError` of `min(None, truncate_size)`. -/
def mkArchive (maxSize truncateSize : Option ℕ) (near : Option (ι → ι → Bool)) : Option (ArchiveCfg ι) :=
  match maxSize, truncateSize with
  | none, none => some ⟨none, near⟩
  | some k, none => some ⟨some (k, k), near⟩
  | some k, some t => some ⟨some (k, min k t), near⟩
  | none, some _ => none

/-- `archive.py:71-86` `Archive.add(sols)`: the members of the archive after the call; `none` = an exception.
`trunc` is the truncation operator (random for the default); the merge is `population.py:158-164`. -/
def archiveAdd (cfg : ArchiveCfg ι) (findOpt : List ι → Option (List ι)) (trunc : List ι → ℕ → List ι)
    (self sols : List ι) : Option (List ι) :=
  let sols := if self.length > 0 then (if sols.length = 0 then self else self ++ sols) else sols
  (findOpt sols).map fun opt =>
    let opt := match cfg.near with
      | some near => dedup (defaultMasks near) true opt []
      | none => opt
    match cfg.limits with
    | some (k, t) => if k ≠ 0 ∧ opt.length > k then trunc opt t else opt
    | none => opt

/-- A sequence of `add` calls, with the truncation operator used by each call. -/
def archiveRun (cfg : ArchiveCfg ι) (findOpt : List ι → Option (List ι)) :
    List ι → List (List ι × (List ι → ℕ → List ι)) → Option (List ι)
  | self, [] => some self
  | self, (sols, trunc) :: rest =>
    (archiveAdd cfg findOpt trunc self sols).bind fun self => archiveRun cfg findOpt self rest

end Model
