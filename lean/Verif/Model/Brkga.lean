import Verif.Model.SingleObjective
import Verif.Model.MaskCrossover

/-!
# Model of the biased random-key genetic algorithm

`pymoo/algorithms/soo/nonconvex/brkga.py`. An individual of the population carries the attribute `type` set by the survival: `true` is `"elite"`,
`false` is `"non_elite"`. Individuals are distinct objects (type `ι`).
-/

namespace Model

variable {ι α β : Type*} {m : ℕ}

/-- The argument `eliminate_duplicates` of `EliteSurvival` (`brkga.py:26-29`): anything that is neither `True` nor a `DuplicateElimination`; `True`;
an object with its masks. -/
inductive BrDup (ι : Type*) where
  | off
  | byF
  | custom (d : DupMasks ι)

/-- `brkga.py:33-47`: the duplicate elimination of the survival. `nearF` is the test of `DefaultDuplicateElimination` on the rows of `F`. With an object, the
candidates are the individuals whose `F` repeats; those that are duplicates (in the sense of the object) of a non-candidate are removed. -/
def brDedup [DecidableEq ι] (nearF : ι → ι → Bool) (dup : BrDup ι) (pop : List ι) : List ι :=
  match dup with
  | .off => pop
  | .byF => dedup (defaultMasks nearF) true pop []
  | .custom d =>
    let r := dedupIndices (defaultMasks nearF) true pop []
    let noCand := r.2.1.filterMap (pop[·]?)
    let cand := r.2.2.filterMap (pop[·]?)
    let elim := (dedupIndices d false cand [noCand]).2.2.filterMap (r.2.2[·]?)
    (pop.zipIdx.filter fun p => !decide (p.2 ∈ elim)).map Prod.fst

/-- `brkga.py:50-52,58-61`: one objective. The population is sorted by `FitnessSurvival`; the first `n_elites` get the type `elite`. -/
def brMarkSingle [LinearOrder α] [LinearOrder β] (at' : Attrs ι α β 1) (nElites : ℕ) (pop : List ι) : List (ι × Bool) :=
  (fitnessSurvival at' (some pop.length) pop).zipIdx.map fun p => (p.1, decide (p.2 < nElites))

/-- `brkga.py:54-61`: more objectives. The non-dominated ones (of the matrix `F` alone) get the type `elite`; the order is kept. -/
def brMarkMulti [Sub α] (pr : ∀ n, (Fin n → Fin m → α) → Fin n → ℕ) (at' : Attrs ι α β m) (pop : List ι) : Option (List (ι × Bool)) :=
  (ndsFirst (pr pop.length) none none 0 (fun i => at'.F (pop.get i))).map fun I =>
    (List.finRange pop.length).map fun i => (pop.get i, decide (i ∈ I))

/-- `brkga.py:31-61` `EliteSurvival._do`, one objective. -/
def brSurvival [DecidableEq ι] [LinearOrder α] [LinearOrder β] (nearF : ι → ι → Bool) (dup : BrDup ι) (at' : Attrs ι α β 1) (nElites : ℕ) (pop : List ι) :
    List (ι × Bool) := brMarkSingle at' nElites (brDedup nearF dup pop)

/-- `brkga.py:153-156`: `pop[np.where(pop.get("type") == "elite")[0]]`. -/
def brElites (pop : List (ι × Bool)) : List ι := (pop.filter fun p => p.2).map Prod.fst

/-- `np.where(_type == "non_elite")` of `brkga.py:69`, the individuals. -/
def brOthers (pop : List (ι × Bool)) : List ι := (pop.filter fun p => !p.2).map Prod.fst

/-- `brkga.py:149-159` `BRKGA._advance`. -/
def brAdvance [DecidableEq ι] [LinearOrder α] [LinearOrder β] (nearF : ι → ι → Bool) (dup : BrDup ι) (at' : Attrs ι α β 1) (nElites : ℕ)
    (pop : List (ι × Bool)) (infills : List ι) : List (ι × Bool) := brSurvival nearF dup at' nElites (brElites pop ++ infills)

/-- A run: the initial sample goes through the survival (`genetic.py:83-91`, `advance_after_initial_infill=True`), then the generations. -/
def brRun [DecidableEq ι] [LinearOrder α] [LinearOrder β] (nearF : ι → ι → Bool) (dup : BrDup ι) (at' : Attrs ι α β 1) (nElites : ℕ)
    (init : List ι) (offs : List (List ι)) : List (ι × Bool) :=
  offs.foldl (brAdvance nearF dup at' nElites) (brSurvival nearF dup at' nElites init)

/-- The same run for more than one objective (no duplicate elimination); `none` = exception. -/
def brRunMulti [Sub α] (pr : ∀ n, (Fin n → Fin m → α) → Fin n → ℕ) (at' : Attrs ι α β m) (init : List ι) (offs : List (List ι)) :
    Option (List (ι × Bool)) :=
  (brMarkMulti pr at' init).bind fun s => offs.foldlM (fun s o => brMarkMulti pr at' (brElites s ++ o)) s

/-- `brkga.py:65-79` `EliteBiasedSelection._do`: `draws` are the positions drawn by the two calls of `choice`, for every mating. `none`: `choice` of an empty array raises
`ValueError` (also when no row is requested), or a draw that `choice` cannot make. -/
def brSelect (pop : List (ι × Bool)) (draws : List (ℕ × ℕ)) : Option (List (ℕ × ℕ)) :=
  let elites := (List.range pop.length).filter fun i => (pop[i]?.map Prod.snd) = some true
  let nonElites := (List.range pop.length).filter fun i => (pop[i]?.map Prod.snd) = some false
  let nonElites := if nonElites.length = 0 then elites else nonElites
  if elites.length = 0 then none
  else draws.mapM fun d => (elites[d.1]?).bind fun e => (nonElites[d.2]?).map fun n => (e, n)

/-- `brkga.py:131-147` `_infill`: offspring of the mating, then `n_mutants` random ones (`Population.merge`). -/
def brInfill (off mutants : List ι) : List ι := off ++ mutants

end Model
