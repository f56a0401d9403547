import Verif.Model.Optimum
import Verif.Model.Crowding
import Mathlib.Order.OrderDual
import Mathlib.Data.Fin.VecNotation

/-!
# Model of `pymoo/algorithms/moo/mopso_cd.py`

Individuals have a type `ι`; `Attrs` gives `F`, `feas`, `CV`. Random draws are arguments. Numbers are exact.
-/

namespace Model

variable {ι α β K : Type*} {m n : ℕ}

/-- `mopso_cd.py:186-198`: the tournament loop. `k` solutions still have to be selected, `rem` is `remaining_indices`, `draw t rem` the result of
`choice(remaining_indices, size=min(3, len), replace=False)` in round `t`; `np.argmax` takes the first largest crowding. `none` = argmax of an empty
array. -/
def mopTournament {γ : Type*} [LT γ] [DecidableLT γ] (crowd : ℕ → γ) (draw : ℕ → List ℕ → List ℕ) : ℕ → ℕ → List ℕ → Option (List ℕ)
  | 0, _, _ => some []
  | k + 1, t, rem =>
    if rem = [] then some []
    else (npArgmin (fun i => OrderDual.toDual (crowd i)) (draw t rem)).bind fun b =>
      (mopTournament crowd draw k (t + 1) (rem.erase b)).map (b :: ·)

/-- `mopso_cd.py:181-200`: the size limit. `crowd nd` are the crowding distances of the list. -/
def mopLimit {γ : Type*} [LT γ] [DecidableLT γ] (size : ℕ) (crowd : List ι → ℕ → γ) (draw : ℕ → List ℕ → List ℕ) (nd : List ι) : Option (List ι) :=
  if nd.length > size then
    (mopTournament (crowd nd) draw size 0 (List.range nd.length)).map fun I => I.filterMap (nd[·]?)
  else some nd

/-- `mopso_cd.py:165-203` `_update_archive(pop)`; `none` = an exception. The constructor of the new archive neither removes duplicates nor truncates. -/
def mopUpdate [Sub α] {γ : Type*} [LT γ] [DecidableLT γ] (paretoRank : ∀ n, (Fin n → Fin m → α) → Fin n → ℕ) (F : ι → Fin m → α) (size : ℕ)
    (crowd : List ι → ℕ → γ) (draw : ℕ → List ℕ → List ℕ) (archive pop : List ι) : Option (List ι) :=
  if pop.length = 0 then some archive
  else
    let combined := if archive.length > 0 then archive ++ pop else pop
    (ndsPop paretoRank F combined).bind (mopLimit size crowd draw)

/-- `mopso_cd.py:248-274` `_update_pbest` for one particle: `none` for the sorting permutations is not needed, the crowding of two points does not use
them. `_dominates` is `np.all(f1 <= f2) and np.any(f1 < f2)`. -/
def mopPbest [Field α] [LinearOrder α] (F : ι → Fin m → α) (I : Fin m → Equiv.Perm (Fin 2)) (old new : ι) : ι :=
  let dom : ι → ι → Bool := fun a b => (List.finRange m).all (fun j => decide (F a j ≤ F b j)) && (List.finRange m).any fun j => decide (F a j < F b j)
  if dom new old then new
  else if dom old new then old
  else if crowdingCd I ![F old, F new] 1 > crowdingCd I ![F old, F new] 0 then new else old

/-- The state: the particles, the archive, the reported optimum, the personal bests. -/
structure MopState (ι : Type*) where
  pop : List ι
  archive : List ι
  opt : List ι
  pbest : List ι
  deriving DecidableEq

/-- What one generation needs besides the offspring: the tournament draws and the truncation of `Archive.add` (a random choice with a generator of its
own: `archive.py:16-19` is called without `random_state`). -/
structure MopRandom (ι : Type*) where
  draw : ℕ → List ℕ → List ℕ
  trunc : List ι → ℕ → List ι

/-- The parts that do not change: the attributes, the archive size, the duplicate test of `Archive.add` (`D <= 1e-32` on `X`), crowding distances. -/
structure MopCfg (ι α β : Type*) (m : ℕ) where
  at' : Attrs ι α β m
  size : ℕ
  near : ι → ι → Bool
  crowd : List ι → ℕ → WithTop α
  perms : Fin m → Equiv.Perm (Fin 2)

/-- `core/algorithm.py:244-245`, after `_advance` and after the optimum was set: `self.archive = self.archive.add(infills)` with `max_size=archive_size` and
the default `truncate_size=100`. -/
def mopBaseAdd [Sub α] [LT β] [DecidableLT β] [DecidableEq β] (paretoRank : ∀ n, (Fin n → Fin m → α) → Fin n → ℕ) (c : MopCfg ι α β m)
    (r : MopRandom ι) (archive infills : List ι) : Option (List ι) :=
  (mkArchive (some c.size) (some 100) (some c.near)).bind fun cfg => archiveAdd cfg (findOptMulti paretoRank c.at') r.trunc archive infills

/-- `mopso_cd.py:105-114` `_initialize_advance`, `_set_optimum` (285-290) and the archive of the base class. The archive is empty before (line 72); the
population sampled and evaluated in `_setup` (79-86) is not used any more. -/
def mopInit [Field α] [LinearOrder α] [LT β] [DecidableLT β] [DecidableEq β] (paretoRank : ∀ n, (Fin n → Fin m → α) → Fin n → ℕ)
    (c : MopCfg ι α β m) (r : MopRandom ι) (infills : List ι) : Option (MopState ι) :=
  (mopUpdate paretoRank c.at'.F c.size c.crowd r.draw [] infills).bind fun a =>
    (mopBaseAdd paretoRank c r a infills).map fun a' => ⟨infills, a', a, infills⟩

/-- `mopso_cd.py:150-163` `_advance`, then optimum and base archive. -/
def mopNext [Field α] [LinearOrder α] [LT β] [DecidableLT β] [DecidableEq β] (paretoRank : ∀ n, (Fin n → Fin m → α) → Fin n → ℕ)
    (c : MopCfg ι α β m) (s : MopState ι) (g : List ι × MopRandom ι) : Option (MopState ι) :=
  (mopUpdate paretoRank c.at'.F c.size c.crowd g.2.draw s.archive (s.pop ++ g.1)).bind fun a =>
    (mopBaseAdd paretoRank c g.2 a g.1).map fun a' => ⟨g.1, a', a, s.pbest.zipWith (mopPbest c.at'.F c.perms) g.1⟩

/-- A run: the initial population, then the offspring of each generation. -/
def mopRun [Field α] [LinearOrder α] [LT β] [DecidableLT β] [DecidableEq β] (paretoRank : ∀ n, (Fin n → Fin m → α) → Fin n → ℕ)
    (c : MopCfg ι α β m) (init : List ι × MopRandom ι) (gens : List (List ι × MopRandom ι)) : Option (MopState ι) :=
  (mopInit paretoRank c init.2 init.1).bind fun s => gens.foldlM (mopNext paretoRank c) s

/-- `mopso_cd.py:84-90` and `core/algorithm.py:137`: the number of evaluations reported after the initialisation and `gens` generations (the initial population
is sampled and evaluated in `_setup` and again as first infills). -/
def mopEvals (popSize gens : ℕ) : ℕ := popSize + popSize + gens * popSize

/-! ### Flight -/

section Flight
variable [Field K] [LinearOrder K]

/-- `to_bound.py:9-33` for a single row. -/
def mopClamp (lo hi x : K) : K :=
  let x := if x < lo then lo else x
  if hi < x then hi else x

/-- `mopso_cd.py:79-81`. -/
def mopVmax (rate : K) (xl xu : Fin n → K) : Fin n → K := fun j => rate * (xu j - xl j)

/-- `mopso_cd.py:128-139` for one particle: the new velocity. -/
def mopVelocity (w c1 c2 : K) (vmax v x pbest leader r1 r2 : Fin n → K) : Fin n → K := fun j =>
  mopClamp (-vmax j) (vmax j) (w * v j + c1 * r1 j * (pbest j - x j) + c2 * r2 j * (leader j - x j))

/-- `mopso_cd.py:141-146`: the new position. -/
def mopPosition (xl xu x v : Fin n → K) : Fin n → K := fun j => mopClamp (xl j) (xu j) (x j + v j)

end Flight

/-- `mopso_cd.py:205-246` `_select_diverse_leaders` for one particle: `i`, `j` are the two random indices (into the archive, or `i` into the population if the
archive is empty); `none` = `IndexError`. -/
def mopLeader {γ : Type*} [LT γ] [DecidableLT γ] (crowd : List ι → ℕ → γ) (archive pop : List ι) (i j : ℕ) : Option ι :=
  if archive.length = 0 then pop[i]?
  else if archive.length = 1 then archive[0]?
  else if i = j then archive[i]?
  else if crowd archive j < crowd archive i then archive[i]? else archive[j]?

end Model
