import Verif.Model.Mopso
import Verif.Model.Genetic

/-!
# Model of `pymoo/algorithms/moo/cmopso.py`

Individuals have a type `ι`; random draws are arguments; numbers are exact. The angle between two positions is an argument.
-/

namespace Model

variable {ι α β K γ : Type*} {m n : ℕ}

/-- `cmopso.py:45-62` `CrowdingDistanceTournamentSurvival._do` (`[]` stands for the exception of an `argmax` of nothing, which cannot happen). -/
def cmoTournament [LT γ] [DecidableLT γ] (crowd : List ι → ℕ → γ) (draw : ℕ → List ℕ → List ℕ) (sub : List ι) (k : ℕ) : List ι :=
  ((mopTournament (crowd sub) draw k 0 (List.range sub.length)).map fun I => I.filterMap (sub[·]?)).getD []

/-- `archive.py:35-36` with that survival (`filter_infeasible=True`). -/
def cmoTrunc [LT γ] [DecidableLT γ] (crowd : List ι → ℕ → γ) (draw : ℕ → List ℕ → List ℕ) (split : Bool) (feas : ι → Bool)
    (sortCV : (pop : List ι) → List (Fin pop.length) → List (Fin pop.length)) (l : List ι) (t : ℕ) : List ι :=
  survivalDo split (cmoTournament crowd draw) feas l (sortCV l) (some t)

/-- Population and elites. -/
structure CmoState (ι : Type*) where
  pop : List ι
  elites : List ι
  deriving DecidableEq

/-- The parts that do not change. -/
structure CmoCfg (ι α β : Type*) (m : ℕ) where
  at' : Attrs ι α β m
  popSize : ℕ
  eliteSize : ℕ
  near : ι → ι → Bool
  split : Bool

/-- What one generation brings: the new particles, the call of SPEA2's survival, the truncation of the elites. -/
structure CmoGen (ι : Type*) where
  infills : List ι
  call : SurvCall ι
  trunc : List ι → ℕ → List ι

/-- `cmopso.py:174-178`, the archive of elites: `max_size=pop_size`, `truncate_size=elite_size`. -/
def cmoArchive (c : CmoCfg ι α β m) : Option (ArchiveCfg ι) := mkArchive (some c.popSize) (some c.eliteSize) (some c.near)

/-- `self.elites.add(...)`. -/
def cmoAdd [Sub α] [LT α] [DecidableLT α] [LT β] [DecidableLT β] [DecidableEq β] (paretoRank : ∀ n, (Fin n → Fin m → α) → Fin n → ℕ) (c : CmoCfg ι α β m)
    (trunc : List ι → ℕ → List ι) (elites sols : List ι) : Option (List ι) :=
  (cmoArchive c).bind fun cfg => archiveAdd cfg (findOptMulti paretoRank c.at') trunc elites sols

/-- `cmopso.py:184-195` `_initialize_advance`. -/
def cmoInit [Sub α] [LT α] [DecidableLT α] [LT β] [DecidableLT β] [DecidableEq β] (paretoRank : ∀ n, (Fin n → Fin m → α) → Fin n → ℕ) (c : CmoCfg ι α β m)
    (g : CmoGen ι) : Option (CmoState ι) :=
  (cmoAdd paretoRank c g.trunc [] g.infills).map fun e => ⟨g.infills, e⟩

/-- `cmopso.py:210-215` `_advance`. -/
def cmoNext [Sub α] [LT α] [DecidableLT α] [LT β] [DecidableLT β] [DecidableEq β] (paretoRank : ∀ n, (Fin n → Fin m → α) → Fin n → ℕ) (c : CmoCfg ι α β m)
    (s : CmoState ι) (g : CmoGen ι) : Option (CmoState ι) :=
  let particles := s.pop ++ g.infills
  (cmoAdd paretoRank c g.trunc s.elites particles).map fun e => ⟨g.call.apply c.split c.at'.feas c.popSize particles, e⟩

/-- A run. -/
def cmoRun [Sub α] [LT α] [DecidableLT α] [LT β] [DecidableLT β] [DecidableEq β] (paretoRank : ∀ n, (Fin n → Fin m → α) → Fin n → ℕ) (c : CmoCfg ι α β m)
    (init : CmoGen ι) (gens : List (CmoGen ι)) : Option (CmoState ι) :=
  (cmoInit paretoRank c init).bind fun s => gens.foldlM (cmoNext paretoRank c) s

/-! ### Flight -/

/-- `cmopso.py:102-107`: the winner of the two elites drawn (`i`, `j` are the random indices); `none` = the `ValueError` of a draw from no elites. Python's
`min` keeps the first of equal keys. -/
def cmoWinner [LT K] [DecidableLT K] {X : Type*} (angle : X → X → K) (L : List X) (x : X) (i j : ℕ) : Option X :=
  (L[i]?).bind fun a => (L[j]?).map fun b => if angle b x < angle a x then b else a

/-- `cmopso.py:114-115` for one particle: the new velocity. -/
def cmoVelocity [Field K] [LinearOrder K] (vmax v x winner r1 r2 : Fin n → K) : Fin n → K := fun j =>
  mopClamp (-vmax j) (vmax j) (r1 j * v j + r2 j * (winner j - x j))

/-- `cmopso.py:117`. -/
def cmoPosition [Field K] (x v : Fin n → K) : Fin n → K := fun j => x j + v j

/-- `cmopso.py:187-192`: the initial velocity; `none` = the exception for an unknown option. -/
def cmoInitV [Field K] (kind : String) (vmax r : Fin n → K) : Option (Fin n → K) :=
  if kind = "random" then some fun j => r j * vmax j else if kind = "zero" then some fun _ => 0 else none

end Model
