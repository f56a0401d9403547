import Verif.Model.Optimum

/-!
# Model of the archive kept by an algorithm during a run: `pymoo/core/algorithm.py` 204-258, 311-334

`add` returns a new object (`archive.py:84-86`), so whoever holds the archive of before does not see what is added later.
-/

namespace Model

variable {ι : Type*}

/-- One call of `tell`: the infills (`none` = no infills), whether `_post_advance` runs (lines 223-232; not if `_advance` returns False), whether the run has terminated after it, and the truncation operator of the archive. -/
structure TellRound (ι : Type*) where
  infills : Option (List ι)
  posts : Bool
  ends : Bool
  trunc : List ι → ℕ → List ι

/-- `self.archive`, the archives that the callback and the stored history see (one per `_post_advance`), and the archive of the `Result` that the last `tell` returned (`none`: it returned the optimum). -/
structure RunArchive (ι : Type*) where
  arch : List ι
  callbacks : List (List ι)
  history : List (List ι)
  returned : Option (List ι)

/-- `algorithm.py:204-247` `advance`, with `_post_advance` (311-334: the copy stored in the history is made before the callback is called) and `result` (258); `none` = an exception in `add`. -/
def archTell (cfg : ArchiveCfg ι) (findOpt : List ι → Option (List ι)) (saveHistory : Bool) (s : RunArchive ι) (r : TellRound ι) : Option (RunArchive ι) :=
  let s := if r.posts then { s with callbacks := s.callbacks ++ [s.arch], history := if saveHistory then s.history ++ [s.arch] else s.history } else s
  let s := { s with returned := if r.ends then some s.arch else none }
  match r.infills with
  | none => some s
  | some p => (archiveAdd cfg findOpt r.trunc s.arch p).map fun a => { s with arch := a }

/-- A sequence of calls of `tell` (or of `next`, `algorithm.py:157-169`), starting with the archive given to the algorithm. -/
def archTells (cfg : ArchiveCfg ι) (findOpt : List ι → Option (List ι)) (saveHistory : Bool) (arch : List ι) (rounds : List (TellRound ι)) : Option (RunArchive ι) :=
  rounds.foldlM (archTell cfg findOpt saveHistory) ⟨arch, [], [], none⟩

/-- `algorithm.py:141-144`, 258: the archive of the `Result` that `run` (and `minimize`) returns. -/
def runResultArchive (cfg : ArchiveCfg ι) (findOpt : List ι → Option (List ι)) (saveHistory : Bool) (arch : List ι) (rounds : List (TellRound ι)) : Option (List ι) :=
  (archTells cfg findOpt saveHistory arch rounds).map RunArchive.arch

end Model
