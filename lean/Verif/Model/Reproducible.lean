import Verif.Spec.Reproducible
import Verif.Model.Selection
import Verif.Model.LocalSearch
import Verif.Model.RealOperators
import Mathlib.Algebra.Order.Ring.Rat

/-!
# Which generator the random numbers come from

`pymoo/util/__init__.py` `default_random_state`, the functions decorated with it, and whether their callers pass
`random_state`. In the other model files random numbers are arguments; here they are drawn from a generator, in the order
in which the code draws them. A generator is any type with the operations of `Rng`; drawing returns the next state.
-/

namespace Model

open Spec

variable {Γ A B X : Type*}

/-- `numpy.random.Generator`, the methods used below. `coin` is `choice([a, b])` (`true` = `a`), `choose n k` the positions
of `choice(sols, size=k, replace=False)` with `len(sols) = n`, `ofSeed` is `default_rng(seed)`. Numbers are rational. -/
structure Rng (Γ : Type*) where
  coin : Γ → Bool × Γ
  permutation : (n : ℕ) → Γ → List (Fin n) × Γ
  random : ℕ → Γ → List ℚ × Γ
  normal : List ℚ → List ℚ → Γ → List ℚ × Γ
  choose : (n : ℕ) → ℕ → Γ → List (Fin n) × Γ
  ofSeed : ℕ → Γ

/-- A computation that draws random numbers. -/
abbrev Rand (Γ A : Type*) := Entropy Γ → A × Entropy Γ

/-- A computation without random numbers. -/
def rPure (a : A) : Rand Γ A := fun w => (a, w)

/-- One computation after the other. -/
def rBind (f : Rand Γ A) (k : A → Rand Γ B) : Rand Γ B := fun w => k (f w).1 (f w).2

/-- A draw from `random_state`, the generator in use. -/
def rDraw (d : Γ → A × Γ) : Rand Γ A := fun w => ((d w.cur).1, { w with cur := (d w.cur).2 })

/-- Whether the caller of a decorated function passes `random_state`; if not, the default seed of the decorator. -/
inductive RArg
  | passed
  | omitted (defaultSeed : Option ℕ)

/-- `util/__init__.py:28-35` `wrapper`: without `random_state` the function gets a generator of its own, made from the
default seed or (`default_rng(None)`) from the entropy of the operating system. -/
def callRandom (R : Rng Γ) (arg : RArg) (f : Rand Γ A) : Rand Γ A := fun w =>
  match arg with
  | .passed => f w
  | .omitted (some s) => let r := f { w with cur := R.ofSeed s }; (r.1, { r.2 with cur := w.cur })
  | .omitted none => let r := f ⟨w.os w.made, w.os, w.made + 1⟩; (r.1, { r.2 with cur := w.cur })

/-! ### Tournaments -/

/-- `random_state.choice([a, b])`. -/
def rChoice2 (R : Rng Γ) (a b : ℕ) : Rand Γ ℕ := rBind (rDraw R.coin) fun c => rPure (if c then a else b)

/-- `tournament.py:73-123` `compare`; the generator is used for equal values only. -/
def rCompare {β : Type*} [LinearOrder β] (R : Rng Γ) (arg : RArg) (a : ℕ) (aval : β) (b : ℕ) (bval : β) (method : CmpMethod)
    (returnRandom : Bool) : Rand Γ (Option ℕ) :=
  callRandom R arg <|
    match method with
    | .larger =>
      if bval < aval then rPure (some a)
      else if aval < bval then rPure (some b)
      else if returnRandom then rBind (rChoice2 R a b) fun w => rPure (some w) else rPure none
    | .smaller =>
      if aval < bval then rPure (some a)
      else if bval < aval then rPure (some b)
      else if returnRandom then rBind (rChoice2 R a b) fun w => rPure (some w) else rPure none

/-- The attributes of a population the comparisons read: `CV`, `F`, `rank`, `crowding`, and `"niche"`, `"dist_to_niche"`,
`"SPEA_F"`, `"iter"`. -/
structure SelAttrs (m : ℕ) where
  ind : ℕ → TInd m ℚ ℚ
  niche : ℕ → ℕ
  dist : ℕ → ℚ
  speaF : ℕ → ℚ
  iter : ℕ → ℕ

/-- The comparison functions of the algorithms. -/
inductive SelKind
  | ga
  | nsga2 (tt : TType)
  | sms
  | ctaea
  | spea2
  | nsga3
  | unsga3
  | nicheGa
  deriving DecidableEq

/-- One tournament of the comparison functions, with the calls as they are written:
`ga.py:46-71` (`random_state` passed), `nsga2.py:33-75` (passed), `sms.py:100-132` (passed), `ctaea.py:34-50` (own draws),
`spea2.py:134-160` (passed), `nsga3.py:28-49` (`compare` without `random_state`, own draw otherwise),
`unsga3.py:16-69` (`compare` without, own draw otherwise), `ga_niching.py:63-95` (`compare` without). -/
def rPair {m : ℕ} (R : Rng Γ) (at' : SelAttrs m) (kind : SelKind) (a b : ℕ) : Rand Γ (Option ℕ) :=
  let pa := at'.ind a
  let pb := at'.ind b
  let rel := getRelation pa.F pb.F (none : Option ℕ) none
  let own : Rand Γ (Option ℕ) := rBind (rChoice2 R a b) fun w => rPure (some w)
  match kind with
  | .ga =>
    if 0 < pa.cv ∨ 0 < pb.cv then rCompare R .passed a pa.cv b pb.cv .smaller true
    else if h : 0 < m then rCompare R .passed a (pa.F ⟨0, h⟩) b (pb.F ⟨0, h⟩) .smaller true
    else rPure none
  | .nsga2 tt =>
    if 0 < pa.cv ∨ 0 < pb.cv then rCompare R .passed a pa.cv b pb.cv .smaller true
    else
      match tt with
      | .domCrowding =>
        if rel = 1 then rPure (some a)
        else if rel = -1 then rPure (some b)
        else rCompare R .passed a pa.crowding b pb.crowding .larger true
      | .rankCrowding =>
        rBind (rCompare R .passed a pa.rank b pb.rank .smaller false) fun S =>
          match S with
          | some w => rPure (some w)
          | none => rCompare R .passed a pa.crowding b pb.crowding .larger true
      | .unknown => rPure none
  | .sms =>
    if 0 < pa.cv ∨ 0 < pb.cv then rCompare R .passed a pa.cv b pb.cv .smaller true
    else if rel = 1 then rPure (some a)
    else if rel = -1 then rPure (some b)
    else own
  | .ctaea =>
    if pa.cv ≤ 0 ∧ pb.cv ≤ 0 then
      if rel = 1 then rPure (some a) else if rel = -1 then rPure (some b) else own
    else if pa.cv ≤ 0 then rPure (some a)
    else if pb.cv ≤ 0 then rPure (some b)
    else own
  | .spea2 =>
    if 0 < pa.cv ∨ 0 < pb.cv then rCompare R .passed a pa.cv b pb.cv .smaller true
    else rCompare R .passed a (at'.speaF a) b (at'.speaF b) .smaller true
  | .nsga3 =>
    if 0 < pa.cv ∨ 0 < pb.cv then rCompare R (.omitted none) a pa.cv b pb.cv .smaller true else own
  | .unsga3 =>
    rBind
      (if 0 < pa.cv ∨ 0 < pb.cv then rCompare R (.omitted none) a pa.cv b pb.cv .smaller true
        else if at'.niche a = at'.niche b then
          if pa.rank ≠ pb.rank then rCompare R (.omitted none) a pa.rank b pb.rank .smaller false
          else rCompare R (.omitted none) a (at'.dist a) b (at'.dist b) .smaller false
        else rPure none)
      fun S =>
        match S with
        | some w => rPure (some w)
        | none => own
  | .nicheGa =>
    if 0 < pa.cv ∨ 0 < pb.cv then rCompare R (.omitted none) a pa.cv b pb.cv .smaller true
    else
      rBind (rCompare R (.omitted none) a (at'.iter a) b (at'.iter b) .smaller false) fun S =>
        match S with
        | some w => rPure (some w)
        | none => rCompare R (.omitted none) a pa.rank b pb.rank .smaller true

/-- `nsga2.py:23-33` and its like: the loop over the rows of `P`. -/
def rTournaments (comp : ℕ → ℕ → Rand Γ (Option ℕ)) : List (List ℕ) → Rand Γ (Option (List ℕ))
  | [] => rPure (some [])
  | row :: rows =>
    match row with
    | [a, b] =>
      rBind (comp a b) fun w =>
        match w with
        | none => rPure none
        | some w =>
          rBind (rTournaments comp rows) fun ws =>
            match ws with
            | none => rPure none
            | some ws => rPure (some (w :: ws))
    | _ => rPure none

/-- `misc.py:106-129` `random_permutations(n, l)` before the concatenation. -/
def rPermutations (R : Rng Γ) (l : ℕ) : ℕ → Rand Γ (List (List ℕ))
  | 0 => rPure []
  | n + 1 => rBind (rDraw (R.permutation l)) fun p => rBind (rPermutations R l n) fun ps => rPure (p.map Fin.val :: ps)

/-- `tournament.py:41-70` `TournamentSelection._do`; both calls pass `random_state`. -/
def rTournamentSelect (R : Rng Γ) (n pressure nSelect nParents : ℕ) (comp : ℕ → ℕ → Rand Γ (Option ℕ)) :
    Rand Γ (Option (List (List ℕ))) :=
  let nRandom := nSelect * nParents * pressure
  if n = 0 then rPure none
  else
    let nPerms := (nRandom + n - 1) / n
    rBind (callRandom R .passed (rPermutations R n nPerms)) fun ps =>
      if nPerms = 0 then rPure none
      else
        rBind (callRandom R .passed (rTournaments comp (reshapeRows (ps.flatten.take nRandom) (nSelect * nParents) pressure)))
          fun S => rPure (S.map fun S => reshapeRows S nSelect nParents)

/-! ### The loop of the genetic algorithms -/

/-- `operator.py:37-51` `Operator.__call__`: the built-in repair is called without `random_state`. -/
def rOperator (R : Rng Γ) (op : Rand Γ A) (repair : Option (A → Rand Γ A)) : Rand Γ A :=
  rBind (callRandom R .passed op) fun out =>
    match repair with
    | none => rPure out
    | some rep => callRandom R (.omitted none) (rep out)

/-- The parts of a genetic algorithm: the comparison and its attributes, the number of parents and offsprings of the
crossover, what the operators do, their built-in repairs, the repair, the elimination of duplicates (`_off`, `pop`, `off`), the
survival, `advance_after_initial_infill` and the sampling. -/
structure GaParts (Γ X : Type*) (m : ℕ) where
  kind : SelKind
  attrs : List X → SelAttrs m
  nParents : ℕ
  nChildren : ℕ
  crossover : List X → List (List ℕ) → Rand Γ (List X)
  crossoverRepair : Option (List X → Rand Γ (List X))
  mutation : List X → Rand Γ (List X)
  mutationRepair : Option (List X → Rand Γ (List X))
  repair : List X → Rand Γ (List X)
  elim : List X → List X → List X → List X
  survive : List X → ℕ → Rand Γ (List X)
  advanceFirst : Bool
  sample : ℕ → Rand Γ (List X)

variable {m : ℕ}

/-- `mating.py:24-47` `Mating._do`: selection, crossover, mutation. -/
def rMating (R : Rng Γ) (P : GaParts Γ X m) (pop : List X) (n : ℕ) : Rand Γ (Option (List X)) :=
  rBind (rTournamentSelect R pop.length 2 ((n + P.nChildren - 1) / P.nChildren) P.nParents (rPair R (P.attrs pop) P.kind)) fun S =>
    match S with
    | none => rPure none
    | some S =>
      rBind (rOperator R (P.crossover pop S) P.crossoverRepair) fun off =>
        rBind (rOperator R (P.mutation off) P.mutationRepair) fun off => rPure (some off)

/-- `infill.py:21-67` `InfillCriterion.do`; the first argument is the number of iterations left. -/
def rInfill (R : Rng Γ) (P : GaParts Γ X m) (pop : List X) (n : ℕ) : ℕ → List X → Rand Γ (Option (List X))
  | 0, off => rPure (some off)
  | k + 1, off =>
    if off.length < n then
      rBind (rMating R P pop (n - off.length)) fun o =>
        match o with
        | none => rPure none
        | some o =>
          rBind (callRandom R .passed (P.repair o)) fun o =>
            rInfill R P pop n k (off ++ (P.elim o pop off).take (n - off.length))
    else rPure (some off)

/-- `genetic.py:93-133`: one generation (`_infill`, then `_advance`); without offsprings the run ends. Evaluating does not draw
random numbers and is left out. -/
def rGeneration (R : Rng Γ) (P : GaParts Γ X m) (popSize nOff maxIter : ℕ) (pop : List X) : Rand Γ (Option (List X)) :=
  rBind (rInfill R P pop nOff (max 1 maxIter) []) fun off =>
    match off with
    | none => rPure none
    | some [] => rPure none
    | some off => rBind (callRandom R .passed (P.survive (pop ++ off) popSize)) fun pop => rPure (some pop)

/-- `k` generations; `none` = the run has ended. -/
def rGenerations (R : Rng Γ) (P : GaParts Γ X m) (popSize nOff maxIter : ℕ) : ℕ → List X → Rand Γ (List X)
  | 0, pop => rPure pop
  | k + 1, pop =>
    rBind (rGeneration R P popSize nOff maxIter pop) fun p =>
      match p with
      | none => rPure pop
      | some pop => rGenerations R P popSize nOff maxIter k pop

/-- `genetic.py:78-91`, then the generations: the whole run; `random_state` is made from the seed in `algorithm.py:123-124`. -/
def rGaRun (R : Rng Γ) (P : GaParts Γ X m) (popSize nOff maxIter k : ℕ) : Rand Γ (List X) :=
  rBind (callRandom R .passed (P.sample popSize)) fun pop =>
    rBind (if P.advanceFirst then callRandom R .passed (P.survive pop pop.length) else rPure pop) fun pop => rGenerations R P popSize nOff maxIter k pop

/-! ### Pattern search -/

/-- `pattern.py:106-114`: the order of the variables in `exploration_move`, called without `random_state` (lines 80 and 97). -/
def rOrder (R : Rng Γ) (n : ℕ) : Rand Γ (List (Fin n)) := callRandom R (.omitted none) (rDraw (R.permutation n))

/-- `pattern.py:66-99` `_next`. -/
def rPatternNext {n : ℕ} (R : Rng Γ) (at' : Attrs (Fin n → ℚ) ℚ ℚ 1) (xl xu : Option (Fin n → ℚ)) (delta : Fin n → ℚ) (initRho step : ℚ)
    (s : PatternState ℚ n) : Rand Γ (PatternState ℚ n × List (Fin n → ℚ)) :=
  rBind (rOrder R n) fun o => rPure (patternNext at' xl xu delta initRho step o s)

/-- `k` iterations from `x0`; the state and the points evaluated. -/
def rPatternRun {n : ℕ} (R : Rng Γ) (at' : Attrs (Fin n → ℚ) ℚ ℚ 1) (xl xu : Option (Fin n → ℚ)) (delta : Fin n → ℚ) (initRho step : ℚ) :
    ℕ → PatternState ℚ n → Rand Γ (PatternState ℚ n × List (Fin n → ℚ))
  | 0, s => rPure (s, [])
  | k + 1, s =>
    rBind (rPatternNext R at' xl xu delta initRho step s) fun r =>
      rBind (rPatternRun R at' xl xu delta initRho step k r.1) fun q => rPure (q.1, r.2 ++ q.2)

/-! ### Gaussian mutation -/

/-- `np.where(mask)`: the positions of the true entries, row by row. -/
def wherePos {r n : ℕ} (mask : Fin r → Fin n → Bool) : List (Fin r × Fin n) :=
  (List.finRange r).flatMap fun i => ((List.finRange n).filter (mask i)).map fun j => (i, j)

/-- Numbers in the order of `np.where`, addressed by entry. -/
def atPos {r n : ℕ} (mask : Fin r → Fin n → Bool) (us : List ℚ) : Fin r → Fin n → ℚ := fun i j =>
  us.getD ((wherePos mask).idxOf (i, j)) 0

/-- `bounds_repair.py:128-152` `repair_random_init`: numbers are drawn only if entries are out of bounds. -/
def rRepairRandomInit {r n : ℕ} (R : Rng Γ) (arg : RArg) (Xp X : Fin r → Fin n → ℚ) (xl xu : Fin n → ℚ) : Rand Γ (Fin r → Fin n → ℚ) :=
  callRandom R arg <|
    let lo := below Xp xl
    rBind (if 0 < (wherePos lo).length then rDraw (R.random (wherePos lo).length) else rPure []) fun us =>
      let Xq := setWhere Xp lo fun i j => xl j + atPos lo us i j * (X i j - xl j)
      let hi := above Xq xu
      rBind (if 0 < (wherePos hi).length then rDraw (R.random (wherePos hi).length) else rPure []) fun vs =>
        rPure (setWhere Xq hi fun i j => xu j - atPos hi vs i j * (xu j - X i j))

/-- `gauss.py:17-32`: the mask and the values drawn. -/
def rGaussDraw {r n : ℕ} (R : Rng Γ) (X : Fin r → Fin n → ℚ) (xl xu : Fin n → ℚ) (sigma prob : Fin r → ℚ) : Rand Γ (Fin r → Fin n → ℚ) :=
  rBind (rDraw (R.random (r * n))) fun us =>
    let mask : Fin r → Fin n → Bool := fun i j => decide (us.getD (i.val * n + j.val) 0 < prob i)
    let P := wherePos mask
    rBind (rDraw (R.normal (P.map fun p => X p.1 p.2) (P.map fun p => sigma p.1 * (xu p.2 - xl p.2)))) fun ns =>
      rPure (setWhere X mask (atPos mask ns))

/-- `gauss.py:16-36` `mut_gauss`; `repair_random_init` is called without `random_state` (line 34). -/
def rMutGauss {r n : ℕ} (R : Rng Γ) (X : Fin r → Fin n → ℚ) (xl xu : Fin n → ℚ) (sigma prob : Fin r → ℚ) : Rand Γ (Fin r → Fin n → ℚ) :=
  rBind (rGaussDraw R X xl xu sigma prob) fun Xp => rRepairRandomInit R (.omitted none) Xp X xl xu

/-! ### Truncation of an archive and control of parameters -/

/-- `archive.py:81-82` with `RandomTruncation` (`archive.py:16-19`), called without `random_state`: `opt` are the solutions to
be kept; `max_size` is `none` or a number. -/
def rTruncate (R : Rng Γ) (maxSize : Option ℕ) (truncSize : ℕ) (opt : List A) : Rand Γ (List A) :=
  match maxSize with
  | none => rPure opt
  | some k =>
    if k ≠ 0 ∧ k < opt.length then
      callRandom R (.omitted none) (rBind (rDraw (R.choose opt.length truncSize)) fun I => rPure (I.map opt.get))
    else rPure opt

/-- `control.py:36-43,60-70`: the values of the parameters set by `NoParameterControl` (`none`) or by `RandomParameterControl`
(the number of parameters, `N` numbers in the unit interval each, before they are scaled). -/
def rControlDo (R : Rng Γ) (arg : RArg) (control : Option ℕ) (N : ℕ) : Rand Γ (List ℚ) :=
  callRandom R arg <|
    match control with
    | none => rPure []
    | some params => rDraw (R.random (params * N))

/-- `de.py:96`: called without `random_state`. -/
def rDeControl (R : Rng Γ) (control : Option ℕ) (N : ℕ) : Rand Γ (List ℚ) := rControlDo R (.omitted none) control N

end Model
