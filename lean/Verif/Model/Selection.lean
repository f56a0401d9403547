import Verif.Model.Dominator
import Mathlib.Data.List.Sort

/-!
# Model of `pymoo/operators/selection/*.py` and of the tournament comparisons

Random draws are arguments: permutations as lists, `random_state.choice([a, b])` as a coin (`true` = `a`), and the
resampling of the DE selection as the stream of drawn indices. Individuals are indices into the population.
-/

namespace Model

variable {α β γ ρ : Type*}

/-- The two methods of `compare`. -/
inductive CmpMethod
  | larger
  | smaller
  deriving DecidableEq

/-- `tournament.py:74-123` `compare(a, a_val, b, b_val, method, return_random_if_equal)`; `none` = returned `None`. -/
def compareInd [LinearOrder β] (a : ℕ) (aval : β) (b : ℕ) (bval : β) (method : CmpMethod) (returnRandom coin : Bool) :
    Option ℕ :=
  match method with
  | .larger =>
    if bval < aval then some a
    else if aval < bval then some b
    else if returnRandom then some (if coin then a else b) else none
  | .smaller =>
    if aval < bval then some a
    else if bval < aval then some b
    else if returnRandom then some (if coin then a else b) else none

/-- What the comparisons read from an individual: `CV[0]`, `F`, `rank`, `crowding`. -/
structure TInd (m : ℕ) (α γ : Type*) where
  cv : α
  F : Fin m → α
  rank : ℕ
  crowding : γ

/-- The tournament types of NSGA-II (`nsga2.py:51-63`). -/
inductive TType
  | domCrowding
  | rankCrowding
  | unknown
  deriving DecidableEq

/-- `nsga2.py:33-75`, one tournament of `binary_tournament`. `none` = the exception of line 63. `S[i] = None` stores NaN,
so the crowding comparison follows. -/
def nsga2Compare {m : ℕ} [LinearOrder α] [Zero α] [LinearOrder γ] (tt : TType) (pop : ℕ → TInd m α γ) (coin : Bool)
    (a b : ℕ) : Option ℕ :=
  if 0 < (pop a).cv ∨ 0 < (pop b).cv then compareInd a (pop a).cv b (pop b).cv .smaller true coin
  else
    let first : Option (Option ℕ) :=
      match tt with
      | .domCrowding =>
        let rel := getRelation (pop a).F (pop b).F (none : Option ℕ) none
        some (if rel = 1 then some a else if rel = -1 then some b else none)
      | .rankCrowding => some (compareInd a (pop a).rank b (pop b).rank .smaller false coin)
      | .unknown => none
    match first with
    | none => none
    | some (some w) => some w
    | some none => compareInd a (pop a).crowding b (pop b).crowding .larger true coin

/-- `ga.py:46-71`, one tournament of `comp_by_cv_and_fitness` (single objective: `F` has one entry). -/
def gaCompare [LinearOrder α] [Zero α] (pop : ℕ → TInd 1 α γ) (coin : Bool) (a b : ℕ) : Option ℕ :=
  if 0 < (pop a).cv ∨ 0 < (pop b).cv then compareInd a (pop a).cv b (pop b).cv .smaller true coin
  else compareInd a ((pop a).F 0) b ((pop b).F 0) .smaller true coin

/-- `nsga3.py:31-47`, one tournament of `comp_by_cv_then_random`. The comparison of violations is called without
`random_state`, so its coin comes from another generator. -/
def nsga3Compare {m : ℕ} [LinearOrder α] [Zero α] (pop : ℕ → TInd m α γ) (coin otherCoin : Bool) (a b : ℕ) : Option ℕ :=
  if 0 < (pop a).cv ∨ 0 < (pop b).cv then compareInd a (pop a).cv b (pop b).cv .smaller true otherCoin
  else some (if coin then a else b)

/-- `sms.py:100-132`, one tournament of `cv_and_dom_tournament`. -/
def smsCompare {m : ℕ} [LinearOrder α] [Zero α] (pop : ℕ → TInd m α γ) (coin : Bool) (a b : ℕ) : Option ℕ :=
  if 0 < (pop a).cv ∨ 0 < (pop b).cv then compareInd a (pop a).cv b (pop b).cv .smaller true coin
  else
    let rel := getRelation (pop a).F (pop b).F (none : Option ℕ) none
    some (if rel = 1 then a else if rel = -1 then b else if coin then a else b)

/-- `ctaea.py:34-50`, one tournament of `comp_by_cv_dom_then_random`. -/
def ctaeaCompare {m : ℕ} [LinearOrder α] [Zero α] (pop : ℕ → TInd m α γ) (coin : Bool) (a b : ℕ) : ℕ :=
  if (pop a).cv ≤ 0 ∧ (pop b).cv ≤ 0 then
    let rel := getRelation (pop a).F (pop b).F (none : Option ℕ) none
    if rel = 1 then a else if rel = -1 then b else if coin then a else b
  else if (pop a).cv ≤ 0 then a
  else if (pop b).cv ≤ 0 then b
  else if coin then a else b

/-- `unsga3.py:31-67`, one tournament of `comp_by_rank_and_ref_line_dist`; `niche` and `dist` are the attributes `"niche"`
and `"dist_to_niche"`. -/
def unsga3Compare {m : ℕ} [LinearOrder α] [Zero α] [LinearOrder γ] (pop : ℕ → TInd m α γ) (niche : ℕ → ℕ) (dist : ℕ → γ)
    (coin otherCoin : Bool) (a b : ℕ) : ℕ :=
  let S : Option ℕ :=
    if 0 < (pop a).cv ∨ 0 < (pop b).cv then compareInd a (pop a).cv b (pop b).cv .smaller true otherCoin
    else if niche a = niche b then
      if (pop a).rank ≠ (pop b).rank then compareInd a (pop a).rank b (pop b).rank .smaller false otherCoin
      else compareInd a (dist a) b (dist b) .smaller false otherCoin
    else none
  match S with
  | some w => w
  | none => if coin then a else b

/-- `spea2.py:134-160`, one tournament of `spea_binary_tournament`; `speaF` is the attribute `"SPEA_F"`. -/
def speaCompare {m : ℕ} [LinearOrder α] [Zero α] [LinearOrder γ] (pop : ℕ → TInd m α γ) (speaF : ℕ → γ) (coin : Bool)
    (a b : ℕ) : Option ℕ :=
  if 0 < (pop a).cv ∨ 0 < (pop b).cv then compareInd a (pop a).cv b (pop b).cv .smaller true coin
  else compareInd a (speaF a) b (speaF b) .smaller true coin

/-- `misc.py:107-129` `random_permutations(n, l, concat=True)`; `none` = `np.concatenate` of an empty list raises. -/
def randomPermutations (n : ℕ) (perms : ℕ → List ℕ) : Option (List ℕ) :=
  if n = 0 then none else some ((List.range n).flatMap perms)

/-- `np.reshape(P, (rows, cols))` of a list. -/
def reshapeRows (P : List ℕ) (rows cols : ℕ) : List (List ℕ) :=
  (List.range rows).map fun t => (P.drop (t * cols)).take cols

/-- `tournament.py:57-65`: the participants of all tournaments, one row each; `n` is `len(pop)`; `none` = an exception
(division by zero, nothing to concatenate). -/
def participants (n pressure nSelect nParents : ℕ) (perms : ℕ → List ℕ) : Option (List (List ℕ)) :=
  let nRandom := nSelect * nParents * pressure
  if n = 0 then none
  else
    let nPerms := (nRandom + n - 1) / n
    match randomPermutations nPerms perms with
    | none => none
    | some P => some (reshapeRows (P.take nRandom) (nSelect * nParents) pressure)

/-- `nsga2.py:23-33` and its like: the comparison of all rows; every row must have two entries. `comp i` is the comparison
of tournament `i` with its coin. -/
def runTournaments (comp : ℕ → ℕ → ℕ → Option ℕ) : ℕ → List (List ℕ) → Option (List ℕ)
  | _, [] => some []
  | i, row :: rows =>
    match row with
    | [a, b] =>
      match comp i a b, runTournaments comp (i + 1) rows with
      | some w, some ws => some (w :: ws)
      | _, _ => none
    | _ => none

/-- `tournament.py:41-70` `TournamentSelection._do` with a binary comparison; the result is the `(n_select, n_parents)`
matrix of winners. -/
def tournamentSelect (n pressure nSelect nParents : ℕ) (perms : ℕ → List ℕ) (comp : ℕ → ℕ → ℕ → Option ℕ) :
    Option (List (List ℕ)) :=
  match participants n pressure nSelect nParents perms with
  | none => none
  | some P => (runTournaments comp 0 P).map fun S => reshapeRows S nSelect nParents

/-- `rnd.py:13-23` `RandomSelection._do`. -/
def randomSelect (n nSelect nParents : ℕ) (perms : ℕ → List ℕ) : Option (List (List ℕ)) :=
  let nRandom := nSelect * nParents
  if n = 0 then none
  else
    match randomPermutations ((nRandom + n - 1) / n) perms with
    | none => none
    | some P => some (reshapeRows (P.take nRandom) nSelect nParents)

/-! ### Differential evolution -/

/-- `des.py:40-41`: replace the entries of the column that repeat an entry of their row by new draws, in order of the
rows; `k` counts the draws used. -/
def redraw (draw : ℕ → ℕ) : ℕ → List (List ℕ) → List ℕ → List ℕ
  | k, row :: rows, c :: col =>
    if c ∈ row then draw k :: redraw draw (k + 1) rows col else c :: redraw draw k rows col
  | _, _, _ => []

/-- `des.py:39` `reselect.any()`. -/
def needsReselect : List (List ℕ) → List ℕ → Bool
  | row :: rows, c :: col => decide (c ∈ row) || needsReselect rows col
  | _, _ => false

/-- `des.py:39-41`: the loop; `draws t` are the indices drawn in round `t`; `none` = not finished after `fuel` rounds. -/
def reselectLoop (draws : ℕ → ℕ → ℕ) (rows : List (List ℕ)) : ℕ → ℕ → List ℕ → Option (List ℕ)
  | 0, _, col => if needsReselect rows col then none else some col
  | fuel + 1, t, col =>
    if needsReselect rows col then reselectLoop draws rows fuel (t + 1) (redraw (draws t) 0 rows col) else some col

/-- `des.py:37-41`: draw one column (round `0` is the first `choice(n_pop, n_select)`) and repair it. -/
def fillColumn (fuel : ℕ) (draws : ℕ → ℕ → ℕ) (rows : List (List ℕ)) : Option (List ℕ) :=
  reselectLoop draws rows fuel 1 ((List.range rows.length).map (draws 0))

/-- `des.py:36-41`: the columns one after the other, appended to the rows; `draws j` are the draws for the `j`-th new
column. -/
def fillColumns (fuel : ℕ) (draws : ℕ → ℕ → ℕ → ℕ) : ℕ → ℕ → List (List ℕ) → Option (List (List ℕ))
  | 0, _, rows => some rows
  | cols + 1, j, rows =>
    match fillColumn fuel (draws j) rows with
    | none => none
    | some col => fillColumns fuel draws cols (j + 1) (List.zipWith (fun r c => r ++ [c]) rows col)

/-- `des.py:32-42` `_rand`. `P[:, 0] = np.arange(n_pop)` needs `n_select = n_pop`. -/
def desRand (fuel nPop nSelect nParents : ℕ) (draws : ℕ → ℕ → ℕ → ℕ) : Option (List (List ℕ)) :=
  if nSelect ≠ nPop ∨ nParents < 1 then none
  else fillColumns fuel draws (nParents - 1) 0 ((List.range nPop).map fun i => [i])

/-- `des.py:44-55` `_best`. -/
def desBest (fuel nPop nSelect nParents : ℕ) (draws : ℕ → ℕ → ℕ → ℕ) : Option (List (List ℕ)) :=
  if nSelect ≠ nPop ∨ nParents < 2 then none
  else fillColumns fuel draws (nParents - 2) 0 ((List.range nPop).map fun i => [i, 0])

/-- `des.py:57-70` `_current_to_best`. -/
def desCurrentToBest (fuel nPop nSelect nParents : ℕ) (draws : ℕ → ℕ → ℕ → ℕ) : Option (List (List ℕ)) :=
  if nSelect ≠ nPop ∨ nParents < 4 then none
  else fillColumns fuel draws (nParents - 4) 0 ((List.range nPop).map fun i => [i, i, 0, i])

/-- `des.py:72-89` `_current_to_rand`: column 2 is drawn against columns 0, 1 and 3 first. -/
def desCurrentToRand (fuel nPop nSelect nParents : ℕ) (draws : ℕ → ℕ → ℕ → ℕ) : Option (List (List ℕ)) :=
  if nSelect ≠ nPop ∨ nParents < 4 then none
  else
    match fillColumn fuel (draws 0) ((List.range nPop).map fun i => [i, i, i]) with
    | none => none
    | some col =>
      fillColumns fuel draws (nParents - 4) 1 (List.zipWith (fun i c => [i, i, c, i]) (List.range nPop) col)

/-- `des.py:92-98` `_ranks_from_pop`: an individual without rank gets its index. -/
def rankOf (rank : ℕ → Option ℕ) (i : ℕ) : ℕ := (rank i).getD i

/-- `des.py:108-110`: the pairs of `_rank_sort`, `j = 1, ..., n_diffs`: `S[j]` and `S[-j]`. -/
def rankPairs (S : List ℕ) (nDiffs : ℕ) : List ℕ :=
  (List.range nDiffs).flatMap fun j => [S.getD (j + 1) 0, S.getD (S.length - (j + 1)) 0]

/-- `des.py:101-111` `_rank_sort` for one row: the entries in order of their rank (stable), the best first, then the pairs.
`none` = writing beyond the row (an even number of columns) or an empty row. -/
def rankSortRow (rank : ℕ → ℕ) (row : List ℕ) : Option (List ℕ) :=
  let S := row.insertionSort fun a b => rank a ≤ rank b
  if row.length % 2 = 0 then none
  else some (S.take 1 ++ rankPairs S (row.length / 2))

/-- `des.py:18-20`, variant `ranked`. -/
def desRanked (fuel nPop nSelect nParents : ℕ) (rank : ℕ → Option ℕ) (draws : ℕ → ℕ → ℕ → ℕ) :
    Option (List (List ℕ)) :=
  match desRand fuel nPop nSelect nParents draws with
  | none => none
  | some P => P.mapM fun row => (rankSortRow (rankOf rank) row.tail).map fun r => row.take 1 ++ r

/-! ### The parent selection of the DE algorithm -/

/-- `rnd.py:47-51`: write the drawn values at the positions `rem`, in order. -/
def ffAssign (draw : ℕ → ℕ) : ℕ → List ℕ → List ℕ → List ℕ
  | _, [], col => col
  | k, r :: rem, col => ffAssign draw (k + 1) rem (col.set r (draw k))

/-- `rnd.py:53`: the positions *within* `rem` whose new entry repeats a forbidden one. -/
def ffRem (forb : List (List ℕ)) (col rem : List ℕ) : List ℕ :=
  (List.range rem.length).filter fun p => decide (col.getD (rem.getD p 0) 0 ∈ forb.getD (rem.getD p 0) [])

/-- `rnd.py:46-56`: the attempts for one column. -/
def ffLoop (draws : ℕ → ℕ → ℕ) (forb : List (List ℕ)) : ℕ → ℕ → List ℕ → List ℕ → List ℕ
  | 0, _, _, col => col
  | fuel + 1, t, rem, col =>
    let col' := ffAssign (draws t) 0 rem col
    let rem' := ffRem forb col' rem
    if rem'.length = 0 then col' else ffLoop draws forb fuel (t + 1) rem' col'

/-- `rnd.py:26-60` `fast_fill_random(X, N, columns, Xp, n_max_attempts)`. `rows` are the entries of `X` in the columns
filled by this call so far (`J`), in order, followed by the row of `Xp`; `n_max_attempts = 10`. The draws are below `N`. -/
def fastFill (draws : ℕ → ℕ → ℕ → ℕ) (xp : List (List ℕ)) : ℕ → ℕ → List (List ℕ) → List (List ℕ)
  | 0, _, rows => rows
  | cols + 1, j, rows =>
    let col := ffLoop (draws j) (List.zipWith (· ++ ·) rows xp) 10 0 (List.range rows.length) (rows.map fun _ => 0)
    fastFill draws xp cols (j + 1) (List.zipWith (fun r c => r ++ [c]) rows col)

/-- `de.py:125-132`: the parents of `DE/rand` for the targets. -/
def deRandParents (nParents : ℕ) (draws : ℕ → ℕ → ℕ → ℕ) (targets : List ℕ) : List (List ℕ) :=
  fastFill draws (targets.map fun t => [t]) nParents 0 (targets.map fun _ => [])

/-- `de.py:133-141`: the parents of `DE/best`; `best` is the first column. It is not among the columns checked. -/
def deBestParents (nParents : ℕ) (draws : ℕ → ℕ → ℕ → ℕ) (best targets : List ℕ) : List (List ℕ) :=
  List.zipWith (fun b r => b :: r) best
    (fastFill draws (targets.map fun t => [t]) (nParents - 1) 0 (targets.map fun _ => []))

/-- `de.py:142-151`: the parents of `DE/target-to-best`: the target, a best individual, and the columns filled at random, which
are checked against the target only. -/
def deTargetParents (nParents : ℕ) (draws : ℕ → ℕ → ℕ → ℕ) (best targets : List ℕ) : List (List ℕ) :=
  List.zipWith (fun t r => t :: r) targets
    (List.zipWith (fun b r => b :: r) best
      (fastFill draws (targets.map fun t => [t]) (nParents - 2) 0 (targets.map fun _ => [])))

end Model
