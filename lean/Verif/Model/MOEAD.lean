import Verif.Model.Decomposition

/-!
# Model of `pymoo/algorithms/moo/moead.py` and of `LoopwiseAlgorithm` (`pymoo/core/algorithm.py:371-395`)

An individual is a pair of an arbitrary payload (design vector) and its row of objective values. The random generator is an
arbitrary state `R` threaded through arbitrary functions. `s u f w` is the scalarisation of the objective row `f` for the weight
row `w` with reference point `u`.
-/

namespace Model

variable {K : Type*} [Field K] [LinearOrder K]

/-- `moead.py:101-103`, one row: `order` is the result of `np.argsort` of the distances of one reference direction to all. -/
def moeadNeighbors (nNeighbors : ℕ) (order : List ℕ) : List ℕ := order.take nNeighbors

/-- `moead.py:38-46` `NeighborhoodSelection._do`, one row. `r` is the draw of `random()`, `choice` the result of
`choice(neighbors, n_parents, replace=False)`, which is the beginning of a rearrangement `nperm` of the neighbours and an error if
there are too few; `perm` is the result of `permutation(len(pop))`. Too short a permutation cannot be assigned to the row. -/
def neighborhoodSelect (prob r : K) (nParents : ℕ) (nperm perm : List ℕ) : Option (List ℕ) :=
  let l := if r < prob then nperm else perm
  if nParents ≤ l.length then some (l.take nParents) else none

/-- `np.where(a < b)[0]` for the arrays that `Decomposition.do` returns: the row indices of the true entries, a single row of `a`
is repeated. -/
def whereLess : DecompOut K → DecompOut K → Option (List ℕ)
  | .vec a, .vec b =>
    if a.length = b.length then
      some ((List.range a.length).filter fun i => decide ((a[i]?).getD 0 < (b[i]?).getD 0))
    else none
  | .mat a, .mat b =>
    if a.length = 1 then
      some ((List.range b.length).flatMap fun i =>
        ((List.zipWith (fun x y => decide (x < y)) (a.headD []) ((b[i]?).getD [])).filter id).map fun _ => i)
    else none
  | _, _ => none

/-- `moead.py:149-165` `_replace` for the neighbours `N` of subproblem `k`. `nObj` is the number of columns of `F` and of the
weights, `u` the utopian point (the ideal point minus `eps`). `none` is an error (index outside of the arrays). -/
def moeadReplace {α : Type*} (s : List K → List K → List K → K) (nObj : ℕ) (W : List (List K)) (u : List K) (N : List ℕ)
    (pop : List (α × List K)) (off : α × List K) : Option (List (α × List K)) :=
  if ∀ i ∈ N, i < pop.length ∧ i < W.length then
    let F := DecompArg.mat nObj (N.map fun i => ((pop[i]?).map Prod.snd).getD [])
    let Wt := DecompArg.mat nObj (N.map fun i => (W[i]?).getD [])
    let Fo := DecompArg.mat nObj [off.2]
    (decompDo (s u) (decompAuto F Wt) F Wt).bind fun FV =>
    (decompDo (s u) (decompAuto Fo Wt) Fo Wt).bind fun offFV =>
    (whereLess offFV FV).map fun I =>
      I.foldl (fun p i => p.set ((N[i]?).getD 0) off) pop
  else none

/-- `np.min(np.vstack([ideal, F]), axis=0)` (`moead.py:144`). -/
def moeadIdeal (ideal f : List K) : List K := List.zipWith min ideal f

/-- `moead.py:111` `np.min(pop.get("F"), axis=0)`; `none` for an empty population (the code raises). -/
def moeadInitIdeal {α : Type*} (pop : List (α × List K)) : Option (List K) :=
  match pop with
  | [] => none
  | p :: ps => some (ps.foldl (fun a q => moeadIdeal a q.2) p.2)

/-- What `MOEAD` gets from its configuration: the neighbours and weights of the subproblems, the scalarisation with its `eps`,
`random_state.permutation(n)`, the mating for a subproblem (lines 120-136: parents, operators, one offspring drawn), and the
objective function. -/
structure MoeadCfg (K α R : Type*) where
  nObj : ℕ
  neighbors : List (List ℕ)
  weights : List (List K)
  s : List K → List K → List K → K
  eps : K
  perm : R → ℕ → List ℕ × R
  mate : R → List (α × List K) → ℕ → α × R
  f : α → List K

/-- The state of a running generator `_next`: the subproblem whose offspring was handed out last, if any, and the ones that follow. -/
structure MoeadGen where
  waiting : Option ℕ
  rest : List ℕ
  deriving DecidableEq, Repr

/-- The attributes of the algorithm object. `state` is the offspring last yielded. -/
structure MoeadState (K α R : Type*) where
  pop : List (α × List K)
  ideal : List K
  rng : R
  gen : Option MoeadGen
  state : Option α

variable {α R : Type*}

/-- `moead.py:143-147`: what happens with an evaluated offspring of subproblem `k`. -/
def moeadAbsorb (c : MoeadCfg K α R) (k : ℕ) (off : α × List K) (m : MoeadState K α R) : Option (MoeadState K α R) :=
  let ideal := moeadIdeal m.ideal off.2
  (c.neighbors[k]?).bind fun N =>
  (moeadReplace c.s c.nObj c.weights (ideal.map fun v => v - c.eps) N m.pop off).map fun pop =>
    { m with pop := pop, ideal := ideal }

/-- `moead.py:116-147` between two `yield`s, after the offspring was absorbed: yield the offspring of the next subproblem, or end.
The `Bool` is what `_advance` returns (`algorithm.py:388-395`). -/
def moeadYield (c : MoeadCfg K α R) (rest : List ℕ) (m : MoeadState K α R) : MoeadState K α R × Bool :=
  match rest with
  | [] => ({ m with gen := none, state := none }, true)
  | k :: ks =>
    let r := c.mate m.rng m.pop k
    ({ m with rng := r.2, gen := some ⟨some k, ks⟩, state := some r.1 }, false)

/-- `LoopwiseAlgorithm._advance` (`algorithm.py:385-395`) for `MOEAD._next`. `none` is an error: an offspring is expected but none
was given. -/
def moeadAdvance (c : MoeadCfg K α R) (infill : Option (α × List K)) (m : MoeadState K α R) : Option (MoeadState K α R × Bool) :=
  match m.gen with
  | none =>
    let r := c.perm m.rng m.pop.length
    some (moeadYield c r.1 { m with rng := r.2 })
  | some ⟨none, rest⟩ => some (moeadYield c rest m)
  | some ⟨some k, rest⟩ =>
    match infill with
    | none => none
    | some off => (moeadAbsorb c k off m).map (moeadYield c rest)

/-- `LoopwiseAlgorithm._infill` (`algorithm.py:380-383`). -/
def moeadInfill (c : MoeadCfg K α R) (m : MoeadState K α R) : Option (MoeadState K α R) :=
  if m.state.isNone then (moeadAdvance c none m).map Prod.fst else some m

/-- What is seen of one call of `next`: the individual that was evaluated and what `_advance` returned. -/
structure MoeadSeen (K α : Type*) where
  evaluated : Option (α × List K)
  ended : Bool

/-- `Algorithm.next` (`algorithm.py:157-169`): infill, evaluation (`f`), advance. -/
def moeadNext (c : MoeadCfg K α R) (m : MoeadState K α R) : Option (MoeadState K α R × MoeadSeen K α) :=
  (moeadInfill c m).bind fun m' =>
    (moeadAdvance c (m'.state.map fun x => (x, c.f x)) m').map fun r => (r.1, ⟨m'.state.map fun x => (x, c.f x), r.2⟩)

/-- `n` calls of `next`. -/
def moeadNexts (c : MoeadCfg K α R) : ℕ → MoeadState K α R → Option (MoeadState K α R × List (MoeadSeen K α))
  | 0, m => some (m, [])
  | n + 1, m => (moeadNext c m).bind fun r => (moeadNexts c n r.1).map fun q => (q.1, r.2 :: q.2)

/-- `moead.py:207-215` `ParallelMOEAD._advance`: the ideal point is updated with all offspring first. `indices` are the subproblems
the offspring were made for. -/
def moeadParallel (c : MoeadCfg K α R) (indices : List ℕ) (infills : List (α × List K)) (m : MoeadState K α R) :
    Option (MoeadState K α R) :=
  if indices.length = infills.length then
    let ideal := infills.foldl (fun a q => moeadIdeal a q.2) m.ideal
    ((List.zip indices infills).foldlM (fun pop q =>
      (c.neighbors[q.1]?).bind fun N =>
        moeadReplace c.s c.nObj c.weights (ideal.map fun v => v - c.eps) N pop q.2) m.pop).map fun pop =>
      { m with pop := pop, ideal := ideal }
  else none

end Model
