import Verif.Model.Optimum
import Mathlib.Data.List.Sort
import Mathlib.Algebra.Order.Floor.Ring
import Mathlib.Data.Rat.Floor

/-!
# Model of the single-objective genetic algorithm, random search and the evolution strategy

`pymoo/algorithms/soo/nonconvex/{ga,random_search,es}.py`. Individuals have an arbitrary type `ι`; `at'` gives `F` (one entry),
feasibility and violation (linearly ordered, no NaN).
-/

namespace Model

variable {ι α β : Type*} [LinearOrder α] [LinearOrder β]

/-- The order of `np.lexsort([F[:, 0], cv])`: violation first, then the objective. -/
def soLe (at' : Attrs ι α β 1) (x y : ι) : Prop := at'.cv x < at'.cv y ∨ (at'.cv x = at'.cv y ∧ at'.F x 0 ≤ at'.F y 0)

instance (at' : Attrs ι α β 1) (x y : ι) : Decidable (soLe at' x y) := by unfold soLe; infer_instance

/-- `S` of `ga.py:32`: `np.lexsort` is a stable sort of the indices. -/
def fitnessOrder (at' : Attrs ι α β 1) (pop : List ι) : List (Fin pop.length) :=
  (List.finRange pop.length).insertionSort fun i j => soLe at' (pop.get i) (pop.get j)

/-- `np.argsort(S)` for a vector of distinct indices. -/
def argsortNat (S : List ℕ) : List ℕ := (List.range S.length).insertionSort fun i j => S.getD i 0 ≤ S.getD j 0

/-- The attribute `rank` set by `ga.py:33`, in the order of the population. -/
def fitnessRank (at' : Attrs ι α β 1) (pop : List ι) : List ℕ := argsortNat ((fitnessOrder at' pop).map Fin.val)

/-- `ga.py:25-34` `FitnessSurvival`, called through `Survival.do` (`survival.py:24-98`, `filter_infeasible=False`):
`n_survive` is cut to the size of the population. -/
def fitnessSurvival (at' : Attrs ι α β 1) (nSurvive : Option ℕ) (pop : List ι) : List ι :=
  ((fitnessOrder at' pop).take (min (nSurvive.getD pop.length) pop.length)).map pop.get

/-- `genetic.py:116-133` `GeneticAlgorithm._advance` with `FitnessSurvival`; `off = none`: no infills. -/
def gaAdvance (at' : Attrs ι α β 1) (popSize : ℕ) (pop : List ι) (off : Option (List ι)) : List ι :=
  fitnessSurvival at' (some popSize) (pop ++ off.getD [])

/-- The population after a sequence of generations with the given offspring. -/
def gaRun (at' : Attrs ι α β 1) (popSize : ℕ) (pop : List ι) (offs : List (Option (List ι))) : List ι :=
  offs.foldl (gaAdvance at' popSize) pop

/-- `random_search.py:27-28` with `_set_optimum` (`algorithm.py:308-309`): population and optimum. `none` = exception. -/
def rsAdvance [Sub α] (pr : ∀ n, (Fin n → Fin 1 → α) → Fin n → ℕ) (at' : Attrs ι α β 1) (opt : Option (List ι)) (infills : List ι) :
    Option (Option (List ι)) :=
  filterOptimum pr at' true (some (match opt with | none => infills | some o => infills ++ o))

/-- Random search over a sequence of samples. -/
def rsRun [Sub α] (pr : ∀ n, (Fin n → Fin 1 → α) → Fin n → ℕ) (at' : Attrs ι α β 1) (batches : List (List ι)) : Option (Option (List ι)) :=
  batches.foldlM (fun opt b => rsAdvance pr at' opt b) none

/-! ### Evolution strategy -/

/-- Population and optimum of `ES`. -/
structure EsState (ι : Type*) where
  pop : List ι
  opt : Option (List ι)

/-- `es.py:135-137` `_set_optimum`. -/
def esSetOptimum [Sub α] (pr : ∀ n, (Fin n → Fin 1 → α) → Fin n → ℕ) (at' : Attrs ι α β 1) (s : EsState ι) : Option (EsState ι) :=
  (filterOptimum pr at' true (some (match s.opt with | none => s.pop | some o => o ++ s.pop))).map fun o => { s with opt := o }

/-- `es.py:127-133` `_advance`, followed by `_set_optimum`. -/
def esAdvance [Sub α] (pr : ∀ n, (Fin n → Fin 1 → α) → Fin n → ℕ) (at' : Attrs ι α β 1) (popSize : ℕ) (s : EsState ι) (infills : List ι) :
    Option (EsState ι) :=
  let inf := if infills.length < popSize then infills ++ s.pop else infills
  esSetOptimum pr at' { s with pop := fitnessSurvival at' (some popSize) inf }

/-- `genetic.py:82-91` with `advance_after_initial_infill=True`: the initial population is sorted, then the optimum is set. -/
def esInit [Sub α] (pr : ∀ n, (Fin n → Fin 1 → α) → Fin n → ℕ) (at' : Attrs ι α β 1) (infills : List ι) : Option (EsState ι) :=
  esSetOptimum pr at' { pop := fitnessSurvival at' (some infills.length) infills, opt := none }

/-- A run: initial sample and the offspring of every generation. -/
def esRun [Sub α] (pr : ∀ n, (Fin n → Fin 1 → α) → Fin n → ℕ) (at' : Attrs ι α β 1) (popSize : ℕ) (init : List ι) (offs : List (List ι)) :
    Option (EsState ι) :=
  (esInit pr at' init).bind fun s => offs.foldlM (fun s o => esAdvance pr at' popSize s o) s

/-- `es.py:46-57`: `(n_offsprings, pop_size)`; `none` = the assertion fails. -/
def esSizes (nOff popSize : Option ℕ) (rule : ℚ) : Option (ℕ × ℕ) :=
  let r : ℕ × ℕ :=
    match nOff, popSize with
    | none, none => (200, (⌈(200 : ℚ) * rule⌉).toNat)
    | some n, none => (n, (⌈(n : ℚ) * rule⌉).toNat)
    | none, some p => ((⌊(p : ℚ) / rule⌋).toNat, p)
    | some n, some p => (n, p)
  if 2 * r.2 ≤ r.1 then some r else none

section Operators
variable {K : Type*} [Field K] [LinearOrder K]

/-- `es.py:96` `np.arange(_lambda) % mu`: the parent of every offspring. -/
def esParents (lambda mu : ℕ) : List ℕ := (List.range lambda).map fun i => i % mu

/-- `es.py:101-108,140-156`, one entry: recombination with the drawn partner `s'`, the log-normal factor `e` (`np.exp(...)`), the upper limit. -/
def esSigma (sigmaMax s s' e : K) : K := min sigmaMax ((s + s') / 2 * e)

/-- `es.py:110-116`, one entry of offspring number `i`: `x` parent value, `x0` value of the best parent, `xn` value of parent `i + 1`,
`z` the normal draw; `gamma = none` switches off the differential variation. -/
def esMutate (gamma : Option K) (mu i : ℕ) (x x0 xn sigma z : K) : K :=
  match gamma with
  | none => x + sigma * z
  | some g => if i < mu - 1 then x + g * (x0 - xn) else x + sigma * z

/-- `es.py:113-116`: the `sigma` an offspring gets. -/
def esOffSigma (gamma : Option K) (mu i : ℕ) (sigmaParent sigmaNew : K) : K :=
  match gamma with
  | none => sigmaNew
  | some _ => if i < mu - 1 then sigmaParent else sigmaNew

/-- `es.py:159-184` `es_mut_repair`, one entry: `zs` are the normal draws it gets in the trials, in order (at most `n_trials` many).
The vectorised loop also ends early when all entries of the matrix are inside; then this entry is inside and gets no more draws. -/
def esRepair (x sigma xl xu : K) : List K → K → K
  | [], xp => if xp < xl ∨ xu < xp then x else xp
  | z :: zs, xp => if xp < xl ∨ xu < xp then esRepair x sigma xl xu zs (x + sigma * z) else xp

end Operators

end Model
