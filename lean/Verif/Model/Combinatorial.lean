import Mathlib.Analysis.Real.Sqrt
import Mathlib.Algebra.BigOperators.Group.List.Basic
import Verif.Model.Problem

/-!
# Model: combinatorial problems (pymoo/problems/single/{flowshop_scheduling,traveling_salesman,knapsack}.py)

`none` = an exception. A matrix is the list of its rows. Decision variables are natural numbers: negative indices, which Python
counts from the end, are not modelled. Arithmetic is exact.
-/

namespace Model

variable {α : Type*}

/-- `M[i][k]` (out of range raises). -/
def matAt (M : List (List α)) (i k : ℕ) : Option α := M[i]?.bind fun row => row[k]?

section Flowshop

variable [AddCommGroup α] [LinearOrder α]

/-- flowshop_scheduling.py 59-63: the first job `k`; the start times on the machines (column 0 of `machine_times`). -/
def fsFirst (R : List (List α)) (k : ℕ) : Option (List α) :=
  (List.range (R.length - 1)).foldlM (fun (col : List α) (i : ℕ) =>
    col[i]?.bind fun t => (matAt R i k).map fun p => col ++ [t + p]) [0]

/-- flowshop_scheduling.py 67-80: the start times of job `k` after job `kp`, whose start times are `prev`. -/
def fsNext (R : List (List α)) (kp k : ℕ) (prev : List α) : Option (List α) :=
  prev[0]?.bind fun t0 => (matAt R 0 kp).bind fun p0 =>
    (List.range (R.length - 1)).foldlM (fun (col : List α) (i : ℕ) =>
      prev[i + 1]?.bind fun a => (matAt R (i + 1) kp).bind fun pa =>
        col[i]?.bind fun b => (matAt R i k).map fun pb => col ++ [max (a + pa) (b + pb)]) [t0 + p0]

/-- flowshop_scheduling.py 44-81 `get_machine_times(x)`, stored by jobs: entry `j` is the list of `machine_times[i][j]`, `i` over the
machines. `n_jobs` is the number of columns of the matrix. (`x[0]` is looked up also if there is only one machine.) -/
def machineTimes (R : List (List α)) (nJobs : ℕ) (x : List ℕ) : Option (List (List α)) :=
  if R.length = 0 then none else
  x[0]?.bind fun k0 => (fsFirst R k0).bind fun c0 =>
    (List.range (nJobs - 1)).foldlM (fun (cols : List (List α)) (j : ℕ) =>
      x[j]?.bind fun kp => x[j + 1]?.bind fun k => cols[j]?.bind fun prev => (fsNext R kp k prev).map fun c => cols ++ [c]) [c0]

/-- flowshop_scheduling.py 28-42 `makespan(x)`. -/
def makespan (R : List (List α)) (nJobs : ℕ) (x : List ℕ) : Option α :=
  (machineTimes R nJobs x).bind fun cols => cols.getLast?.bind fun col => col.getLast?.bind fun t =>
    x.getLast?.bind fun k => (matAt R (R.length - 1) k).map fun p => t + p

/-- flowshop_scheduling.py 20-23: the bounds `xl`, `xu` of every variable. -/
def flowshopBounds (nMachines _nJobs : ℕ) : ℕ × ℕ := (0, nMachines)

end Flowshop

section TSP

variable [AddCommGroup α]

/-- traveling_salesman.py 30-39 `get_route_length(x)`. -/
def routeLength (D : List (List α)) (x : List ℕ) : Option α :=
  ((List.range (x.length - 1)).foldlM (fun (dist : α) (k : ℕ) =>
    x[k]?.bind fun i => x[k + 1]?.bind fun j => (matAt D i j).map fun d => dist + d) 0).bind fun dist =>
  x.getLast?.bind fun last => x[0]?.bind fun first => (matAt D last first).map fun d => dist + d

/-- `cdist(cities, cities)` (traveling_salesman.py 23). -/
noncomputable def cdist2 (cities : List (ℝ × ℝ)) : List (List ℝ) :=
  cities.map fun a => cities.map fun b => √((a.1 - b.1) ^ 2 + (a.2 - b.2) ^ 2)

/-- traveling_salesman.py 25: the bounds `xl`, `xu` of every variable. -/
def tspBounds (nCities : ℕ) : ℕ × ℕ := (0, nCities)

end TSP

section Knapsack

variable [CommRing α]

/-- A boolean as a number. -/
def boolVal (b : Bool) : α := if b then 1 else 0

/-- `np.sum(self.P * x, axis=1)` for one row. -/
def knapSum (P : List α) (x : List Bool) : α := (List.zipWith (fun p b => p * boolVal b) P x).sum

/-- knapsack.py 23-25 `Knapsack._evaluate`: `F` and `G` of all rows (as numpy arrays). -/
def knapEval (W P : List α) (C : α) : UserEval (List Bool) α :=
  .vectorized fun xs => [(.F, .arr ⟨[xs.length], xs.map fun x => -knapSum P x⟩), (.G, .arr ⟨[xs.length], xs.map fun x => knapSum W x - C⟩)]

/-- knapsack.py 32-37 `MultiObjectiveKnapsack._evaluate`. -/
def knapMultiEval (W P : List α) (C : α) : UserEval (List Bool) α :=
  .vectorized fun xs =>
    [(.F, .arr ⟨[xs.length, 2], xs.flatMap fun x => [-knapSum P x, (x.map boolVal).sum]⟩),
     (.G, .arr ⟨[xs.length], xs.map fun x => knapSum W x - C⟩)]

/-- knapsack.py 17 (inherited by `MultiObjectiveKnapsack`, 28-30): one objective, one inequality constraint. -/
def knapCfg (nItems : ℕ) : ProbCfg α := ⟨nItems, 1, 1, 0, none⟩

/-- knapsack.py 44: `C = int(np.sum(W) / 10)` of a random problem (positive integers). -/
def knapCapacity (W : List ℕ) : ℕ := W.sum / 10

end Knapsack

end Model
