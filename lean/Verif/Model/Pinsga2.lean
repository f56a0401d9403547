import Verif.Model.NonDominatedSorting
import Mathlib.Algebra.BigOperators.Fin
import Mathlib.Algebra.Order.Field.Basic
import Mathlib.Data.List.Sort
import Mathlib.Data.List.Dedup

/-!
# Model of PINSGA-II

`pymoo/algorithms/moo/pinsga2.py` (the questions to the decision maker and what is done with the answers), `pymoo/util/vf_dominator.py` (the
domination matrix of the environmental selection) and `pymoo/util/value_functions.py` (the constraints of the fit and the two value functions).
The optimiser that fits a value function (scipy or ES) is an argument. Values of a value function are larger for better solutions; objectives are
negated before they are handed to it.
-/

namespace Model

/-! ### Asking the decision maker -/

/-- The three valid answers (`pinsga2.py:166-175`; invalid ones are asked again): the new solution is better, the other one is better, equivalent. -/
inductive Pref where
  | a | b | c
  deriving DecidableEq

/-- `pinsga2.py:162-191`: one solution `i` is compared with the first member of each group until it is better or equivalent. -/
def pwInsert (dm : ℕ → ℕ → Pref) (i : ℕ) : List (List ℕ) → List (List ℕ)
  | [] => [[i]]
  | g :: gs =>
    if dm i (g.headD 0) = Pref.a then [i] :: g :: gs
    else if dm i (g.headD 0) = Pref.c then (g ++ [i]) :: gs
    else g :: pwInsert dm i gs

/-- `pinsga2.py:154-191`: the groups of equivalent solutions, best first. -/
def pwGroups (dm : ℕ → ℕ → Pref) (n : ℕ) : List (List ℕ) := (List.range n).foldl (fun gs i => pwInsert dm i gs) []

/-- `pinsga2.py:193-199`: `ranks[index] = rank` for the members of each group, plus one. -/
def pwRank (groups : List (List ℕ)) (i : ℕ) : ℕ :=
  groups.zipIdx.foldl (fun (r : ℕ → ℕ) (gk : List ℕ × ℕ) => fun j => if j ∈ gk.1 then gk.2 else r j) (fun _ => 0) i + 1

/-- `pinsga2.py:141-199` `_get_pairwise_ranks`. -/
def pairwiseRanks (dm : ℕ → ℕ → Pref) (n : ℕ) : List ℕ := (List.range n).map (pwRank (pwGroups dm n))

/-- `pinsga2.py:201-223` `_get_ranks`: which ranks typed in by the user are accepted for `n` solutions. -/
def ranksAccepted (n : ℕ) (ranks : List ℕ) : Bool := decide (0 < ranks.length) && ranks.all fun r => decide (r ≤ n) && decide (1 ≤ r)

/-! ### Value functions -/

section Vf
variable {K : Type*} [Field K] [LinearOrder K] {m : ℕ}

/-- `value_functions.py:265-267` `linear_vf`. -/
def linearVf (x : Fin m → K) (P : Fin m → K) : K := ∑ j, P j * x j

/-- `value_functions.py:533-551` `_calc_S`: column `c` of the (transposed) coefficient matrix is rolled down by `c`. -/
def polyS (x : ℕ → K) (P : Fin m → K) (c : Fin m) : K :=
  ∑ r : Fin m, P r * x (c * m + (r + m - c) % m) + x (m * m + c) * 2

/-- `value_functions.py:270-294` `poly_vf` for one row of parameters and at least two objectives (`np.squeeze` drops the axis of a single one). -/
def polyVf (x : ℕ → K) (P : Fin m → K) : K := ∏ c : Fin m, polyS x P c

/-- `value_functions.py:420-429, 499-508`: the constraints for consecutive solutions in the order of their ranks (also lines 471-484, a whole population). -/
def vfGaps (delta ep : K) : List (K × ℕ) → List K
  | [] => []
  | [_] => []
  | a :: b :: l => (if a.2 = b.2 then |a.1 - b.1| - delta * ep else -(a.1 - b.1) + ep) :: vfGaps delta ep (b :: l)

/-- `value_functions.py:524-529` `_sort_P` and `ranks.sort()`: `order` is `argsort` of the ranks. -/
def vfSorted (val : (Fin m → K) → K) (order : List ℕ) (P : List (Fin m → K)) (ranks : List ℕ) : List (K × ℕ) :=
  ((order.filterMap fun i => P[i]?).map val).zip (ranks.insertionSort (· ≤ ·))

/-- `value_functions.py:638-668` `_validate_vf`: all inequality constraints hold and epsilon is not negative. (For a result of pymoo the equality
constraints are not looked at.) -/
def vfAccepted (G : List K) (ep : K) : Bool := !(decide (ep < 0) || !(G.all fun g => decide (g ≤ 0)))

/-- `value_functions.py:555-562`: the equality constraint of the linear value function. -/
def linearEq (x : Fin m → K) : K := (∑ j, x j) - 1

/-- `value_functions.py:347-369` `_eq_constr_poly`: one constraint for each objective. -/
def polyEq (x : ℕ → K) (c : Fin m) : K := -((∑ t : Fin m, x (c * m + t)) - 1)

/-- `value_functions.py:399-431` `_ineq_constr_1D_poly`: the factors at the presented solutions are not negative, and the gaps. -/
def polyG (x : ℕ → K) (delta ep : K) (order : List ℕ) (P : List (Fin m → K)) (ranks : List ℕ) : List K :=
  ((order.filterMap fun i => P[i]?).flatMap fun p => (List.finRange m).map fun c => polyS x p c * -1) ++
    vfGaps delta ep (vfSorted (polyVf x) order P ranks)

/-! ### The domination matrix -/

/-- `vf_dominator.py:53-98` `calc_domination_matrix`; `pref` are the value function and the value `v2`. -/
def vfMatrix {n k : ℕ} (pref : Option (((Fin m → K) → K) × K)) (F : Fin n → Fin m → K) (F' : Fin k → Fin m → K) (eps : K) (i : Fin n) (j : Fin k) : ℤ :=
  let smaller := (List.finRange m).any fun c => decide (F i c + eps < F' j c)
  let larger := (List.finRange m).any fun c => decide (F i c > F' j c + eps)
  let nonDom := smaller && !larger
  let dom := larger && !smaller
  let split := pref.any fun p => decide (p.1 (fun c => F i c * -1) < p.2) && decide (p.1 (fun c => F' j c * -1) > p.2)
  (if nonDom then 1 else 0) * 1 + (if dom || split then 1 else 0) * -1

end Vf

/-! ### The interactive step -/

/-- What the loop of `pinsga2.py:308-357` ends with: a value function, the solutions and ranks it was fitted to and the solution that gives `v2`; or
the reset of the preference. -/
inductive PinOutcome (V P : Type*) where
  | fitted (vf : V) (pts : List P) (ranks : List ℕ) (second : P)
  | reset
  | nothing
  deriving DecidableEq

/-- `pinsga2.py:308-357`: fit; if that fails and there are more than two solutions, remove "the second best" and try again. `none` = `IndexError`.
Every round removes a solution, so `fuel = len(eta_F)` rounds are enough. -/
def pinFit {V P : Type*} (fit : List P → List ℕ → Option V) : ℕ → List P → List ℕ → Option (PinOutcome V P)
  | 0, _, _ => some .nothing
  | fuel + 1, pts, ranks =>
    if pts.length ≤ 1 then some .nothing
    else
      (fit pts ranks).elim
        (if pts.length = 2 then some .reset
          else ranks[1]?.bind fun r =>
            if r - 1 < pts.length then
              pinFit fit fuel (pts.eraseIdx (r - 1)) ((ranks.eraseIdx 1).map fun s => if s > r then s - 1 else s)
            else none)
        fun vf => ranks[1]?.bind fun r => pts[r - 1]?.map fun s => .fitted vf pts ranks s

/-- The attributes `pop`, `prev_pop`, `vf_res` (with the solution behind `v2`). -/
structure PinState (Pop V P : Type*) where
  pop : Pop
  prevPop : Option Pop
  pref : Option (V × P)
  deriving DecidableEq

/-- `pinsga2.py:225-234` `_reset_dm_preference`: the stored population becomes the current one. -/
def pinReset {Pop V P : Type*} (st : PinState Pop V P) : PinState Pop V P :=
  { pop := st.prevPop.getD st.pop, prevPop := st.prevPop, pref := none }

/-- `pinsga2.py:236-357` `_advance`: `newPop` is the population after `super()._advance`, `shown` the solutions to show (lines 251-263), `popRanks` the
attribute `rank` of the population, `ask` the answers as ranks (lines 281-297). `none` = an exception. -/
def pinAdvance {Pop V P : Type*} (fit : List P → List ℕ → Option V) (ask : List P → List ℕ) (tau nGen : ℕ) (newPop : Pop) (popRanks : List ℕ)
    (shown : List P) (st : PinState Pop V P) : Option (PinState Pop V P) :=
  let st1 : PinState Pop V P := { pop := newPop, prevPop := some newPop, pref := st.pref }
  if nGen % tau = 0 then
    if shown.length < 2 then some (pinReset st1)
    else if popRanks.dedup.length = 0 then some (pinReset st1)
    else (pinFit fit shown.length shown (ask shown)).map fun out =>
      match out with
      | .fitted vf _ _ s => { st1 with pref := some (vf, s) }
      | .reset => pinReset st1
      | .nothing => st1
  else some st1

end Model
