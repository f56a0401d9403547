import Mathlib.Algebra.Order.Field.Basic
import Mathlib.Data.List.Basic
import Mathlib.Order.WithBot

/-!
# Model of `pymoo/core/termination.py`, `pymoo/termination/*` and `pymoo/util/sliding_window.py`

Numbers are elements of an ordered field `K`. `none` models a raised exception.
-/

namespace Model

/-! ## Sliding window -/

/-- `util/sliding_window.py:29-31`: `while len(self) > self.size: self.pop(0)`. -/
def swTrim {α : Type*} (size : ℕ) : List α → List α
  | [] => []
  | x :: xs => if (x :: xs).length > size then swTrim size xs else x :: xs

/-- `util/sliding_window.py:21-31` `SlidingWindow.append`. -/
def swAppend {α : Type*} (size : Option ℕ) (w : List α) (e : α) : List α :=
  match size with
  | none => w ++ [e]
  | some n => swTrim n (w ++ [e])

/-- `util/sliding_window.py:33-39` `is_full`: `self.size == len(self)` (`None == k` is false). -/
def swIsFull {α : Type*} (size : Option ℕ) (w : List α) : Bool :=
  match size with
  | none => false
  | some n => n == w.length

/-! ## Termination objects -/

/-- A tree of termination objects: `prim` is a criterion with its own state `S`, `any` is `TerminateIfAny`,
`TerminationCollection` (`termination/collection.py`) or `DefaultTermination` (`termination/default.py:15-30`), `all`
is `TerminateIfAll`, `robust` is `RobustTermination` with its window. `force`/`perc` are the attributes of the base
class (`core/termination.py:9-13`). -/
inductive Crit (S K : Type*) where
  | prim (force : Bool) (perc : K) (s : S)
  | any (force : Bool) (perc : K) (cs : List (Crit S K))
  | all (force : Bool) (perc : K) (cs : List (Crit S K))
  | robust (force : Bool) (perc : K) (size : Option ℕ) (hist : List K) (c : Crit S K)

namespace Crit
variable {S K A : Type*}

/-- The attribute `perc`. -/
def perc : Crit S K → K
  | prim _ p _ => p
  | any _ p _ => p
  | all _ p _ => p
  | robust _ p _ _ _ => p

/-- The attribute `force_termination`. -/
def force : Crit S K → Bool
  | prim f _ _ => f
  | any f _ _ => f
  | all f _ _ => f
  | robust f _ _ _ _ => f

/-- `core/termination.py:41-43` `terminate()`. -/
def terminate : Crit S K → Crit S K
  | prim _ p s => prim true p s
  | any _ p cs => any true p cs
  | all _ p cs => all true p cs
  | robust _ p n h c => robust true p n h c

variable [Field K] [LinearOrder K]

/-- `core/termination.py:33-35` `has_terminated()`. -/
def hasTerminated (c : Crit S K) : Bool := decide (1 ≤ c.perc)

/-- Python's `max(list)`; `none` is the `ValueError` of an empty list. -/
def pyMax : List K → Option K
  | [] => none
  | x :: xs => some (xs.foldl (fun m y => if m < y then y else m) x)

/-- Python's `min(list)`. -/
def pyMin : List K → Option K
  | [] => none
  | x :: xs => some (xs.foldl (fun m y => if y < m then y else m) x)

mutual
/-- `core/termination.py:15-31` `update`, with the `_update` of the combinators: `core/termination.py:71-84`,
`termination/collection.py:11-12`, `termination/default.py:27-30`, `termination/robust.py:24-27`. `raw s perc a` is
the `_update` of a primitive criterion: its progress and new state, `none` if it raises. -/
def update (raw : S → K → A → Option (K × S)) (a : A) : Crit S K → Option (Crit S K)
  | prim force perc s =>
    if force then some (prim force 1 s)
    else
      match raw s perc a with
      | none => none
      | some (p, s') => if 0 ≤ p then some (prim force p s') else none
  | any force _ cs =>
    if force then some (any force 1 cs)
    else
      match updateAll raw a cs with
      | none => none
      | some cs' =>
        match pyMax (cs'.map perc) with
        | none => none
        | some p => if 0 ≤ p then some (any force p cs') else none
  | all force _ cs =>
    if force then some (all force 1 cs)
    else
      match updateAll raw a cs with
      | none => none
      | some cs' =>
        match pyMin (cs'.map perc) with
        | none => none
        | some p => if 0 ≤ p then some (all force p cs') else none
  | robust force _ size hist c =>
    if force then some (robust force 1 size hist c)
    else
      match update raw a c with
      | none => none
      | some c' =>
        match pyMin (swAppend size hist c'.perc) with
        | none => none
        | some p => if 0 ≤ p then some (robust force p size (swAppend size hist c'.perc) c') else none

/-- The list comprehension `[termination.update(algorithm) for termination in self.criteria]`. -/
def updateAll (raw : S → K → A → Option (K × S)) (a : A) : List (Crit S K) → Option (List (Crit S K))
  | [] => some []
  | c :: cs =>
    match update raw a c with
    | none => none
    | some c' =>
      match updateAll raw a cs with
      | none => none
      | some cs' => some (c' :: cs')
end

/-- A sequence of `update` calls with the algorithm in the given states. -/
def updates (raw : S → K → A → Option (K × S)) : List A → Crit S K → Option (Crit S K)
  | [], c => some c
  | a :: as, c =>
    match update raw a c with
    | none => none
    | some c' => updates raw as c'

end Crit

/-! ## Primitive criteria -/

/-- A limit given by the user: `None`, `float("inf")` or a number. -/
inductive Limit | none | inf | fin (n : ℕ)

section Prim
variable {K : Type*} [Field K] [LinearOrder K]

/-- `termination/max_gen.py:11-15` and `termination/max_eval.py:11-15`: `counter / limit`; a limit of 0 raises
`ZeroDivisionError`. -/
def limitProgress (counter : ℕ) : Limit → Option K
  | .none => some 0
  | .inf => some 0
  | .fin 0 => Option.none
  | .fin (n + 1) => some ((counter : K) / ((n + 1 : ℕ) : K))

/-- `termination/max_time.py:19-21`; a maximum time of 0 raises. -/
def timeProgress (elapsed maxTime : K) : Option K := if maxTime = 0 then none else some (elapsed / maxTime)

/-- `termination/fmin.py:11-17`. `best` is `opt.get("F").min()`. Division by a zero numpy value gives an infinity
(of the sign of `fmin`) or NaN: positive infinity terminates, modelled by progress 1; a negative infinity and NaN fail
the assertion in `update`, modelled by `none`. -/
def fminProgress (target : K) (anyFeasible : Bool) (best : K) : Option K :=
  if anyFeasible = false then some 0
  else if best = 0 then (if 0 < target then some 1 else none)
  else some (target / best)

/-- `termination/cv.py:39-48` `UntilFeasibleTermination._update`; the state is `initial_cv`. -/
def untilFeasible (tiny : K) (initial : Option K) (cv : K) : K × Option K :=
  match initial with
  | none => if cv ≤ 0 then (1 - cv / tiny, some tiny) else (1 - cv / cv, some cv)
  | some c0 => (1 - cv / c0, some c0)

/-- State of `termination/delta.py:8-24` `DeltaToleranceTermination`. -/
structure DeltaState (D K : Type*) where
  tol : K
  data : Option D
  counter : ℕ
  nSkip : ℕ

/-- `termination/delta.py:25-56` `_update`: `perc` is `self.perc` before the call, `current` is `self._data(...)`, and
`delta` is `self._delta` with `⊤` for `np.inf` (`1 / (1 + inf) = 0`). -/
def deltaUpdate {D : Type*} (delta : D → D → WithTop K) (s : DeltaState D K) (perc : K) (current : D) :
    K × DeltaState D K :=
  match s.data with
  | none => (0, { s with data := some current, counter := s.counter + 1 })
  | some prev =>
    if s.counter > 0 ∧ s.counter % (s.nSkip + 1) ≠ 0 then
      (perc, { s with data := some current, counter := s.counter + 1 })
    else
      match delta prev current with
      | ⊤ => (0, { s with data := some current, counter := s.counter + 1 })
      | (d : K) =>
        if d ≤ s.tol then (1, s)
        else (1 / (1 + (d - s.tol)), { s with data := some current, counter := s.counter + 1 })

end Prim

end Model
