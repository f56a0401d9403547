import Mathlib.Data.Nat.Notation

/-!
# Specification: the ask-and-tell loop

A strategy is asked for points until it stops, is told their scores, and at the end of a run its mean is scored too.
-/

namespace Spec

variable {S X V : Type*}

/-- A search strategy. -/
structure Strategy (S X V : Type*) where
  /-- A new generation. -/
  ask : S → List X × S
  /-- The scores of a generation; `none`: the strategy fails. -/
  tell : S → List X → List V → Option S
  /-- Is the run over? -/
  stop : S → Bool
  /-- The final point of a run. -/
  mean : S → X
  /-- After the final point and its score: the next run, or `none` if there is none. -/
  finish : S → X → V → Option S

/-- The points to be scored next. -/
def Strategy.points (o : Strategy S X V) (s : S) : List X := if o.stop s then [o.mean s] else (o.ask s).1

/-- The strategy after they have been scored with `score`. -/
def Strategy.next (o : Strategy S X V) (score : X → V) (s : S) : Option S :=
  if o.stop s then o.finish s (o.mean s) (score (o.mean s)) else o.tell (o.ask s).2 (o.ask s).1 ((o.ask s).1.map score)

/-- All points scored in at most `n` rounds. -/
def Strategy.scored (o : Strategy S X V) (score : X → V) : ℕ → S → List X
  | 0, _ => []
  | n + 1, s => o.points s ++ match o.next score s with
    | none => []
    | some s' => o.scored score n s'

end Spec
