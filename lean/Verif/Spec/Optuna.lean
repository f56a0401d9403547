import Verif.Model.Optuna

/-! # What a user expects of the Optuna wrapper -/

namespace Spec
open Model

/-- A value lies in the domain of a variable. -/
def InDomain : OVar → OVal → Prop
  | .real lo hi, .real v => lo ≤ v ∧ v ≤ hi
  | .int lo hi, .int v => lo ≤ v ∧ v ≤ hi
  | .choice o, .str v => v ∈ o
  | .binary, .bool _ => True
  | _, _ => False

/-- Optuna's contract: a suggestion lies in the range or list that was asked for. -/
def Suggests : OSugg → OVal → Prop
  | .float lo hi, .real v => lo ≤ v ∧ v ≤ hi
  | .int lo hi, .int v => lo ≤ v ∧ v ≤ hi
  | .cat o, v => v ∈ o
  | _, _ => False

/-- In a session, every `tell` comes directly after the `ask` of the same individual, or later, but before the next `ask`: nobody asks for the next point before the last one was told. -/
def InTurn : ℕ → List OOp → Prop
  | _, [] => True
  | k, .ask :: rest => InTurn (k + 1) rest
  | k, .tell j :: rest => j + 1 = k ∧ InTurn k rest

end Spec
