import Mathlib.Data.Nat.Digits.Defs
import Mathlib.Data.Rat.Floor
import Mathlib.Algebra.Order.Floor.Ring

/-!
# Model: the printed table and the progress bar (`pymoo/util/display/*.py`)

A text is a list of characters. What `'%.kE' % v` and `'%.kf' % v` print is modelled as the digits they print (the rounding of the value is theirs).
-/

namespace Model

abbrev Text := List Char

/-- `str.rjust(width)`. -/
def rjust (t : Text) (w : ℕ) : Text := List.replicate (w - t.length) ' ' ++ t

/-- `str.center(width)` of CPython: the odd blank is on the left if the width is odd. -/
def centerText (t : Text) (w : ℕ) : Text :=
  let pad := w - t.length
  let left := pad / 2 + (if pad % 2 = 1 ∧ w % 2 = 1 then 1 else 0)
  List.replicate left ' ' ++ t ++ List.replicate (pad - left) ' '

/-- The decimal digits of a number, most significant first. -/
def natText (n : ℕ) : Text := if n = 0 then ['0'] else (Nat.digits 10 n).reverse.map Nat.digitChar

/-- What `'%.kE'` prints: sign, leading digit, the digits after the point, exponent with at least two digits. -/
structure SciNum where
  neg : Bool
  lead : Char
  frac : Text
  expNeg : Bool
  expo : ℕ

def sciText (s : SciNum) : Text :=
  (if s.neg then ['-'] else []) ++ [s.lead] ++ (if s.frac = [] then [] else '.' :: s.frac) ++ ['E', if s.expNeg then '-' else '+'] ++
    (if s.expo < 10 then ['0'] else []) ++ natText s.expo

/-- What `'%.kf'` prints for a number of `[1e-5, 10)` (the rounded value may be `10`): the digits before and after the point. -/
def fixText (int : ℕ) (frac : Text) : Text := natText int ++ (if frac = [] then [] else '.' :: frac)

/-- The values of a column: nothing, an integer, a number in one of the two forms of `number_to_text` (column.py:33-37), or some other object with its
`str`. -/
inductive Cell
  | none
  | int (n : ℕ)
  | sci (s : SciNum)
  | fix (int : ℕ) (frac : Text)
  | other (t : Text)

def cellText : Cell → Text
  | .none => ['-']
  | .int n => natText n
  | .sci s => sciText s
  | .fix i f => fixText i f
  | .other t => t

/-- A `Column` (column.py:6-30). -/
structure DispCol where
  name : Text
  width : ℕ
  truncate : Bool
  value : Cell

/-- column.py:40-52 `format_text(value, width, truncate)`. -/
def formatText (t : Text) (width : ℕ) (truncate : Bool) : Text := rjust (if truncate ∧ t.length > width then t.take width else t) width

/-- column.py:22-27 `Column.text()`. -/
def DispCol.text (c : DispCol) : Text := formatText (cellText c.value) c.width c.truncate

/-- `" | ".join(["{}"] * n).format(*parts)` (output.py:80-81, 95-96). -/
def joinBar : List Text → Text
  | [] => []
  | [t] => t
  | t :: rest => t ++ [' ', '|', ' '] ++ joinBar rest

/-- output.py:71-87 `Output.header(border=True)` as its lines. -/
def outHeader (cols : List DispCol) : List Text :=
  let h := joinBar (cols.map fun c => centerText c.name c.width)
  let line := List.replicate h.length '='
  [line, h, line]

/-- output.py:89-96 `Output.text()`. -/
def outText (cols : List DispCol) : Text := joinBar (cols.map DispCol.text)

/-- display.py:18-40 `Display.update` for `verbose=True`: the lines printed in one iteration; `first` is `not output.is_initialized`. -/
def displayLines (first : Bool) (cols : List DispCol) : List Text := (if first then outHeader cols else []) ++ [outText cols]

/-- The lines printed in a run: `rows` are the columns of the successive iterations. -/
def displayRun : List (List DispCol) → List Text
  | [] => []
  | r :: rs => displayLines true r ++ (rs.map (displayLines false)).flatten

/-! ### The rows of single-objective runs (`single.py`) -/

section Single
variable {K : Type*} [Field K] [LinearOrder K]

/-- What `SingleObjectiveOutput` reads: the objective, `cv` and `feas` of the population and of `opt[0]`, `None` for a Pareto front that is not known. -/
structure SoInd (K : Type*) where
  f : K
  cv : K
  feas : Bool

/-- The values of the columns of `SingleObjectiveOutput`. -/
structure SoRow (K : Type*) where
  cvMin : Option K
  cvAvg : Option K
  fAvg : Option K
  fMin : Option K
  fGap : Option K

/-- single.py:39-94: `update`; `prev` holds the values of the previous iteration (`f_gap` is not set without a known optimum). `cv_min` is over `opt`. -/
def soUpdate (constrained : Bool) (best : Option K) (prev : SoRow K) (pop : List (SoInd K)) (opt : SoInd K) (optCvs : List K) : SoRow K :=
  let feas := pop.filter (·.feas)
  let r : SoRow K := { prev with
    cvMin := if constrained then optCvs.min? else prev.cvMin
    cvAvg := if constrained then some ((pop.map (·.cv)).sum / pop.length) else prev.cvAvg
    fAvg := if feas.length > 0 then some ((feas.map (·.f)).sum / feas.length) else none }
  if opt.feas then
    { r with fMin := some opt.f, fGap := match best with
      | none => r.fGap
      | some b => some (opt.f - b) }
  else { r with fMin := none, fGap := none }

end Single

/-! ### The progress bar (`progress.py`) -/

/-- progress.py:35-50 `ProgressBar.set(value)`: the new `_max` and the value shown. -/
def progressSet (nonDecreasing : Bool) (mx value : ℚ) : ℚ × ℚ :=
  let mx' := if nonDecreasing then max mx value else mx
  let value := if nonDecreasing then mx' else value
  (mx', (⌊value * 100⌋ : ℚ) / 100)

/-- The values shown for a sequence of calls. -/
def progressRun (nonDecreasing : Bool) : ℚ → List ℚ → List ℚ
  | _, [] => []
  | mx, v :: vs => (progressSet nonDecreasing mx v).2 :: progressRun nonDecreasing (progressSet nonDecreasing mx v).1 vs

end Model
