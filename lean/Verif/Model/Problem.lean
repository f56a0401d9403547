import Mathlib.Data.List.Basic
import Mathlib.Algebra.BigOperators.Group.List.Basic

/-!
# Model of `pymoo/core/problem.py`: evaluation of a problem

An array is its shape and its entries in row-major order. The entries are of an arbitrary type `V` that has an infinity and a
test for NaN. `none` = an exception. The conversion to `float64` (`problem.py:208-211`) is the identity here, and the warnings
are left out.
-/

namespace Model

/-- A numpy array: shape and entries in row-major order. -/
structure NArr (V : Type*) where
  shape : List ℕ
  data : List V
  deriving DecidableEq

/-- The number of entries fits the shape. -/
def NArr.WF {V : Type*} (a : NArr V) : Prop := a.data.length = a.shape.prod

/-- `a[i]` (the entries; for `i` in range). -/
def NArr.row {V : Type*} (a : NArr V) (i : ℕ) : List V := (a.data.drop (i * a.shape.tail.prod)).take a.shape.tail.prod

/-- `a.reshape(s)`. -/
def NArr.reshape {V : Type*} (a : NArr V) (s : List ℕ) : Option (NArr V) := if a.data.length = s.prod then some ⟨s, a.data⟩ else none

/-- `np.array(l)` of a list of arrays; different shapes raise. -/
def NArr.stack {V : Type*} (l : List (NArr V)) : Option (NArr V) :=
  match l with
  | [] => some ⟨[0], []⟩
  | a :: rest => if rest.all (fun b => b.shape == a.shape) then some ⟨l.length :: a.shape, l.flatMap NArr.data⟩ else none

/-- A column for `np.column_stack`: arrays with less than two dimensions become columns. -/
def NArr.asColumn {V : Type*} (a : NArr V) : NArr V :=
  match a.shape with
  | [] => ⟨[1, 1], a.data⟩
  | [n] => ⟨[n, 1], a.data⟩
  | _ => a

/-- `np.column_stack(l)`: concatenation along the second axis. -/
def NArr.columnStack {V : Type*} (l : List (NArr V)) : Option (NArr V) :=
  match l.map NArr.asColumn with
  | [] => none
  | a :: rest =>
    if rest.all (fun b => b.shape.head? == a.shape.head? && b.shape.drop 2 == a.shape.drop 2) then
      let n := a.shape.headD 0
      some ⟨n :: ((a :: rest).map fun b => b.shape.tail.headD 0).sum :: a.shape.drop 2,
        (List.range n).flatMap fun i => (a :: rest).flatMap fun b => b.row i⟩
    else none

/-- The names of output values. -/
inductive OutKey
  | F | G | H | dF | dG | dH
  | other (name : String)
  deriving DecidableEq

/-- `d.get(k)`. -/
def kGet {β : Type*} : List (OutKey × β) → OutKey → Option β
  | [], _ => none
  | (a, v) :: l, k => if a = k then some v else kGet l k

/-- `d[k] = v`. -/
def kSet {β : Type*} : List (OutKey × β) → OutKey → β → List (OutKey × β)
  | [], k, v => [(k, v)]
  | (a, w) :: l, k, v => if a = k then (a, v) :: l else (a, w) :: kSet l k v

/-- The part of a `Problem` used here. -/
structure ProbCfg (V : Type*) where
  nVar : ℕ
  nObj : ℕ
  nIeq : ℕ
  nEq : ℕ
  replaceNan : Option V

/-- `problem.py:392-402` `default_shape(problem, n)`. -/
def defaultShape {V : Type*} (p : ProbCfg V) (n : ℕ) : OutKey → Option (List ℕ)
  | .F => some [n, p.nObj]
  | .G => some [n, p.nIeq]
  | .H => some [n, p.nEq]
  | .dF => some [n, p.nObj, p.nVar]
  | .dG => some [n, p.nIeq, p.nVar]
  | .dH => some [n, p.nEq, p.nVar]
  | .other _ => none

/-- A value set by the user: an array, or a list of arrays. -/
inductive UVal (V : Type*)
  | arr (a : NArr V)
  | list (l : List (NArr V))

/-- `np.array(v)`. -/
def UVal.toArr {V : Type*} : UVal V → Option (NArr V)
  | .arr a => some a
  | .list l => NArr.stack l

/-- `problem.py:278-295`: one value of `out`. -/
def formatValue {V : Type*} (p : ProbCfg V) (N : ℕ) (k : OutKey) (v : UVal V) : Option (UVal V) :=
  match defaultShape p N k with
  | none => some v
  | some s =>
    match v with
    | .arr a => (a.reshape s).map .arr
    | .list l => (NArr.columnStack l).bind fun a => (a.reshape s).map .arr

/-- `problem.py:276-295`: the loop over `out`; values that are `None` are left out. -/
def formatSet {V : Type*} (p : ProbCfg V) (N : ℕ) : List (OutKey × Option (UVal V)) → Option (List (OutKey × UVal V))
  | [] => some []
  | (_, none) :: rest => formatSet p N rest
  | (k, some v) :: rest => (formatValue p N k v).bind fun v' => (formatSet p N rest).map fun r => (k, v') :: r

/-- `problem.py:297-310`: values that have not been set are infinite. -/
def formatMissing {V : Type*} (p : ProbCfg V) (inf : V) (N : ℕ) : List OutKey → List (OutKey × UVal V) → List (OutKey × UVal V)
  | [], ret => ret
  | k :: ks, ret =>
    match kGet ret k with
    | some _ => formatMissing p inf N ks ret
    | none =>
      let s := (defaultShape p N k).getD [N]
      formatMissing p inf N ks (kSet ret k (.arr ⟨s, List.replicate s.prod inf⟩))

/-- `problem.py:267-312` `_format_dict(out, N, return_values_of)`. -/
def formatDict {V : Type*} (p : ProbCfg V) (inf : V) (N : ℕ) (out : List (OutKey × Option (UVal V))) (ret : List OutKey) :
    Option (List (OutKey × UVal V)) :=
  (formatSet p N out).map fun r => formatMissing p inf N ret r

/-- `problem.py:228` the dictionary `{name: None for name in return_values_of}`. -/
def emptyOut {β : Type*} (ret : List OutKey) : List (OutKey × Option β) := ret.foldl (fun d k => kSet d k none) []

/-- `problem.py:252-260`: the values of one evaluation are appended. -/
def appendElem {V : Type*} (out : List (OutKey × Option (List (NArr V)))) (elem : List (OutKey × NArr V)) :
    List (OutKey × Option (List (NArr V))) :=
  elem.foldl (fun o e => kSet o e.1 (some (((kGet o e.1).join).getD [] ++ [e.2]))) out

/-- `problem.py:262-265`: conversion to arrays. -/
def stackOut {V : Type*} : List (OutKey × Option (List (NArr V))) → Option (List (OutKey × Option (UVal V)))
  | [] => some []
  | (k, none) :: rest => (stackOut rest).map fun r => (k, none) :: r
  | (k, some l) :: rest => (NArr.stack l).bind fun a => (stackOut rest).map fun r => (k, some (.arr a)) :: r

/-- `problem.py:244-265` `_evaluate_elementwise`: `elems` is the list returned by the runner. -/
def evalElementwise {V : Type*} (ret : List OutKey) (elems : List (List (OutKey × NArr V))) : Option (List (OutKey × Option (UVal V))) :=
  stackOut (elems.foldl appendElem (emptyOut ret))

/-- `problem.py:241-242` `_evaluate_vectorized`: the values set by the user override the initial `None`. -/
def evalVectorized {V : Type*} (ret : List OutKey) (set : List (OutKey × UVal V)) : List (OutKey × Option (UVal V)) :=
  set.foldl (fun d e => kSet d e.1 (some e.2)) (emptyOut ret)

/-- The evaluation function of the user: for one point or for all points. -/
inductive UserEval (X V : Type*)
  | elementwise (f : X → List (OutKey × NArr V))
  | vectorized (f : List X → List (OutKey × UVal V))

/-- The runner (`LoopedElementwiseEvaluation`, `problem.py:14-18`, and the runners of `pymoo/parallelization`): by the contract of
`starmap`, `joblib.Parallel`, dask and ray the results come in the order of the points, whatever the schedule. -/
def runner {X B : Type*} (f : X → B) (xs : List X) : List B := xs.map f

/-- `problem.py:225-239` `do(X, return_values_of)`. -/
def probDo {X V : Type*} (p : ProbCfg V) (inf : V) (u : UserEval X V) (xs : List X) (ret : List OutKey) : Option (List (OutKey × UVal V)) :=
  match u with
  | .elementwise f => (evalElementwise ret (runner f xs)).bind fun out => formatDict p inf xs.length out ret
  | .vectorized f => formatDict p inf xs.length (evalVectorized ret (f xs)) ret

/-- `problem.py:198-206`: one value of the result: `v[0]` for a single point, replacement of NaN. -/
def finishValue {V : Type*} (p : ProbCfg V) (isNan : V → Bool) (single : Bool) (v : UVal V) : Option (NArr V) :=
  v.toArr.bind fun a =>
    let b := if single then (match a.shape with
      | [] => none
      | n :: s => if n = 0 then none else some ⟨s, a.row 0⟩) else some a
    b.map fun b => match p.replaceNan with
      | none => b
      | some r => ⟨b.shape, b.data.map fun x => if isNan x then r else x⟩

/-- `problem.py:195-211`: the loop over `_out`. -/
def finishDict {V : Type*} (p : ProbCfg V) (isNan : V → Bool) (single : Bool) : List (OutKey × UVal V) → Option (List (OutKey × NArr V))
  | [] => some []
  | (k, v) :: rest => (finishValue p isNan single v).bind fun a => (finishDict p isNan single rest).map fun r => (k, a) :: r

/-- The argument of `evaluate`: a numeric matrix, a numeric vector, or a list (or object array) of points. -/
inductive EvalArg (E : Type*)
  | matrix (rows : List (List E))
  | vector (x : List E)
  | objects (xs : List (List E))

/-- `problem.py:178-183`: the default of `return_values_of`. -/
def defaultReturn {V : Type*} (p : ProbCfg V) : List OutKey :=
  [.F] ++ (if 0 < p.nIeq then [.G] else []) ++ (if 0 < p.nEq then [.H] else [])

/-- `problem.py:172-223` `evaluate(X, return_values_of, return_as_dictionary=True)`. Points are lists of entries of any type. A
numeric array whose rows do not have `n_var` entries raises. A single object that is neither a list nor an array is not
modelled. -/
def probEvaluate {E V : Type*} (p : ProbCfg V) (inf : V) (isNan : V → Bool) (u : UserEval (List E) V) (X : EvalArg E)
    (ret : Option (List OutKey)) : Option (List (OutKey × NArr V)) :=
  let ret := ret.getD (defaultReturn p)
  match X with
  | .matrix rows =>
    if rows.all (fun x => x.length == p.nVar) then (probDo p inf u rows ret).bind (finishDict p isNan false) else none
  | .vector x => if x.length == p.nVar then (probDo p inf u [x] ret).bind (finishDict p isNan true) else none
  | .objects xs => (probDo p inf u xs ret).bind (finishDict p isNan false)

/-- `problem.py:216-223`: the values when no dictionary is asked for. -/
def probEvaluateValues {E V : Type*} (p : ProbCfg V) (inf : V) (isNan : V → Bool) (u : UserEval (List E) V) (X : EvalArg E)
    (ret : Option (List OutKey)) : Option (List (NArr V)) :=
  (probEvaluate p inf isNan u X ret).bind fun out => (ret.getD (defaultReturn p)).mapM fun k => kGet out k

end Model
