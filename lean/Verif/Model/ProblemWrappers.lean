import Verif.Model.Problem
import Verif.Model.Decomposition
import Verif.Model.Normalization

/-!
# Model of the problem wrappers: `pymoo/problems/{static,functional,multi_to_single,zero_to_one,util}.py`

A wrapper is a `Meta` object (`core/meta.py:10-25`): it has the attributes of the wrapped problem, and its own `_evaluate` or `do`.
-/

namespace Model

/-! ### `StaticProblem` -/

/-- `static.py:7-14`: `_evaluate` sets the values `kw` given to the constructor. The flag `elementwise` is the one of the wrapped
problem (`meta.py:23`, `problem.py:230-234`). -/
def staticEval {X V : Type*} (elementwise : Bool) (kw : List (OutKey × NArr V)) : UserEval X V :=
  if elementwise then .elementwise fun _ => kw else .vectorized fun _ => kw.map fun e => (e.1, .arr e.2)

/-! ### `FunctionalProblem` -/

/-- `functional.py:59-70` `_evaluate`, an elementwise problem. -/
def functionalEval {X V : Type*} (objs ieq eq : List (X → V)) (x : X) : List (OutKey × NArr V) :=
  [(.F, ⟨[objs.length], objs.map fun f => f x⟩), (.G, ⟨[ieq.length], ieq.map fun f => f x⟩), (.H, ⟨[eq.length], eq.map fun f => f x⟩)]

/-- `functional.py:49-56`: the numbers of objectives and constraints of the problem. -/
def functionalCfg {X V : Type*} (nVar : ℕ) (objs ieq eq : List (X → V)) : ProbCfg V := ⟨nVar, objs.length, ieq.length, eq.length, none⟩

/-! ### `MultiToSingleObjective` -/

section
variable {K : Type*} [Field K] [LinearOrder K]

/-- `D[:, None]` for the array returned by a decomposition. -/
def addAxis : DecompOut K → NArr K
  | .vec v => ⟨[v.length, 1], v⟩
  | .mat rows => ⟨[rows.length, 1, (rows.headD []).length], rows.flatten⟩

/-- `multi_to_single.py:24-29` `do`: `out["F"]` computed from the objective matrix of the wrapped problem (`m` columns) with
`kwargs = {"weights": W}` and the scalarisation `s`. Without `kwargs` (`none`) the call raises (`**None`). -/
def multiToSingle (s : List K → List K → K) (kwargs : Option (DecompArg K)) (m : ℕ) (F : List (List K)) : Option (NArr K) :=
  kwargs.bind fun W => (decompDo s (decompAuto (.mat m F) W) (.mat m F) W).map addAxis

/-- `util.py:10-23` `decompose`: the new `_evaluate` on the value `out["F"]` set by the problem: one vector (elementwise) or a
matrix. -/
def decomposeF (s : List K → List K → K) (W F : DecompArg K) : Option (DecompOut K) := decompDo s .manyToOne F W

end

/-! ### `ZeroToOne` -/

/-- `zero_to_one.py:11-22`: the points at which the wrapped problem is evaluated when the wrapper is evaluated at the rows of `Y`.
Missing bounds raise. -/
def zeroToOnePoints (xl xu : Option (List ℚ)) (Y : List (List ℚ)) : Option (List (List ℚ)) :=
  xl.bind fun l => xu.bind fun u => normalizeM 0 false Y (some (toBound false l)) (some (toBound false u))

/-! ### `binomial` -/

/-- `util.py:38-41`: the loop, with `c` iterations to go. -/
def binomLoop : ℕ → ℕ → ℕ → ℕ → ℕ → ℕ × ℕ
  | 0, _, _, ntok, ktok => (ntok, ktok)
  | c + 1, t, n, ntok, ktok => binomLoop c (t + 1) (n - 1) (ntok * n) (ktok * t)

/-- `util.py:34-44` `binomial(n, k)` for integers. -/
def binomialZ (n k : ℤ) : ℤ :=
  if 0 ≤ k ∧ k ≤ n then
    let r := binomLoop (min k.toNat (n.toNat - k.toNat)) 1 n.toNat 1 1
    ((r.1 / r.2 : ℕ) : ℤ)
  else 0

end Model
