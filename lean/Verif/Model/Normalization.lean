import Mathlib.Data.Rat.Floor
import Mathlib.Algebra.Order.Ring.Rat

/-!
# Model of `pymoo/util/normalization.py` (and `HyperplaneNormalization` of `algorithms/moo/nsga3.py`)

Floating point numbers are rationals; `none` in a bound is `nan`. Bounds and points are one-dimensional arrays with the same
number of entries; a matrix is a list of rows and every function acts on its rows separately.
-/

namespace Model

/-- A one-dimensional numpy array of bounds: integer or floating point entries (`isInt`). An integer array has no `nan`. -/
structure BoundArr where
  isInt : Bool
  vals : List (Option ℚ)

/-- `np.full_like(b, np.nan)` (`normalization.py:44,46`): the dtype of `b` is kept, so for an integer array `nan` is cast to
an integer; `intNan` is that (platform dependent) integer. -/
def fullLikeNan (intNan : ℤ) (b : BoundArr) : BoundArr :=
  ⟨b.isInt, b.vals.map fun _ => if b.isInt then some (intNan : ℚ) else none⟩

/-- The bounds of a `ZeroToOneNormalization` object, `none` if normalisation is disabled. -/
abbrev ZtoNorm := Option (List (Option ℚ × Option ℚ))

/-- `normalization.py:51`: equal bounds turn the upper bound into `nan`. -/
def dropEqual (l u : Option ℚ) : Option ℚ × Option ℚ :=
  if l.isSome ∧ l = u then (l, none) else (l, u)

/-- `normalization.py:68-69`, one component of the assertion. -/
def boundOk (b : Option ℚ × Option ℚ) : Bool :=
  match b with
  | (some l, some u) => decide (l ≤ u)
  | _ => true

/-- `normalization.py:34-69` `ZeroToOneNormalization(xl, xu)`; `none` = the assertion fails. -/
def ztoInit (intNan : ℤ) (xl xu : Option BoundArr) : Option ZtoNorm :=
  let mk (l u : BoundArr) : Option ZtoNorm :=
    let bs := List.zipWith dropEqual l.vals u.vals
    if bs.all boundOk then some (some bs) else none
  match xl, xu with
  | none, none => some none
  | none, some u => mk (fullLikeNan intNan u) u
  | some l, none => mk l (fullLikeNan intNan l)
  | some l, some u => mk l u

/-- The value stored when the real number `q` is assigned into an array: integer arrays truncate towards zero. -/
def storeAs (isInt : Bool) (q : ℚ) : ℚ :=
  if isInt then (if 0 ≤ q then (⌊q⌋ : ℚ) else (⌈q⌉ : ℚ)) else q

/-- `normalization.py:78-85`, one component. -/
def ztoFwd (b : Option ℚ × Option ℚ) (x : ℚ) : ℚ :=
  match b with
  | (some l, some u) => (x - l) / (u - l)
  | (some l, none) => x - l
  | (none, some u) => 1 - (u - x)
  | (none, none) => x

/-- `normalization.py:96-101`, one component. -/
def ztoBwd (b : Option ℚ × Option ℚ) (n : ℚ) : ℚ :=
  match b with
  | (some l, some u) => l + n * (u - l)
  | (some l, none) => n + l
  | (none, some u) => u - (1 - n)
  | (none, none) => n

/-- `normalization.py:71-87` `forward`, one row; `isInt` = the dtype of the array given (the result is a copy of it, so it has
the same dtype). -/
def ztoForward (isInt : Bool) (norm : ZtoNorm) (X : List ℚ) : List ℚ :=
  match norm with
  | none => X
  | some bs => List.zipWith (fun b x => storeAs isInt (ztoFwd b x)) bs X

/-- `normalization.py:89-103` `backward`, one row. -/
def ztoBackward (isInt : Bool) (norm : ZtoNorm) (N : List ℚ) : List ℚ :=
  match norm with
  | none => N
  | some bs => List.zipWith (fun b x => storeAs isInt (ztoBwd b x)) bs N

/-- `np.min(X, axis=0)` of a non-empty matrix (the code raises for an empty one). -/
def colMin : List (List ℚ) → Option (List ℚ)
  | [] => none
  | r :: rs => some (rs.foldl (List.zipWith min) r)

/-- `np.max(X, axis=0)`. -/
def colMax : List (List ℚ) → Option (List ℚ)
  | [] => none
  | r :: rs => some (rs.foldl (List.zipWith max) r)

/-- An array computed from the (integer or float) matrix. -/
def toBound (isInt : Bool) (l : List ℚ) : BoundArr := ⟨isInt, l.map some⟩

/-- `normalization.py:152-171` `normalize(X, xl, xu)` with `estimate_bounds_if_none=True`; a scalar bound is the array filled
with it. `none` = an exception. -/
def normalizeM (intNan : ℤ) (isInt : Bool) (X : List (List ℚ)) (xl xu : Option BoundArr) : Option (List (List ℚ)) :=
  (xl.orElse fun _ => (colMin X).map (toBound isInt)).bind fun l =>
  (xu.orElse fun _ => (colMax X).map (toBound isInt)).bind fun u =>
  (ztoInit intNan (some l) (some u)).map fun norm => X.map (ztoForward isInt norm)

/-- `normalization.py:174-175` `denormalize(x, xl, xu)`. -/
def denormalizeM (intNan : ℤ) (isInt : Bool) (N : List (List ℚ)) (xl xu : Option BoundArr) : Option (List (List ℚ)) :=
  (ztoInit intNan xl xu).map fun norm => N.map (ztoBackward isInt norm)

/-! ### SimpleZeroToOneNormalization -/

/-- The fields of `SimpleZeroToOneNormalization` (`normalization.py:113-117`). -/
structure SimpleNorm where
  xl : Option (List ℚ)
  xu : Option (List ℚ)
  estimate : Bool

/-- `normalization.py:132-139`, one component; `1e-32` replaces a zero range. -/
def simpleFwd (l u x : ℚ) : ℚ := (x - l) / (if u - l = 0 then 1 / 10 ^ 32 else u - l)

/-- `normalization.py:119-141` `forward(X)`: the new state and the result; `none` = an exception (no bounds). -/
def simpleForward (s : SimpleNorm) (X : List (List ℚ)) : Option (SimpleNorm × List (List ℚ)) :=
  let xl := if s.estimate then s.xl.orElse fun _ => colMin X else s.xl
  let xu := if s.estimate then s.xu.orElse fun _ => colMax X else s.xu
  xl.bind fun l => xu.bind fun u =>
    some (⟨some l, some u, s.estimate⟩,
      X.map fun r => List.zipWith (fun (b : ℚ × ℚ) x => simpleFwd b.1 b.2 x) (l.zip u) r)

/-- `normalization.py:143-144` `backward(X)`. -/
def simpleBackward (s : SimpleNorm) (N : List (List ℚ)) : Option (List (List ℚ)) :=
  s.xl.bind fun l => s.xu.bind fun u =>
    some (N.map fun r => List.zipWith (fun (b : ℚ × ℚ) x => x * (b.2 - b.1) + b.1) (l.zip u) r)

/-! ### Ideal, nadir and extreme points -/

/-- `normalization.py:228-232` `find_ideal(F, current)`. -/
def findIdeal (F : List (List ℚ)) (current : Option (List ℚ)) : Option (List ℚ) :=
  (colMin F).map fun p => match current with
    | some c => List.zipWith min c p
    | none => p

/-- The same with the maximum (`nsga3.py:303`; the initial `-inf` is `none`). -/
def findWorst (F : List (List ℚ)) (current : Option (List ℚ)) : Option (List ℚ) :=
  (colMax F).map fun p => match current with
    | some c => List.zipWith max c p
    | none => p

/-- `normalization.py:290-302` `ObjectiveSpaceNormalization`: the two ideal points. -/
structure ObjNorm where
  ideal : Option (List ℚ)
  infeasIdeal : Option (List ℚ)

/-- `normalization.py:297-302` `update(pop)`: `pop` = the objective values with the feasibility flag; `none` = an exception
(an empty population). -/
def objNormUpdate (s : ObjNorm) (pop : List (List ℚ × Bool)) : Option ObjNorm :=
  (findIdeal (pop.map Prod.fst) s.infeasIdeal).map fun inf =>
    if pop.any Prod.snd then ⟨findIdeal ((pop.filter Prod.snd).map Prod.fst) s.ideal, some inf⟩ else ⟨s.ideal, some inf⟩

/-- `normalization.py:246-250`: the largest weighted difference to the ideal point for the objective `k`, after small
differences are set to zero. -/
def extremeAsf (ideal : List ℚ) (k : ℕ) (f : List ℚ) : ℚ :=
  let d := (List.zipWith (· - ·) f ideal).map fun v => if v < 1 / 1000 then 0 else v
  ((d.zipIdx.map fun e => if e.2 = k then e.1 else e.1 * 10 ^ 6).max?).getD 0

/-- `np.argmin` of a list: the first position of the smallest entry; `0` if empty (the code raises). -/
def argminFirst (l : List ℚ) : ℕ := (l.zipIdx.foldl (fun b e => if e.1 < b.1 then e else b) (l.headD 0, 0)).2

/-- `normalization.py:235-255` `get_extreme_points_c(F, ideal_point, extreme_points)` (the same code is in `nsga3.py:325-345`). -/
def extremePoints (F : List (List ℚ)) (ideal : List ℚ) (old : Option (List (List ℚ))) : List (List ℚ) :=
  let F' := old.getD [] ++ F
  (List.range ideal.length).map fun k => F'.getD (argminFirst (F'.map (extremeAsf ideal k))) []

/-- `normalization.py:283-285`: replace the components with a too small range. -/
def fixSmallRange (ideal worstPop nadir : List ℚ) : List ℚ :=
  List.zipWith (fun (e : ℚ × ℚ) n => if n - e.1 ≤ 1 / 10 ^ 6 then e.2 else n) (ideal.zip worstPop) nadir

/-- `normalization.py:268,274-277`: the intercept (`none` = `+inf`) added to the ideal point `e.1`, at most the worst value
`e.2`. -/
def clipNadir (e : ℚ × ℚ) : Option ℚ → ℚ
  | none => e.2
  | some v => if e.2 < e.1 + v then e.2 else e.1 + v

/-- `normalization.py:258-287` `get_nadir_point`. `solve` stands for lines 259-266 with the `allclose` check of line 271: the
intercepts of the hyperplane through the extreme points (`none` = `+inf`), or no result (`LinAlgError`). -/
def nadirPoint (solve : List (List ℚ) → List ℚ → Option (List (Option ℚ)))
    (extreme : List (List ℚ)) (ideal worst worstFront worstPop : List ℚ) : List ℚ :=
  let nadir := match solve extreme ideal with
    | none => worstFront
    | some ic =>
      if ic.any fun c => (c.map fun v => decide (v ≤ 1 / 10 ^ 6)).getD false then worstFront
      else List.zipWith clipNadir (ideal.zip worst) ic
  fixSmallRange ideal worstPop nadir

/-- `nsga3.py:292-298` `HyperplaneNormalization`; infinite initial points are `none`. -/
structure HypNorm where
  ideal : Option (List ℚ)
  worst : Option (List ℚ)
  nadir : Option (List ℚ)
  extreme : Option (List (List ℚ))

def hypInit : HypNorm := ⟨none, none, none, none⟩

/-- `nsga3.py:300-322` `update(F, nds)`; `none` = an exception (empty population or front). -/
def hypUpdate (solve : List (List ℚ) → List ℚ → Option (List (Option ℚ))) (s : HypNorm) (F : List (List ℚ)) (nds : List ℕ) :
    Option HypNorm :=
  let front := nds.filterMap fun i => F[i]?
  (findIdeal F s.ideal).bind fun ideal => (findWorst F s.worst).bind fun worst =>
  (colMax F).bind fun worstPop => (colMax front).bind fun worstFront =>
    let ext := extremePoints front ideal s.extreme
    some ⟨some ideal, some worst, some (nadirPoint solve ext ideal worst worstFront worstPop), some ext⟩

end Model
