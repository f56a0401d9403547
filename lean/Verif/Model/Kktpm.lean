import Mathlib.Analysis.SpecialFunctions.Pow.Real
import Mathlib.Data.Matrix.Mul
import Mathlib.Algebra.BigOperators.Fin
import Mathlib.Data.List.FinRange
import Verif.Model.Individual

/-!
# Model: the KKT proximity measure (pymoo/indicators/kktpm.py)

`KKTPM.calc` for one solution, over the reals: `m` objectives, `J` inequality constraints, `n` variables. The linear systems are
indexed by the objectives followed by the constraints, `Fin m ⊕ Fin J`. The linear solver (kktpm.py:123-135) is an argument: it
returns a vector or, for a singular matrix, raises (`none`).
-/

namespace Model

variable {m J n : ℕ}

/-- A square system `A u = b` as the code keeps it in the arrays `A` and `b`. -/
structure KktSystem (m J : ℕ) where
  A : Matrix (Fin m ⊕ Fin J) (Fin m ⊕ Fin J) ℝ
  b : Fin m ⊕ Fin J → ℝ

/-- kktpm.py:61 `w`. -/
noncomputable def kktWeight (f z : Fin m → ℝ) (k : Fin m) : ℝ := Real.sqrt (∑ i, (f i - z i) ^ 2) / (f k - z k)

/-- kktpm.py:62 `a_m`; `df k` is the gradient of objective `k`. -/
noncomputable def kktGrad (w : Fin m → ℝ) (rho : ℝ) (df : Fin m → Fin n → ℝ) (k : Fin m) (v : Fin n) : ℝ :=
  df k v * w k + rho * ∑ i, df i v * w i

/-- kktpm.py:64-82 `A` and `b`; `am` the rows `a_m`, `dg` the rows `a_j`. -/
noncomputable def kktSystem (am : Fin m → Fin n → ℝ) (dg : Fin J → Fin n → ℝ) (g : Fin J → ℝ) : KktSystem m J where
  A
    | .inl i, .inl k => 1 + ∑ v, am i v * am k v
    | .inl i, .inr j => ∑ v, am i v * dg j v
    | .inr j, .inl i => ∑ v, dg j v * am i v
    | .inr j, .inr l => (∑ v, dg j v * dg l v) + if j = l then g j * g j else 0
  b
    | .inl _ => 1
    | .inr _ => 0

/-- kktpm.py:94-95: the unknown `j` is fixed to zero. -/
def kktFix (s : KktSystem m J) (j : Fin m ⊕ Fin J) : KktSystem m J where
  A i k := if i = j ∧ k = j then 1 else if i = j ∨ k = j then 0 else s.A i k
  b i := if i = j then 0 else s.b i

/-- kktpm.py:92-98, the body of the inner loop. -/
noncomputable def kktStep (solve : KktSystem m J → Option (Fin m ⊕ Fin J → ℝ)) (st : KktSystem m J × (Fin m ⊕ Fin J → ℝ))
    (j : Fin m ⊕ Fin J) : Option (KktSystem m J × (Fin m ⊕ Fin J → ℝ)) :=
  if st.2 j < 0 then (solve (kktFix st.1 j)).map fun u => (kktFix st.1 j, u) else some st

/-- The order of the unknowns. -/
def kktOrder (m J : ℕ) : List (Fin m ⊕ Fin J) := (List.finRange m).map .inl ++ (List.finRange J).map .inr

/-- What happens to the outer loop. -/
inductive KktRun (m J : ℕ)
  | raised
  | running
  | done (u : Fin m ⊕ Fin J → ℝ)

open Classical in
/-- kktpm.py:88-98: the outer loop, for at most `fuel` passes. -/
noncomputable def kktLoop (solve : KktSystem m J → Option (Fin m ⊕ Fin J → ℝ)) :
    ℕ → KktSystem m J × (Fin m ⊕ Fin J → ℝ) → KktRun m J
  | 0, _ => .running
  | fuel + 1, st =>
    if ∃ j, st.2 j < 0 then
      match (kktOrder m J).foldlM (kktStep solve) st with
      | none => .raised
      | some st' => kktLoop solve fuel st'
    else .done st.2

/-- kktpm.py:84-98: the multipliers. -/
noncomputable def kktMultipliers (solve : KktSystem m J → Option (Fin m ⊕ Fin J → ℝ)) (s : KktSystem m J) (fuel : ℕ) : KktRun m J :=
  match solve s with
  | none => .raised
  | some u => kktLoop solve fuel (s, u)

/-- kktpm.py:103-107: the error for the multipliers `u`. -/
noncomputable def kktError (am : Fin m → Fin n → ℝ) (dg : Fin J → Fin n → ℝ) (u : Fin m ⊕ Fin J → ℝ) : ℝ :=
  (1 - ∑ i, u (.inl i)) ^ 2 + ∑ v, ((∑ i, am i v * u (.inl i)) + ∑ j, dg j v * u (.inr j)) ^ 2

/-- kktpm.py:110-114: the value, corrected if the complementarity is badly violated. -/
noncomputable def kktAdjust (g : Fin J → ℝ) (u : Fin m ⊕ Fin J → ℝ) (k : ℝ) : ℝ :=
  let c := ∑ j, -g j * u (.inr j)
  if 1 < (∑ i, u (.inl i)) + c * (1 + c) then
    (k + -(∑ j, u (.inr j) * g j) + ((∑ j, k * g j * g j) - ∑ j, g j * u (.inr j)) / (1 + ∑ j, g j * g j)) / 3
  else k

/-- kktpm.py:46-117: the value of one solution. Without inequality constraints the name `g` (kktpm.py:110) is unbound. -/
noncomputable def kktpm (solve : KktSystem m J → Option (Fin m ⊕ Fin J → ℝ)) (fuel : ℕ) (rho : ℝ) (z f : Fin m → ℝ) (g : Fin J → ℝ)
    (df : Fin m → Fin n → ℝ) (dg : Fin J → Fin n → ℝ) : Except String ℝ :=
  let cv := calcCv defaultConfig (List.ofFn g) []
  if 0 < cv then .ok (1 + cv)
  else
    let am := kktGrad (kktWeight f z) rho df
    match kktMultipliers solve (kktSystem am dg g) fuel with
    | .raised => .error "LinAlgError: Singular matrix"
    | .running => .error "still running"
    | .done u =>
      if J = 0 then .error "UnboundLocalError: g" else .ok (kktAdjust g u (kktError am dg u))

/-- kktpm.py:31-36: the point used as ideal point, which is also what is left in the caller's array (or in the cache of the
problem, core/problem.py:320-324) after the call. -/
def kktIdeal (eps : ℝ) (ideal : Fin m → ℝ) : Fin m → ℝ := fun i => ideal i - eps

end Model
