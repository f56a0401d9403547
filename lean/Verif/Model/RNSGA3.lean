import Mathlib.Analysis.Real.Sqrt
import Mathlib.Algebra.BigOperators.Group.Finset.Defs
import Mathlib.Algebra.BigOperators.Group.List.Basic

/-!
# Model of `pymoo/algorithms/moo/rnsga3.py`: the reference directions of R-NSGA-III

Vectors are functions `Fin n → ℝ`, matrices lists of them. (The survival itself is NSGA-III's with these directions; see `Model/NSGA3.lean`.)
-/

namespace Model

open scoped BigOperators

variable {n : ℕ}

/-- `np.dot` of two vectors. -/
noncomputable def r3Dot (a b : Fin n → ℝ) : ℝ := ∑ j, a j * b j

/-- `line_plane_intersection` (rnsga3.py 234-260). -/
noncomputable def r3Intersect (l0 l1 p0 pNo : Fin n → ℝ) (eps : ℝ) : Fin n → ℝ :=
  let l := fun j => l1 j - l0 j
  let dot := r3Dot l pNo
  if eps < |dot| then
    let w := fun j => p0 j - l0 j
    let d := r3Dot w pNo / dot
    fun j => l0 j + l j * d
  else fun j => l1 j - r3Dot (fun j => l1 j - p0 j) pNo * pNo j

/-- `np.mean(..., axis=0)`. -/
noncomputable def r3Mean (R : List (Fin n → ℝ)) : Fin n → ℝ := fun j => (R.map fun r => r j).sum / R.length

/-- rnsga3.py 204: the normal vector of the plane. -/
noncomputable def r3Normal (n : ℕ) : Fin n → ℝ := fun _ => 1 / √n

/-- rnsga3.py 205 and 227: the unit vectors, `np.eye(n_obj)`. -/
def r3Unit (i : Fin n) : Fin n → ℝ := fun j => if j = i then 1 else 0

/-- rnsga3.py 208-217: the shrunken directions, moved so that their centroid is the intersection of the line through `point` with the plane. -/
noncomputable def r3Shifted [NeZero n] (mu : ℝ) (dirs : List (Fin n → ℝ)) (point : Fin n → ℝ) : List (Fin n → ℝ) :=
  let shrunk := dirs.map fun d => fun j => mu * d j
  let cent := r3Mean shrunk
  let intercept := r3Intersect (fun _ => 0) point (r3Unit 0) (r3Normal n) (1 / 1000000)
  shrunk.map fun d => fun j => d j + (intercept j - cent j)

open Classical in
/-- rnsga3.py 220-224: directions outside of the first octant are put on its border. -/
noncomputable def r3Border (R : List (Fin n → ℝ)) : List (Fin n → ℝ) :=
  if ∀ r ∈ R, ∀ j, 0 < r j then R
  else (R.map fun r => fun j => if r j < 0 then 0 else r j).map fun r => fun j => r j / ∑ k, r k

/-- `get_ref_dirs_from_points` (rnsga3.py 186-228). -/
noncomputable def r3RefDirs [NeZero n] (mu : ℝ) (dirs points : List (Fin n → ℝ)) : List (Fin n → ℝ) :=
  (points.flatMap fun p => r3Border (r3Shifted mu dirs p)) ++ (List.finRange n).map r3Unit

/-- rnsga3.py 59: the population size. -/
def r3PopSize (nPoints nDirs nObj : ℕ) : ℕ := nPoints * nDirs + nObj

end Model
