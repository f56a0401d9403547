import Mathlib.Analysis.SpecialFunctions.Exp
import Mathlib.Analysis.SpecialFunctions.Trigonometric.Arctan
import Verif.Model.DTLZ

/-!
# Model: the MW problems with a computed Pareto front (`pymoo/problems/multi/mw.py`)

`_evaluate` for one row, over the reals; `n` is `n_var`, `m` is `n_obj`. The fronts of MW5, 7, 9, 10, 11, 13, 14 are loaded from a server and are not modelled; MW12 is in `Model/MW12`.
-/

namespace Model

/-- mw.py:22-24 `LA1(A, B, C, D, theta)` for `C = 1` and an even `D`. -/
noncomputable def mwLA1 (A B : ℝ) (D : ℕ) (theta : ℝ) : ℝ := A * Real.sin (B * Real.pi * theta) ^ D

/-- mw.py:34-43 `g1`: `XM` are the variables from number `m - 1` on. -/
noncomputable def mwG1 (n m : ℕ) (XM : List ℝ) : ℝ :=
  1 + ((XM.zipIdx (m - 1)).map fun e : ℝ × ℕ =>
    1 - Real.exp (-10 * (e.1 ^ (n - m) - 1 / 2 - e.2 / (2 * n)) * (e.1 ^ (n - m) - 1 / 2 - e.2 / (2 * n)))).sum

/-- mw.py:45-53 `g2`. -/
noncomputable def mwG2 (n m : ℕ) (XM : List ℝ) : ℝ :=
  1 + ((XM.zipIdx (m - 1)).map fun e : ℝ × ℕ =>
    let z := 1 - Real.exp (-10 * (e.1 - e.2 / n) * (e.1 - e.2 / n))
    0.1 / n * z * z + 1.5 - 1.5 * Real.cos (2 * Real.pi * z)).sum

/-- mw.py:55-61 `g3` for two objectives: of the whole row. -/
noncomputable def mwG3 : List ℝ → ℝ
  | a :: b :: l => 2 * (b + (a - 1 / 2) * (a - 1 / 2) - 1) ^ 2 + mwG3 (b :: l)
  | _ => 1

/-- mw.py:68-75 `MW1._evaluate`. -/
noncomputable def mw1 (n : ℕ) (x : List ℝ) : Fin 2 → ℝ :=
  let g := mwG1 n 2 (x.drop 1)
  ![x.getD 0 0, g * (1 - 0.85 * x.getD 0 0 / g)]

noncomputable def mw1Con (f : Fin 2 → ℝ) : ℝ := f 0 + f 1 - 1 - mwLA1 0.5 2 8 (√2 * f 1 - √2 * f 0)

/-- What a method that may write into the array of the caller leaves behind: the result and the rows of that array. -/
abbrev WithCaller (α : Type) := List α × List α

/-- mw.py:79-83: the first column is evenly spaced, or the first column of the caller's array, into which the second column is written. -/
noncomputable def mwRows (curve : ℝ → ℝ) (refDirs : Option (List (Fin 2 → ℝ))) : WithCaller (Fin 2 → ℝ) :=
  match refDirs with
  | none => ((linspace 0 1 100).map fun t => ![t, curve t], [])
  | some R => (R.map fun r => ![r 0, curve (r 0)], R.map fun r => ![r 0, curve (r 0)])

/-- mw.py:77-87 `MW1._calc_pareto_front`. -/
noncomputable def mw1Front (refDirs : Option (List (Fin 2 → ℝ))) : WithCaller (Fin 2 → ℝ) :=
  let r := mwRows (fun t => 1 - 0.85 * t) refDirs
  (r.1.filter fun F => 0 ≤ 1 - F 0 - F 1 + 0.5 * Real.sin (2 * Real.pi * (√2 * F 1 - √2 * F 0)) ^ 8, r.2)

/-- mw.py:94-101 `MW2._evaluate`. -/
noncomputable def mw2 (n : ℕ) (x : List ℝ) : Fin 2 → ℝ :=
  let g := mwG2 n 2 (x.drop 1)
  ![x.getD 0 0, g * (1 - x.getD 0 0 / g)]

noncomputable def mw2Con (f : Fin 2 → ℝ) : ℝ := f 0 + f 1 - 1 - mwLA1 0.5 3 8 (√2 * f 1 - √2 * f 0)

/-- mw.py:103-110 `MW2._calc_pareto_front`. -/
noncomputable def mw2Front (refDirs : Option (List (Fin 2 → ℝ))) : WithCaller (Fin 2 → ℝ) := mwRows (fun t => 1 - t) refDirs

/-- mw.py:117-125 `MW3._evaluate`. -/
noncomputable def mw3 (x : List ℝ) : Fin 2 → ℝ :=
  let g := mwG3 x
  ![x.getD 0 0, g * (1 - x.getD 0 0 / g)]

noncomputable def mw3Con (f : Fin 2 → ℝ) : Fin 2 → ℝ :=
  ![f 0 + f 1 - 1.05 - mwLA1 0.45 0.75 6 (√2 * f 1 - √2 * f 0), 0.85 - f 0 - f 1 + mwLA1 0.3 0.75 2 (√2 * f 1 - √2 * f 0)]

/-- mw.py:134, 137-139: the test of the loop. -/
noncomputable def mw3Invalid (F : Fin 2 → ℝ) : Prop := 0.85 - F 0 - F 1 + 0.3 * Real.sin (0.75 * Real.pi * √2 * (F 1 - F 0)) ^ 2 > 0

open Classical in
/-- mw.py:135-139: the loop for one row (the rows do not depend on each other); `none`: not finished after `fuel` rounds. -/
noncomputable def mw3Loop : ℕ → (Fin 2 → ℝ) → Option (Fin 2 → ℝ)
  | 0, F => if mw3Invalid F then none else some F
  | fuel + 1, F => if mw3Invalid F then mw3Loop fuel fun i => F i * 1.001 else some F

/-- mw.py:127-140 `MW3._calc_pareto_front`, with at most `fuel` rounds of the loop; it also writes into the caller's array. -/
noncomputable def mw3Front (fuel : ℕ) (refDirs : Option (List (Fin 2 → ℝ))) : Option (WithCaller (Fin 2 → ℝ)) :=
  let r := mwRows (fun t => 1 - t) refDirs
  (r.1.mapM (mw3Loop fuel)).map fun F => (F, if refDirs.isSome then F else r.2)

/-- mw.py:149-157 `MW4._evaluate`. -/
noncomputable def mw4 (n m : ℕ) (x : List ℝ) : Fin m → ℝ := fun i => mwG1 n m (x.drop (m - 1)) * dtlzShape (fun v => 1 - v) (fun v => v) (x.take (m - 1)) i

noncomputable def mw4Con {m : ℕ} (f : Fin (m + 1) → ℝ) : ℝ := (∑ i, f i) - 1 - mwLA1 0.4 2.5 8 (f (Fin.last m) - ∑ i : Fin m, f i.castSucc)

/-- mw.py:159-165 `MW4._calc_pareto_front`. -/
noncomputable def mw4Front {m : ℕ} (refDirs : List (Fin (m + 1) → ℝ)) : List (Fin (m + 1) → ℝ) :=
  refDirs.filter fun F => 0 ≤ 1 + 0.4 * Real.sin (2.5 * Real.pi * (F (Fin.last m) - ∑ i : Fin m, F i.castSucc)) ^ 8 - ∑ i, F i

/-- `np.arctan(f1 / f0)` with `f1 > 0` for `f0 = 0` (the quotient is infinite). -/
noncomputable def mwAtan (f : Fin 2 → ℝ) : ℝ := if f 0 = 0 then Real.pi / 2 else Real.arctan (f 1 / f 0)

/-- mw.py:195-209 `MW6._evaluate`. -/
noncomputable def mw6 (n : ℕ) (x : List ℝ) : Fin 2 → ℝ :=
  let g := mwG2 n 2 (x.drop 1)
  ![g * x.getD 0 0, g * √(1.1 * 1.1 - (g * x.getD 0 0 / g) ^ 2)]

/-- mw.py:30-32, 203-207: `LA3(A, 6, 4, 10, theta)` and the constraint. -/
noncomputable def mw6Con (f : Fin 2 → ℝ) : ℝ :=
  let L := Real.cos (6 * mwAtan f ^ 4) ^ 10
  f 0 ^ 2 / (1 + 0.15 * L) ^ 2 + f 1 ^ 2 / (1 + 0.75 * L) ^ 2 - 1

/-- mw.py:217-221: the scaled rows that satisfy the constraint. -/
noncomputable def mw6Front (refDirs : Option (List (Fin 2 → ℝ))) : WithCaller (Fin 2 → ℝ) :=
  let r := mwRows (fun t => 1 - t) refDirs
  ((r.1.map fun F i => F i / √((F 0 ^ 2 + F 1 ^ 2) / 1.21)).filter fun F =>
    0 ≤ 1 - (F 0 / (1 + 0.15 * Real.cos (6 * mwAtan F ^ 4) ^ 10)) ^ 2 - (F 1 / (1 + 0.75 * Real.cos (6 * mwAtan F ^ 4) ^ 10)) ^ 2, r.2)

/-- mw.py:251-263 `MW8._evaluate`. -/
noncomputable def mw8 (n m : ℕ) (x : List ℝ) : Fin m → ℝ :=
  fun i => mwG2 n m (x.drop (m - 1)) * dtlzShape (fun v => Real.cos (0.5 * Real.pi * v)) (fun v => Real.sin (0.5 * Real.pi * v)) (x.take (m - 1)) i

/-- mw.py:258-261: the constraint. -/
noncomputable def mw8Con {m : ℕ} (f : Fin (m + 1) → ℝ) : ℝ :=
  let r := 1.25 - 0.5 * Real.sin (6 * Real.arcsin (f (Fin.last m) / √(∑ i, f i ^ 2))) ^ 2
  (∑ i, f i ^ 2) - r * r

/-- mw.py:265-272 `MW8._calc_pareto_front`. -/
noncomputable def mw8Front {m : ℕ} (refDirs : List (Fin (m + 1) → ℝ)) : List (Fin (m + 1) → ℝ) :=
  (refDirs.map genericSphere).filter fun F => 0 ≤ (1.25 - 0.5 * Real.sin (6 * Real.arcsin (F (Fin.last m))) ^ 2) ^ 2 - ∑ i, F i ^ 2

end Model
