import Verif.Model.DF

/-!
# Model: the bundled CEC 2018 functions (pymoo/vendor/cec2018.py)

`get_bounds`, `cec2018_DF` and `cec2018_DF_PF` over the reals. The problem identifier `'DFk'` is the number `k`; an unknown one gives no bounds change, an
empty dictionary, and an `UnboundLocalError` of `cec2018_DF_PF` (here `none`). The dictionary of objectives is a list. `x` is long enough to be indexed
(otherwise the code raises an `IndexError`); `np.power` of a negative number to a fraction is `nan` and not modelled.
-/

namespace Model

/-- `get_bounds`, the lower bounds (`vendor/cec2018.py:32-96`). -/
def cecLower (k n : ℕ) : List ℝ :=
  match k with
  | 3 => (List.replicate n (-1)).set 0 0
  | 4 => List.replicate n (-2)
  | 5 | 6 | 8 | 9 => (List.replicate n (-1)).set 0 0
  | 7 => (List.replicate n 0).set 0 1
  | 10 | 12 | 13 | 14 => ((List.replicate n (-1)).set 0 0).set 1 0
  | _ => List.replicate n 0

/-- `get_bounds`, the upper bounds (`vendor/cec2018.py:32-96`): `-1` and `-2` as they are in the file. -/
def cecUpper (k n : ℕ) : List ℝ :=
  match k with
  | 3 => (List.replicate n 2).set 0 1
  | 4 => List.replicate n (-2)
  | 5 | 6 | 8 | 9 => (List.replicate n (-1)).set 0 1
  | 7 => (List.replicate n 1).set 0 4
  | 10 | 12 | 13 | 14 => ((List.replicate n (-1)).set 0 1).set 1 1
  | _ => List.replicate n 1

/-- `cec2018_DF('DF1', x, t)` (`vendor/cec2018.py:117-122`). -/
noncomputable def cec1 (t : ℝ) (x : List ℝ) : List ℝ :=
  let G := |Real.sin (0.5 * Real.pi * t)|
  let H := 0.75 * Real.sin (0.5 * Real.pi * t) + 1.25
  let g := 1 + (x.tail.map fun v => (v - G) ^ (2 : ℕ)).sum
  [x.getD 0 0, g * (1 - x.getD 0 0 / g) ^ H]

/-- `cec2018_DF('DF2', x, t)` (`vendor/cec2018.py:123-129`): the position variable has index `r - 1`, the left out one index `r`. -/
noncomputable def cec2 (t : ℝ) (x : List ℝ) : List ℝ :=
  let G := |Real.sin (0.5 * Real.pi * t)|
  let r := 1 + ⌊((x.length : ℝ) - 1) * G⌋₊
  let g := 1 + (((List.range x.length).filter fun i => i ≠ r).map fun i => (x.getD i 0 - G) ^ (2 : ℕ)).sum
  [x.getD (r - 1) 0, g * (1 - x.getD (r - 1) 0 / g) ^ (0.5 : ℝ)]

/-- `cec2018_DF('DF3', x, t)` (`vendor/cec2018.py:130-135`). -/
noncomputable def cec3 (t : ℝ) (x : List ℝ) : List ℝ :=
  let G := Real.sin (0.5 * Real.pi * t)
  let H := G + 1.5
  let g := 1 + (x.tail.map fun v => ((v - G - x.getD 0 0) ^ H) ^ (2 : ℕ)).sum
  [x.getD 0 0, g * (1 - x.getD 0 0 / g) ^ H]

/-- `cec2018_DF('DF4', x, t)` (`vendor/cec2018.py:136-142`). -/
noncomputable def cec4 (t : ℝ) (x : List ℝ) : List ℝ :=
  let a := Real.sin (0.5 * Real.pi * t)
  let b := 1 + |Real.cos (0.5 * Real.pi * t)|
  let H := 1.5 + a
  let g := 1 + (x.tail.map fun v => (v - a * x.getD 0 0 ^ (2 : ℕ) / v) ^ (2 : ℕ)).sum
  [g * |x.getD 0 0 - a| ^ H, g * |x.getD 0 0 - a - b| ^ H]

/-- `cec2018_DF('DF5', x, t)` (`vendor/cec2018.py:143-148`). -/
noncomputable def cec5 (t : ℝ) (x : List ℝ) : List ℝ :=
  let G := Real.sin (0.5 * Real.pi * t)
  let w : ℝ := ⌊10 * G⌋
  let g := 1 + (x.tail.map fun v => (v - G) ^ (2 : ℕ)).sum
  let x0 := x.getD 0 0
  [g * (x0 + 0.02 * Real.sin (w * Real.pi * x0)), g * (1 - x0 + 0.02 * Real.sin (w * Real.pi * x0))]

/-- `cec2018_DF('DF6', x, t)` (`vendor/cec2018.py:149-155`). -/
noncomputable def cec6 (t : ℝ) (x : List ℝ) : List ℝ :=
  let G := Real.sin (0.5 * Real.pi * t)
  let a := 0.2 + 2.8 * |G|
  let y := x.tail.map fun v => v - G
  let g := 1 + (y.map fun y => |G| * y ^ (2 : ℕ) - 10 * Real.cos (2 * Real.pi * y) + 10).sum
  let x0 := x.getD 0 0
  [g * (x0 + 0.1 * Real.sin (3 * Real.pi * x0)) ^ a, g * (1 - x0 + 0.1 * Real.sin (3 * Real.pi * x0)) ^ a]

/-- `cec2018_DF('DF7', x, t)` (`vendor/cec2018.py:156-161`). -/
noncomputable def cec7 (t : ℝ) (x : List ℝ) : List ℝ :=
  let a := 5 * Real.cos (0.5 * Real.pi * t)
  let x0 := x.getD 0 0
  let tmp := 1 / (1 + Real.exp (a * (x0 - 2.5)))
  let g := 1 + (x.tail.map fun v => (v - tmp) ^ (2 : ℕ)).sum
  [g * (1 + t) / x0, g * x0 / (1 + t)]

/-- `cec2018_DF('DF8', x, t)` (`vendor/cec2018.py:162-169`). -/
noncomputable def cec8 (t : ℝ) (x : List ℝ) : List ℝ :=
  let G := Real.sin (0.5 * Real.pi * t)
  let a := 2.25 + 2 * Real.cos (2 * Real.pi * t)
  let b := 100 * G ^ (2 : ℕ)
  let x0 := x.getD 0 0
  let x1 := x.getD 1 0
  let tmp := G * Real.sin ((4 * Real.pi * x0) ^ b) / (1 + |G|)
  let g := 1 + (x.tail.map fun v => (v - tmp) ^ (2 : ℕ)).sum
  [g * (x0 + 0.1 * Real.sin (3 * Real.pi * x0)), g * (1 - x1 + 0.1 * Real.sin (3 * Real.pi * x1)) ^ a]

/-- `cec2018_DF('DF9', x, t)`, the loop (`vendor/cec2018.py:172-175`). -/
noncomputable def cec9g (t : ℝ) (x : List ℝ) : ℝ :=
  (List.range' 1 (x.length - 1)).foldl (fun g i => g + (x.getD i 0 - Real.cos (4 * t + x.getD 0 0 + x.getD (i - 1) 0)) ^ (2 : ℕ)) 1

/-- `cec2018_DF('DF9', x, t)` (`vendor/cec2018.py:170-177`). -/
noncomputable def cec9 (t : ℝ) (x : List ℝ) : List ℝ :=
  let N : ℝ := 1 + ⌊10 * |Real.sin (0.5 * Real.pi * t)|⌋
  let g := cec9g t x
  let x0 := x.getD 0 0
  [g * (x0 + max 0 ((0.1 + 0.5 / N) * Real.sin (2 * N * Real.pi * x0))), g * (1 - x0 + max 0 ((0.1 + 0.5 / N) * Real.sin (2 * N * Real.pi * x0)))]

/-- `cec2018_DF('DF10', x, t)` (`vendor/cec2018.py:178-185`). -/
noncomputable def cec10 (t : ℝ) (x : List ℝ) : List ℝ :=
  let G := Real.sin (0.5 * Real.pi * t)
  let H := 2.25 + 2 * Real.cos (0.5 * Real.pi * t)
  let x0 := x.getD 0 0
  let x1 := x.getD 1 0
  let tmp := Real.sin (2 * Real.pi * (x0 + x1)) / (1 + |G|)
  let g := 1 + ((x.drop 2).map fun v => (v - tmp) ^ (2 : ℕ)).sum
  [g * Real.sin (0.5 * Real.pi * x0) ^ H, g * Real.sin (0.5 * Real.pi * x1) ^ H * Real.cos (0.5 * Real.pi * x0) ^ H,
    g * Real.cos (0.5 * Real.pi * x1) ^ H * Real.cos (0.5 * Real.pi * x0) ^ H]

/-- `cec2018_DF('DF11', x, t)` (`vendor/cec2018.py:186-192`). -/
noncomputable def cec11 (t : ℝ) (x : List ℝ) : List ℝ :=
  let G := |Real.sin (0.5 * Real.pi * t)|
  let g := 1 + G + ((x.drop 2).map fun v => (v - 0.5 * G * x.getD 0 0) ^ (2 : ℕ)).sum
  let y := [0, 1].map fun i => Real.pi * G / 6.0 + (Real.pi / 2 - Real.pi * G / 3.0) * x.getD i 0
  [g * Real.sin (y.getD 0 0), g * Real.sin (y.getD 1 0) * Real.cos (y.getD 0 0), g * Real.cos (y.getD 1 0) * Real.cos (y.getD 0 0)]

/-- `cec2018_DF('DF12', x, t)` (`vendor/cec2018.py:193-200`). -/
noncomputable def cec12 (t : ℝ) (x : List ℝ) : List ℝ :=
  let k := 10 * Real.sin (Real.pi * t)
  let x0 := x.getD 0 0
  let x1 := x.getD 1 0
  let tmp1 := (x.drop 2).map fun v => v - Real.sin (t * x0)
  let tmp2 := [Real.sin (⌊k * (2 * x0 - 1)⌋ * Real.pi / 2)]
  let g := 1 + (tmp1.map fun v => v ^ (2 : ℕ)).sum + tmp2.prod
  [g * Real.cos (0.5 * Real.pi * x1) * Real.cos (0.5 * Real.pi * x0), g * Real.sin (0.5 * Real.pi * x1) * Real.cos (0.5 * Real.pi * x0),
    g * Real.sin (0.5 * Real.pi * x1)]

/-- `cec2018_DF('DF13', x, t)` (`vendor/cec2018.py:201-208`): `g` multiplies the first term of the third objective only. -/
noncomputable def cec13 (t : ℝ) (x : List ℝ) : List ℝ :=
  let G := Real.sin (0.5 * Real.pi * t)
  let p : ℝ := ⌊6 * G⌋
  let x0 := x.getD 0 0
  let x1 := x.getD 1 0
  let g := 1 + ((x.drop 2).map fun v => (v - G) ^ (2 : ℕ)).sum
  [g * Real.cos (0.5 * Real.pi * x0) ^ (2 : ℕ), g * Real.cos (0.5 * Real.pi * x1) ^ (2 : ℕ),
    g * Real.sin (0.5 * Real.pi * x0) ^ (2 : ℕ) + Real.sin (0.5 * Real.pi * x0) * Real.cos (p * Real.pi * x0) ^ (2 : ℕ) +
      Real.sin (0.5 * Real.pi * x1) ^ (2 : ℕ) + Real.sin (0.5 * Real.pi * x1) * Real.cos (p * Real.pi * x1) ^ (2 : ℕ)]

/-- `cec2018_DF('DF14', x, t)` (`vendor/cec2018.py:209-215`). -/
noncomputable def cec14 (t : ℝ) (x : List ℝ) : List ℝ :=
  let G := Real.sin (0.5 * Real.pi * t)
  let g := 1 + ((x.drop 2).map fun v => (v - G) ^ (2 : ℕ)).sum
  let x1 := x.getD 1 0
  let y := 0.5 + G * (x.getD 0 0 - 0.5)
  [g * (1 - y + 0.05 * Real.sin (6 * Real.pi * y)),
    g * (1 - x1 + 0.05 * Real.sin (6 * Real.pi * x1)) * (y + 0.05 * Real.sin (6 * Real.pi * y)),
    g * (x1 + 0.05 * Real.sin (6 * Real.pi * x1)) * (y + 0.05 * Real.sin (6 * Real.pi * y))]

/-- `cec2018_DF` (`vendor/cec2018.py:99-216`). -/
noncomputable def cecDF (k : ℕ) (x : List ℝ) (t : ℝ) : List ℝ :=
  match k with
  | 1 => cec1 t x | 2 => cec2 t x | 3 => cec3 t x | 4 => cec4 t x | 5 => cec5 t x | 6 => cec6 t x | 7 => cec7 t x
  | 8 => cec8 t x | 9 => cec9 t x | 10 => cec10 t x | 11 => cec11 t x | 12 => cec12 t x | 13 => cec13 t x | 14 => cec14 t x
  | _ => []

/-- `get_PF` (`vendor/cec2018.py:382-398`) for `f` given as the list of its rows: with `nondominate` the result is the empty list. -/
def cecGetPF (rows : List (List ℝ)) (nondominate : Bool) : List (List ℝ) := if nondominate then [] else rows

/-- The value number `i` of `np.linspace(0, 1, 50)` (`vendor/cec2018.py:258, 325`). -/
noncomputable def cecU (i : ℕ) : ℝ := (linspace 0 1 50).getD i 0

/-- The flattened `50 × 50` grids of `cec2018_DF_PF` (`vendor/cec2018.py:325`, `order='F'` at 387): entry `(i, j)` of `x1` is `cecU j`, of `x2` is
`cecU i`, and the columns follow each other. `c i j` is the row computed from the entries `(i, j)`. -/
noncomputable def cecGrid (c : ℕ → ℕ → List ℝ) : List (List ℝ) := (List.range 50).flatMap fun j => (List.range 50).map fun i => c i j

/-- `dot(A, B)` of two `50 × 50` arrays is the matrix product (`vendor/cec2018.py:339-340`), entry `(i, j)`. -/
noncomputable def cecDot (A B : ℕ → ℕ → ℝ) (i j : ℕ) : ℝ := ((List.range 50).map fun k => A i k * B k j).sum

/-- `cec2018_DF_PF` (`vendor/cec2018.py:246-379`), with `g = 1`; the maximum in DF9 is taken over all points (and of
no points raises).  -/
noncomputable def cecFront (k : ℕ) (t : ℝ) (n : ℕ) : Option (List (List ℝ)) :=
  let s := Real.sin (0.5 * Real.pi * t)
  match k with
  | 1 => some (cecGetPF ((linspace 0 1 n).map fun x => [x, 1 - (x / 1) ^ (0.75 * s + 1.25)]) false)
  | 2 => some (cecGetPF ((linspace 0 1 n).map fun x => [x, 1 - (x / 1) ^ (0.5 : ℝ)]) false)
  | 3 => some (cecGetPF ((linspace 0 1 n).map fun x => [x, 1 - (x / 1) ^ (s + 1.5)]) false)
  | 4 =>
    let b := 1 + |Real.cos (0.5 * Real.pi * t)|
    some (cecGetPF ((linspace s (s + b) 50).map fun x => [|x - s| ^ (1.5 + s), |x - s - b| ^ (1.5 + s)]) false)
  | 5 =>
    let w : ℝ := ⌊10 * s⌋
    some (cecGetPF ((linspace 0 1 n).map fun x => [x + 0.02 * Real.sin (w * Real.pi * x), 1 - x + 0.02 * Real.sin (w * Real.pi * x)]) false)
  | 6 =>
    let a := 0.2 + 2.8 * |s|
    some (cecGetPF ((linspace 0 1 n).map fun x =>
      [(x + 0.1 * Real.sin (3 * Real.pi * x)) ^ a, (1 - x + 0.1 * Real.sin (3 * Real.pi * x)) ^ a]) false)
  | 7 => some (cecGetPF ((linspace 1 4 n).map fun x => [(1 + t) / x, x / (1 + t)]) false)
  | 8 =>
    let a := 2.25 + 2 * Real.cos (2 * Real.pi * t)
    some (cecGetPF ((linspace 0 1 n).map fun x =>
      [x + 0.1 * Real.sin (3 * Real.pi * x), (1 - x + 0.1 * Real.sin (3 * Real.pi * x)) ^ a]) false)
  | 9 =>
    let N : ℝ := 1 + ⌊10 * |s|⌋
    let w := max 0 (((linspace 0 1 n).map fun x => (0.1 + 0.5 / N) * Real.sin (2 * N * Real.pi * x)).foldl max ((0.1 + 0.5 / N) * Real.sin 0))
    if n = 0 then none else some (cecGetPF ((linspace 0 1 n).map fun x => [x + w, 1 - x + w]) true)
  | 10 =>
    let H := 2.25 + 2 * Real.cos (0.5 * Real.pi * t)
    some (cecGetPF (cecGrid fun i j =>
      [Real.sin (0.5 * Real.pi * cecU j) ^ H, Real.sin (0.5 * Real.pi * cecU i) ^ H * Real.cos (0.5 * Real.pi * cecU j) ^ H,
        Real.cos (0.5 * Real.pi * cecU i) ^ H * Real.cos (0.5 * Real.pi * cecU j) ^ H]) false)
  | 11 =>
    let y1 := fun _ j => Real.pi * |s| / 6 + (Real.pi / 2 - Real.pi * |s| / 3) * cecU j
    let y2 := fun i _ => Real.pi * |s| / 6 + (Real.pi / 2 - Real.pi * |s| / 3) * cecU i
    some (cecGetPF (cecGrid fun i j =>
      [Real.sin (y1 i j), cecDot (fun a b => Real.sin (y2 a b)) (fun a b => Real.cos (y1 a b)) i j,
        cecDot (fun a b => Real.cos (y2 a b)) (fun a b => Real.cos (y1 a b)) i j]) false)
  | 12 =>
    let k := 10 * Real.sin (Real.pi * t)
    some (cecGetPF (cecGrid fun i j =>
      let g := 1 + |Real.sin (⌊k * (2 * cecU j - 1)⌋ * Real.pi / 2) * Real.sin (⌊k * (2 * cecU i - 1)⌋ * Real.pi / 2)|
      [g * Real.cos (0.5 * Real.pi * cecU i) * Real.cos (0.5 * Real.pi * cecU j), g * Real.sin (0.5 * Real.pi * cecU i) * Real.cos (0.5 * Real.pi * cecU j),
        g * Real.sin (0.5 * Real.pi * cecU j)]) true)
  | 13 =>
    let p : ℝ := ⌊6 * s⌋
    some (cecGetPF (cecGrid fun i j =>
      [Real.cos (0.5 * Real.pi * cecU j) ^ 2, Real.cos (0.5 * Real.pi * cecU i) ^ 2,
        Real.sin (0.5 * Real.pi * cecU j) ^ 2 + Real.sin (0.5 * Real.pi * cecU j) * Real.cos (p * Real.pi * cecU j) ^ 2 +
          Real.sin (0.5 * Real.pi * cecU i) ^ 2 + Real.sin (0.5 * Real.pi * cecU i) * Real.cos (p * Real.pi * cecU i) ^ 2]) true)
  | 14 =>
    some (cecGetPF (cecGrid fun i j =>
      let y := 0.5 + s * (cecU j - 0.5)
      [1 - y + 0.05 * Real.sin (6 * Real.pi * y), (1 - cecU i + 0.05 * Real.sin (6 * Real.pi * cecU i)) * (y + 0.05 * Real.sin (6 * Real.pi * y)),
        (cecU i + 0.05 * Real.sin (6 * Real.pi * cecU i)) * (y + 0.05 * Real.sin (6 * Real.pi * y))]) false)
  | _ => none

end Model
