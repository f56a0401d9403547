import Mathlib.Data.Real.Basic

/-!
Vocabulary for the table of multi-objective runs (C154).
-/

namespace Spec

/-- The three changes from one generation to another. -/
structure Deltas where
  ideal : ℝ
  nadir : ℝ
  f : ℝ

/-- All three changes are at most `tol`. -/
def Deltas.Quiet (d : Deltas) (tol : ℝ) : Prop := d.ideal ≤ tol ∧ d.nadir ≤ tol ∧ d.f ≤ tol

/-- What the columns `eps` and `indicator` show for a change: the first of ideal point and nadir point that moved by more than `tol`,
otherwise the change of the front. -/
def Shown (d : Deltas) (tol : ℝ) (eps : ℝ) (name : String) : Prop :=
  (tol < d.ideal ∧ eps = d.ideal ∧ name = "ideal") ∨ (d.ideal ≤ tol ∧ tol < d.nadir ∧ eps = d.nadir ∧ name = "nadir") ∨
    (d.ideal ≤ tol ∧ d.nadir ≤ tol ∧ eps = d.f ∧ name = "f")

/-- `Ref delta tol s k r`: generation `r` is the one generation `k` is compared with. The generations with a feasible optimum are those where
`s` has a value. The first of them is the reference of the next; a reference is replaced by a generation that is not quiet relative to it. -/
inductive Ref {A : Type*} (delta : A → A → Deltas) (tol : ℝ) (s : ℕ → Option A) : ℕ → ℕ → Prop
  | first {k r : ℕ} (hr : (s r).isSome) (hlt : r < k) (hb : ∀ j < k, (s j).isSome → j = r) : Ref delta tol s k r
  | keep {k m r : ℕ} {a c : A} (h : Ref delta tol s m r) (hr : s r = some a) (hm : s m = some c) (hq : (delta a c).Quiet tol)
      (hlt : m < k) (hb : ∀ j, m < j → j < k → s j = none) : Ref delta tol s k r
  | move {k m r : ℕ} {a c : A} (h : Ref delta tol s m r) (hr : s r = some a) (hm : s m = some c) (hq : ¬ (delta a c).Quiet tol)
      (hlt : m < k) (hb : ∀ j, m < j → j < k → s j = none) : Ref delta tol s k m

end Spec
