import Mathlib.Tactic.TypeStar

/-!
# What it means that a seeded run can be repeated

A program that uses random numbers has the generator that was made from the user's seed, and may make further generators
from the entropy of the operating system. The user can repeat the first, not the second.
-/

namespace Spec


/-- What a program can draw from: the generator in use, the generators the operating system would hand out, and how many of
them have been made so far. -/
structure Entropy (Γ : Type*) where
  cur : Γ
  os : Nat → Γ
  made : Nat

/-- The result, and the state of the generator in use afterwards, depend on the generator in use only. -/
def Reproducible {Γ A : Type*} (f : Entropy Γ → A × Entropy Γ) : Prop :=
  ∀ w w' : Entropy Γ, w.cur = w'.cur → (f w).1 = (f w').1 ∧ (f w).2.cur = (f w').2.cur

/-- The result of a program started with a given generator, on a machine with the entropy `os`. -/
def resultFrom {Γ A : Type*} (f : Entropy Γ → A × Entropy Γ) (g : Γ) (os : Nat → Γ) : A := (f ⟨g, os, 0⟩).1

end Spec
