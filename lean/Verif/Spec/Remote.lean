import Mathlib.Logic.Basic

/-!
# Specification: what a data cache has to deliver

Independent of the model.
-/

namespace Spec

/-- The content a user of the data cache is entitled to: what was cached before, else the copy bundled with the package, else what the server has. -/
def cacheExpected {D : Type} (cached bundled : Option D) (server : D) : D :=
  match cached with
  | some d => d
  | none => match bundled with
    | some d => d
    | none => server

/-- The only contents the cached file may have at any time: what it had before, or, if there was none, nothing or the complete data of the server. -/
def CacheIntact {D : Type} (before now : Option D) (server : D) : Prop :=
  match before with
  | some d => now = some d
  | none => now = none ∨ now = some server

end Spec
