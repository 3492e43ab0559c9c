import Mathlib.Data.List.Forall2
/-!
# Equations with exchanged sides
-/

namespace MUL.Spec

/-- Two systems of equations: the same equations in the same order, each one written as it is or with its two sides exchanged. -/
def SameUpToSides {α : Type} (eqs eqs' : List (α × α)) : Prop := List.Forall₂ (fun p q => q = p ∨ q = (p.2, p.1)) eqs eqs'

end MUL.Spec
