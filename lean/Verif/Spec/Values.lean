import Verif.Model.Basetypes
/-!
# Specification for C65: values hold what was put into them
-/

namespace MUL.Spec
variable {F : Type}

/-- `x` is one of the numbers in a value. -/
inductive Entry : F → Value F → Prop
  | scalar (x : F) : Entry x (.scalar x)
  | vector (x : F) (l : List F) : x ∈ l → Entry x (.vector l)
  | matrix (x : F) (row : List F) (rows : List (List F)) : row ∈ rows → x ∈ row → Entry x (.matrix rows)

/-- The value with every number replaced. -/
def mapNumbers {G : Type} (f : F → G) : Value F → Value G
  | .scalar x => .scalar (f x)
  | .vector l => .vector (l.map f)
  | .matrix m => .matrix (m.map fun row => row.map f)

/-- Rows of `c` numbers. -/
def grid {α : Type} {r c : Nat} (g : Fin r → Fin c → α) : List (List α) := List.ofFn fun i => List.ofFn fun j => g i j

end MUL.Spec
