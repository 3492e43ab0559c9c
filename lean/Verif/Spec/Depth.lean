import Verif.Model.Basetypes
/-!
# C90: the height of a tree
-/

namespace MUL.Spec
open MUL

/-- Every path from the root of the tree has at most `d` nodes, where an equation counts twice (for itself and for the difference of its two
sides, which is evaluated in its place). -/
inductive HeightLe {F : Type} : Nat → AST F → Prop
  | scalar (d : Nat) (s : F) : HeightLe (d + 1) (.scalar s)
  | variable (d : Nat) (n : Str) : HeightLe (d + 1) (.variable n)
  | vector (d : Nat) (v : List (AST F)) : (∀ a ∈ v, HeightLe d a) → HeightLe (d + 1) (.vector v)
  | matrix (d : Nat) (m : List (List (AST F))) : (∀ l ∈ m, ∀ a ∈ l, HeightLe d a) → HeightLe (d + 1) (.matrix m)
  | list (d : Nat) (l : List (AST F)) : (∀ a ∈ l, HeightLe d a) → HeightLe (d + 1) (.list l)
  | function (d : Nat) (n : Str) (args : List (AST F)) : (∀ a ∈ args, HeightLe d a) → HeightLe (d + 1) (.function n args)
  | simple (d : Nat) (op : SimpleOp) (l r : AST F) : HeightLe d l → HeightLe d r → HeightLe (d + 1) (.simple op l r)
  | integral (d : Nat) (e : AST F) (x : Str) (lo hi : AST F) : HeightLe d e → HeightLe d lo → HeightLe d hi →
      HeightLe (d + 1) (.integral e x lo hi)
  | derivative (d : Nat) (e : AST F) (x : Str) (a : AST F) : HeightLe d e → HeightLe d a → HeightLe (d + 1) (.derivative e x a)
  | equation (d : Nat) (eqs : List (AST F × AST F)) (vars : List Str) : (∀ e ∈ eqs, HeightLe d e.1) → (∀ e ∈ eqs, HeightLe d e.2) →
      HeightLe (d + 2) (.equation eqs vars)

end MUL.Spec
