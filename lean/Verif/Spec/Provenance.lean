import Verif.Model.Helpers
/-!
# C93: where the parts of a tree come from
-/

namespace MUL.Spec
open MUL

/-- A part of a tree: a name (of a variable, a function, a variable of an integral or a derivative, a search variable), a number, or any other
node (an operation, a vector, ...). -/
inductive Part (F : Type) where
  | name (n : Str)
  | number (a : F)
  | node

mutual
/-- All parts of a tree. -/
def parts {F : Type} : AST F → List (Part F)
  | .scalar a => [.number a]
  | .variable n => [.name n]
  | .vector v => .node :: partsAll v
  | .matrix m => .node :: partsRows m
  | .list l => .node :: partsAll l
  | .function n args => .name n :: partsAll args
  | .simple _ l r => .node :: (parts l ++ parts r)
  | .integral e x lo hi => .node :: .name x :: (parts e ++ parts lo ++ parts hi)
  | .derivative e x a => .node :: .name x :: (parts e ++ parts a)
  | .equation es xs => .node :: (xs.map .name ++ partsEqs es)
/-- of several trees -/
def partsAll {F : Type} : List (AST F) → List (Part F)
  | [] => []
  | a :: as => parts a ++ partsAll as
/-- of rows of trees -/
def partsRows {F : Type} : List (List (AST F)) → List (Part F)
  | [] => []
  | r :: rs => partsAll r ++ partsRows rs
/-- of equations -/
def partsEqs {F : Type} : List (AST F × AST F) → List (Part F)
  | [] => []
  | e :: es => parts e.1 ++ parts e.2 ++ partsEqs es
end

/-- The number of characters of the names among the parts. -/
def nameChars {F : Type} (l : List (Part F)) : Nat :=
  (l.map fun | .name n => n.length | _ => 0).sum

/-- The part is taken from the text `s`: a name is a piece of `s`, a number is read from a piece of `s` or is the `0` the parser fills in
for a missing operand. -/
def Part.From {F : Type} [FArith F] (s : Str) : Part F → Prop
  | .name n => n <:+: s
  | .number a => a = FArith.ofInt 0 ∨ ∃ w, w <:+: s ∧ parseF64 w = some a
  | .node => True

end MUL.Spec
