import Verif.Model.Eval
import Verif.Spec.Combinatorics
/-!
# C99: the readings of an expression with several values
-/

namespace MUL.Spec
open MUL

section
variable {F : Type}

/-- `±` is `+` or `-`; any other operation is itself. -/
def signs : SimpleOp → List SimpleOp
  | .addSub => [.add, .sub]
  | op => [op]

mutual
/-- The readings of an expression: one of the values of every variable, one of the entries of every list, `+` or `-` for every `±`, chosen
independently at every place; the choice for the last place changes first. -/
def readings (c : Context F) : AST F → List (AST F)
  | .scalar s => [.scalar s]
  | .variable n => ((c.findVar n).getD []).map AST.fromValue
  | .list l => (readingsAll c l).flatten
  | .vector v => (choices (readingsAll c v)).map .vector
  | .matrix m => (choices (readingsRows c m)).map .matrix
  | .simple op l r => (readings c l).flatMap fun l' => (readings c r).flatMap fun r' => (signs op).map fun o => .simple o l' r'
  | .function f args => [.function f args]
  | .integral e x lo hi => [.integral e x lo hi]
  | .derivative e x a => [.derivative e x a]
  | .equation es names => [.equation es names]
/-- for each expression its readings -/
def readingsAll (c : Context F) : List (AST F) → List (List (AST F))
  | [] => []
  | a :: as => readings c a :: readingsAll c as
/-- for each row its readings -/
def readingsRows (c : Context F) : List (List (AST F)) → List (List (List (AST F)))
  | [] => []
  | r :: rs => choices (readingsAll c r) :: readingsRows c rs
end

/-- There is at least one choice at every place: no empty lists, no variables that are unknown or without values. The tree consists of
numbers, variables, vectors, matrices, lists and operations. -/
inductive Offered (c : Context F) : AST F → Prop
  | scalar (s : F) : Offered c (.scalar s)
  | vector (v : List (AST F)) : (∀ a ∈ v, Offered c a) → Offered c (.vector v)
  | matrix (m : List (List (AST F))) : (∀ l ∈ m, ∀ a ∈ l, Offered c a) → Offered c (.matrix m)
  | list (l : List (AST F)) : l ≠ [] → (∀ a ∈ l, Offered c a) → Offered c (.list l)
  | variable (n : Str) (vs : List (Value F)) : c.findVar n = some vs → vs ≠ [] → Offered c (.variable n)
  | simple (op : SimpleOp) (l r : AST F) : Offered c l → Offered c r → Offered c (.simple op l r)

/-- All variables of the tree have one value, it consists of numbers, variables, vectors, matrices and operations, and `±` occurs so many
times in it. -/
inductive PlusMinus (c : Context F) : AST F → Nat → Prop
  | scalar (s : F) : PlusMinus c (.scalar s) 0
  | vector (l : List (AST F × Nat)) : (∀ p ∈ l, PlusMinus c p.1 p.2) → PlusMinus c (.vector (l.map Prod.fst)) (l.map Prod.snd).sum
  | matrix (m : List (List (AST F × Nat))) : (∀ l ∈ m, ∀ p ∈ l, PlusMinus c p.1 p.2) →
      PlusMinus c (.matrix (m.map (List.map Prod.fst))) (m.map fun l => (l.map Prod.snd).sum).sum
  | variable (n : Str) (v : Value F) : c.findVar n = some [v] → PlusMinus c (.variable n) 0
  | simple (op : SimpleOp) (l r : AST F) (a b : Nat) : PlusMinus c l a → PlusMinus c r b →
      PlusMinus c (.simple op l r) (a + (b + if op = .addSub then 1 else 0))

end
end MUL.Spec
