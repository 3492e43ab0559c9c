import Verif.Spec.Eval
/-!
# Formulas of numbers: specification for C80
-/

namespace MUL.Spec
variable {F : Type}

/-- At least one value, and only numbers (no vectors, no matrices). -/
def Numbers (vs : List (Value F)) : Prop := vs ≠ [] ∧ ∀ v ∈ vs, ∃ s, v = .scalar s

/-- `NumberFormula Φ V e`: `e` is built from numbers, variables with names in `V`, calls of functions with names in `Φ`, non-empty lists,
operators, built-in functions, derivatives, and integrals between two comparable numbers (not NaN). There are neither vectors nor
matrices nor equations in it. The variable of a derivative may be used like those in `V`. -/
inductive NumberFormula [FArith F] (Φ : Str → Prop) : (Str → Prop) → AST F → Prop
  | scalar {V : Str → Prop} (s : F) : NumberFormula Φ V (.scalar s)
  | list {V : Str → Prop} (l : List (AST F)) : l ≠ [] → (∀ a ∈ l, NumberFormula Φ V a) → NumberFormula Φ V (.list l)
  | variable {V : Str → Prop} (n : Str) : V n → NumberFormula Φ V (.variable n)
  | function {V : Str → Prop} (g : Str) (args : List (AST F)) : Φ g → (∀ a ∈ args, NumberFormula Φ V a) →
      NumberFormula Φ V (.function g args)
  | simple {V : Str → Prop} (op : SimpleOp) (l r : AST F) : NumberFormula Φ V l → NumberFormula Φ V r →
      NumberFormula Φ V (.simple op l r)
  | integral {V : Str → Prop} (e : AST F) (x : Str) (a b : F) : NumberFormula Φ V e →
      (FArith.beq a b = true ∨ FArith.lt a b = true ∨ FArith.lt b a = true) →
      NumberFormula Φ V (.integral e x (.scalar a) (.scalar b))
  | derivative {V : Str → Prop} (e : AST F) (x : Str) (a : AST F) : NumberFormula Φ (fun n => V n ∨ n = x) e →
      NumberFormula Φ V a → NumberFormula Φ V (.derivative e x a)

/-- In the context `c`, variables with names in `V` hold numbers and functions with names in `Φ` are formulas of numbers (of their
parameters and of such variables). Everything else in the context is arbitrary. -/
structure NumberContext [FArith F] (Φ V : Str → Prop) (c : Context F) : Prop where
  vars : ∀ v ∈ c.vars, V v.name → Numbers v.values
  funs : ∀ f ∈ c.funs, Φ f.name → NumberFormula Φ (fun n => V n ∨ n ∈ f.inputs) f.ast

/-- `Harmless Φ V e`: `e` is well formed (as for C26) and each equation in it has search variables and is between formulas of
numbers. -/
inductive Harmless [FArith F] (Φ : Str → Prop) : (Str → Prop) → AST F → Prop
  | scalar {V : Str → Prop} (s : F) : Harmless Φ V (.scalar s)
  | vector {V : Str → Prop} (v : List (AST F)) : v ≠ [] → (∀ a ∈ v, Harmless Φ V a) → Harmless Φ V (.vector v)
  | matrix {V : Str → Prop} (m : List (List (AST F))) (n : Nat) : m ≠ [] → 0 < n → (∀ l ∈ m, l.length = n) →
      (∀ l ∈ m, ∀ a ∈ l, Harmless Φ V a) → Harmless Φ V (.matrix m)
  | list {V : Str → Prop} (l : List (AST F)) : (∀ a ∈ l, Harmless Φ V a) → Harmless Φ V (.list l)
  | variable {V : Str → Prop} (n : Str) : Harmless Φ V (.variable n)
  | function {V : Str → Prop} (n : Str) (args : List (AST F)) : (∀ a ∈ args, Harmless Φ V a) → Harmless Φ V (.function n args)
  | simple {V : Str → Prop} (op : SimpleOp) (l r : AST F) : Harmless Φ V l → Harmless Φ V r → Harmless Φ V (.simple op l r)
  | integral {V : Str → Prop} (e : AST F) (x : Str) (lo hi : AST F) : Harmless Φ V e → Harmless Φ V lo → Harmless Φ V hi →
      Harmless Φ V (.integral e x lo hi)
  | derivative {V : Str → Prop} (e : AST F) (x : Str) (a : AST F) : Harmless Φ (fun n => V n ∨ n = x) e → Harmless Φ V a →
      Harmless Φ V (.derivative e x a)
  | equation {V : Str → Prop} (es : List (AST F × AST F)) (names : List Str) : names ≠ [] →
      (∀ p ∈ es, NumberFormula Φ (fun n => V n ∨ n ∈ names) p.1) →
      (∀ p ∈ es, NumberFormula Φ (fun n => V n ∨ n ∈ names) p.2) → Harmless Φ V (.equation es names)

end MUL.Spec
