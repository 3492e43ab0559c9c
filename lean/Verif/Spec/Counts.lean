import Verif.Spec.Eval
import Mathlib.Algebra.BigOperators.Group.List.Basic
/-!
# How many values an expression has: specification for C82
-/

namespace MUL.Spec
variable {F : Type}

/-- `ValueCount look ρ e a b`: the expression `e` has at least `a` and at most `b` values, if the variable `n` has `ρ n` values and
`look` finds the functions. Vectors, matrices, operations and calls multiply, lists add, `±` doubles. Parameters and the variables of
derivatives and integrals have one value. -/
inductive ValueCount [FArith F] (look : Str → Option (Function F)) : (Str → Nat) → AST F → Nat → Nat → Prop
  | scalar {ρ : Str → Nat} (s : F) : ValueCount look ρ (.scalar s) 1 1
  | vector {ρ : Str → Nat} (l : List (AST F × Nat × Nat)) : (∀ p ∈ l, ValueCount look ρ p.1 p.2.1 p.2.2) →
      ValueCount look ρ (.vector (l.map fun p => p.1)) (l.map fun p => p.2.1).prod (l.map fun p => p.2.2).prod
  | matrix {ρ : Str → Nat} (m : List (List (AST F × Nat × Nat))) : (∀ l ∈ m, ∀ p ∈ l, ValueCount look ρ p.1 p.2.1 p.2.2) →
      ValueCount look ρ (.matrix (m.map fun l => l.map fun p => p.1)) (m.map fun l => (l.map fun p => p.2.1).prod).prod
        (m.map fun l => (l.map fun p => p.2.2).prod).prod
  | list {ρ : Str → Nat} (l : List (AST F × Nat × Nat)) : (∀ p ∈ l, ValueCount look ρ p.1 p.2.1 p.2.2) →
      ValueCount look ρ (.list (l.map fun p => p.1)) (l.map fun p => p.2.1).sum (l.map fun p => p.2.2).sum
  | variable {ρ : Str → Nat} (n : Str) : ValueCount look ρ (.variable n) (ρ n) (ρ n)
  | function {ρ : Str → Nat} (g : Str) (f : Function F) (a b : Nat) (l : List (AST F × Nat × Nat)) : look g = some f →
      (∀ p ∈ l, ValueCount look ρ p.1 p.2.1 p.2.2) → ValueCount look (fun n => if n ∈ f.inputs then 1 else ρ n) f.ast a b →
      ValueCount look ρ (.function g (l.map fun p => p.1)) ((l.map fun p => p.2.1).prod * a) ((l.map fun p => p.2.2).prod * b)
  | simple {ρ : Str → Nat} (op : SimpleOp) (l r : AST F) (a b a' b' : Nat) : op ≠ .addSub → ValueCount look ρ l a b →
      ValueCount look ρ r a' b' → ValueCount look ρ (.simple op l r) (a * a') (b * b')
  | addSub {ρ : Str → Nat} (l r : AST F) (a b a' b' : Nat) : ValueCount look ρ l a b →
      ValueCount look ρ r a' b' → ValueCount look ρ (.simple .addSub l r) (a * a' * 2) (b * b' * 2)
  /-- between different comparable numbers, an integral has as many values as the integrand -/
  | integral {ρ : Str → Nat} (e : AST F) (x : Str) (a b : Nat) (lo hi : F) : FArith.beq lo hi = false →
      (FArith.lt lo hi = true ∨ FArith.lt hi lo = true) → ValueCount look (fun n => if n = x then 1 else ρ n) e a b →
      ValueCount look ρ (.integral e x (.scalar lo) (.scalar hi)) a b
  /-- between equal numbers it has one value, 0 -/
  | integral_empty {ρ : Str → Nat} (e : AST F) (x : Str) (lo hi : F) : FArith.beq lo hi = true →
      ValueCount look ρ (.integral e x (.scalar lo) (.scalar hi)) 1 1
  /-- in general it has none if a bound is NaN, one if the bounds are equal, and as many as the integrand otherwise, for each
  combination of bounds -/
  | integral_any {ρ : Str → Nat} (e : AST F) (x : Str) (lo hi : AST F) (a b a' b' a'' b'' : Nat) :
      ValueCount look (fun n => if n = x then 1 else ρ n) e a b → ValueCount look ρ lo a' b' → ValueCount look ρ hi a'' b'' →
      ValueCount look ρ (.integral e x lo hi) 0 (b' * b'' * max 1 b)
  | derivative {ρ : Str → Nat} (e : AST F) (x : Str) (p : AST F) (a b a' b' : Nat) :
      ValueCount look (fun n => if n = x then 1 else ρ n) e a b → ValueCount look ρ p a' b' →
      ValueCount look ρ (.derivative e x p) (a' * a) (b' * b)
  | equation {ρ : Str → Nat} (es : List (AST F × AST F)) (names : List Str) : ValueCount look ρ (.equation es names) 0 10

/-- The number of values of a variable (0 if there is no such variable). -/
def countOf (c : Context F) (n : Str) : Nat := ((c.findVar n).getD []).length

/-- An expression with at most one value: no `±`, no lists, no equations, and the same holds for the functions it calls. -/
inductive OneValued (look : Str → Option (Function F)) : AST F → Prop
  | scalar (s : F) : OneValued look (.scalar s)
  | vector (l : List (AST F)) : (∀ e ∈ l, OneValued look e) → OneValued look (.vector l)
  | matrix (m : List (List (AST F))) : (∀ l ∈ m, ∀ e ∈ l, OneValued look e) → OneValued look (.matrix m)
  | variable (n : Str) : OneValued look (.variable n)
  | function (g : Str) (args : List (AST F)) (f : Function F) : look g = some f → OneValued look f.ast →
      (∀ e ∈ args, OneValued look e) → OneValued look (.function g args)
  | simple (op : SimpleOp) (l r : AST F) : op ≠ .addSub → OneValued look l → OneValued look r → OneValued look (.simple op l r)
  | integral (e : AST F) (x : Str) (lo hi : AST F) : OneValued look e → OneValued look lo → OneValued look hi →
      OneValued look (.integral e x lo hi)
  | derivative (e : AST F) (x : Str) (p : AST F) : OneValued look e → OneValued look p → OneValued look (.derivative e x p)

end MUL.Spec
