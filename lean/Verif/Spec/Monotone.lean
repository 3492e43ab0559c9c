import Mathlib.Data.List.Forall2
import Verif.Spec.Grammar
/-!
# Rising and falling expressions
-/

namespace MUL.Spec

section
variable {F : Type} [FArith F]

/-- Numbers in the given order: `w` is not below `v` if `rising`, else not above `v` (NaN is neither below nor above anything); or equal values of
any kind. -/
def InOrder (rising : Bool) (v w : Value F) : Prop :=
  v = w ∨ ∃ a b : F, v = .scalar a ∧ w = .scalar b ∧ (if rising then FArith.lt b a else FArith.lt a b) = false

/-- Numbers, variables that are not in `X`, and operations on them. -/
inductive Without (X : Str → Prop) : AST F → Prop
  | number (s : F) : Without X (.scalar s)
  | variable (y : Str) : ¬ X y → Without X (.variable y)
  | operation (op : SimpleOp) (l r : AST F) : Without X l → Without X r → Without X (.simple op l r)

/-- Expressions that rise (or fall) with the variables in `X` by their form: `x`, sums and differences, products with and quotients by positive
numbers, negation, parentheses, plus-minus with an expression without such variables, and integrals of such expressions. -/
inductive Rises (X : Str → Prop) : Bool → AST F → Prop
  | without (d : Bool) (e : AST F) : Without X e → Rises X d e
  | var (x : Str) : X x → Rises X true (.variable x)
  | add (d : Bool) (l r : AST F) : Rises X d l → Rises X d r → Rises X d (.simple .add l r)
  | sub (d : Bool) (l r : AST F) : Rises X d l → Rises X (!d) r → Rises X d (.simple .sub l r)
  | addSub (d : Bool) (l r : AST F) : Rises X d l → Without X r → Rises X d (.simple .addSub l r)
  | neg (d : Bool) (l r : AST F) : Without X l → Rises X (!d) r → Rises X d (.simple .neg l r)
  | paren (d : Bool) (l r : AST F) : Rises X d l → Without X r → Rises X d (.simple .parenths l r)
  | times (d : Bool) (op : SimpleOp) (c : F) (e : AST F) : op = .mult ∨ op = .hiddenMult → FArith.lt (FArith.ofInt 0) c = true → Rises X d e →
      Rises X d (.simple op (.scalar c) e)
  | timesRight (d : Bool) (op : SimpleOp) (c : F) (e : AST F) : op = .mult ∨ op = .hiddenMult → FArith.lt (FArith.ofInt 0) c = true → Rises X d e →
      Rises X d (.simple op e (.scalar c))
  | divided (d : Bool) (c : F) (e : AST F) : FArith.lt (FArith.ofInt 0) c = true → Rises X d e → Rises X d (.simple .div e (.scalar c))
  | integral (d : Bool) (e : AST F) (x : Str) (lo hi : AST F) : Rises X d e → Without X lo → Without X hi → Rises X d (.integral e x lo hi)

/-- Contexts with the same variables and functions, in which the variables in `X` have values in rising order and the others the same values. -/
def Raised (X : Str → Prop) (c c' : Context F) : Prop :=
  c.funs = c'.funs ∧ List.Forall₂ (fun p q => p.name = q.name ∧ List.Forall₂ (InOrder true) p.values q.values ∧ (¬ X p.name → p.values = q.values)) c.vars c'.vars

end

/-- Written expressions of numerals, names that are not in `X`, and operations on them. -/
inductive WithoutEx (X : Str → Prop) : Ex → Prop
  | num (ip : Str) (fp : Option Str) : WithoutEx X (.num ip fp)
  | var (y : Str) : ¬ X y → WithoutEx X (.var y)
  | paren (e : Ex) : WithoutEx X e → WithoutEx X (.paren e)
  | neg (e : Ex) : WithoutEx X e → WithoutEx X (.neg e)
  | fn (n : Str) (op : SimpleOp) (e : Ex) : WithoutEx X e → WithoutEx X (.fn n op e)
  | root (a b : Ex) : WithoutEx X a → WithoutEx X b → WithoutEx X (.root a b)
  | bin (op : BinOp) (l r : Ex) : WithoutEx X l → WithoutEx X r → WithoutEx X (.bin op l r)

/-- Written expressions that rise (or fall) with the variables in `X` by their form; `positive ip fp` says that the numeral with these digits is
positive. -/
inductive RisesEx (positive : Str → Option Str → Prop) (X : Str → Prop) : Bool → Ex → Prop
  | without (d : Bool) (e : Ex) : WithoutEx X e → RisesEx positive X d e
  | var (x : Str) : X x → RisesEx positive X true (.var x)
  | paren (d : Bool) (e : Ex) : RisesEx positive X d e → RisesEx positive X d (.paren e)
  | neg (d : Bool) (e : Ex) : RisesEx positive X (!d) e → RisesEx positive X d (.neg e)
  | add (d : Bool) (l r : Ex) : RisesEx positive X d l → RisesEx positive X d r → RisesEx positive X d (.bin .add l r)
  | sub (d : Bool) (l r : Ex) : RisesEx positive X d l → RisesEx positive X (!d) r → RisesEx positive X d (.bin .sub l r)
  | addSub (d : Bool) (l r : Ex) : RisesEx positive X d l → WithoutEx X r → RisesEx positive X d (.bin .addSub l r)
  | times (d : Bool) (op : BinOp) (ip : Str) (fp : Option Str) (e : Ex) : op = .mult ∨ op = .juxt → positive ip fp → RisesEx positive X d e →
      RisesEx positive X d (.bin op (.num ip fp) e)
  | timesRight (d : Bool) (op : BinOp) (ip : Str) (fp : Option Str) (e : Ex) : op = .mult ∨ op = .juxt → positive ip fp → RisesEx positive X d e →
      RisesEx positive X d (.bin op e (.num ip fp))
  | divided (d : Bool) (ip : Str) (fp : Option Str) (e : Ex) : positive ip fp → RisesEx positive X d e → RisesEx positive X d (.bin .div e (.num ip fp))
  | integ (d : Bool) (e : Ex) (x : Str) (lo hi : Ex) : RisesEx positive X d e → WithoutEx X lo → WithoutEx X hi → RisesEx positive X d (.integ e x lo hi)

end MUL.Spec
