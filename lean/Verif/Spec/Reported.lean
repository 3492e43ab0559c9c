import Verif.Model.Basetypes
/-!
# C105: what a reported error says about the request

The parts of an expression at any depth, and for each error what must be true of the expression, the functions and the variables of the context if
this error is reported.
-/

namespace MUL.Spec
open MUL

/-- The expressions an expression is made of directly. -/
def children {F : Type} : AST F → List (AST F)
  | .scalar _ => []
  | .vector v => v
  | .matrix m => m.flatten
  | .list l => l
  | .variable _ => []
  | .function _ args => args
  | .simple _ l r => [l, r]
  | .integral e _ lo hi => [e, lo, hi]
  | .derivative e _ a => [e, a]
  | .equation eqs _ => eqs.flatMap fun e => [e.1, e.2]

/-- `PartOf s t`: the expression `s` occurs in `t`, anywhere (also in integrands, in derivatives and in equations). -/
inductive PartOf {F : Type} (s : AST F) : AST F → Prop
  | whole : PartOf s s
  | child (c t : AST F) : c ∈ children t → PartOf s c → PartOf s t

/-- `s` occurs in the expression `t` or in the body of a function of the context. -/
def Somewhere {F : Type} (t : AST F) (ctx : Context F) (s : AST F) : Prop := PartOf s t ∨ ∃ f ∈ ctx.funs, PartOf s f.ast

/-- What the report of the error `e` for the expression `t` in the context `ctx` is about. -/
def Justified {F : Type} (t : AST F) (ctx : Context F) : EvalError → Prop
  -- the name is used and the context has no such variable
  | .noVariable v => (∀ u ∈ ctx.vars, u.name ≠ v) ∧ Somewhere t ctx (.variable v)
  -- the function is called and the context has no such function
  | .noFunction g => (∀ f ∈ ctx.funs, f.name ≠ g) ∧ ∃ args, Somewhere t ctx (.function g args)
  -- a function of the context has that many parameters and is called with that many arguments
  | .wrongNumberOfArgs expected given => expected ≠ given ∧
      ∃ f ∈ ctx.funs, f.inputs.length = expected ∧ ∃ args, args.length = given ∧ Somewhere t ctx (.function f.name args)
  -- a function of the context calls itself in its body (or a function without a name is called)
  | .recursiveFunction => (∃ f ∈ ctx.funs, ∃ args, PartOf (.function f.name args) f.ast) ∨ ∃ args, Somewhere t ctx (.function [] args)
  -- there is a vector, a matrix
  | .nonScalarInVector => ∃ v, Somewhere t ctx (.vector v)
  | .nonScalarInMatrix => ∃ m, Somewhere t ctx (.matrix m)
  -- there is an equation
  | .vectorInEq => ∃ eqs names, eqs ≠ [] ∧ Somewhere t ctx (.equation eqs names)
  | .matrixInEq => ∃ eqs names, eqs ≠ [] ∧ Somewhere t ctx (.equation eqs names)
  -- there are unknowns
  | .searchVarsInVars => ∃ eqs names, names ≠ [] ∧ Somewhere t ctx (.equation eqs names)
  -- there is a request without equations
  | .nothingToDoEq => ∃ names, Somewhere t ctx (.equation [] names)
  -- there are fewer equations than unknowns
  | .underdeterminedSystem => ∃ eqs names, eqs.length < names.length ∧ Somewhere t ctx (.equation eqs names)
  -- these three are used inside of the search only
  | .infiniteSolutions => False
  | .naNOrInf => False
  | .expressionCheckFailed => False
  -- the text comes from an operation
  | .mathError _ => True

end MUL.Spec
