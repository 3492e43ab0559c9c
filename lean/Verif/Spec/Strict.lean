import Verif.Spec.Eval
/-!
# C97: the parts of an expression that are evaluated, and failures
-/

namespace MUL.Spec
open MUL

/-- The parts of an expression that are evaluated in the same context, in the order of their evaluation: entries, arguments, operands, bounds and
points (but not the integrand of an integral, the expression of a derivative or the sides of an equation). -/
def operands {F : Type} : AST F → List (AST F)
  | .scalar _ => []
  | .variable _ => []
  | .vector v => v
  | .matrix m => m.flatten
  | .list l => l
  | .function _ args => args
  | .simple _ l r => [l, r]
  | .integral _ _ lo hi => [lo, hi]
  | .derivative _ _ a => [a]
  | .equation _ _ => []

/-- `p` is a part of `t`, at any depth. -/
inductive Inside {F : Type} (p : AST F) : AST F → Prop
  | direct {t : AST F} : p ∈ operands t → Inside p t
  | deeper {q t : AST F} : Inside p q → q ∈ operands t → Inside p t

/-- A failure: an error or (`none`) a panic. -/
def failed {ε α : Type} : Option ε → Out ε α
  | some e => .err e
  | none => .panic

/-- If the expression is a call, the function is known and takes so many arguments. -/
def Callable {F : Type} (ctx : Context F) : AST F → Prop
  | .function n args => n ≠ [] ∧ ∃ before f after, ctx.funs = before ++ f :: after ∧ (∀ g ∈ before, g.name ≠ n) ∧ f.name = n ∧
      args.length = f.inputs.length
  | _ => True

/-- The values are allowed for a part of `t`: entries of vectors and matrices are scalars. -/
def Allowed {F : Type} (t : AST F) (vs : List (Value F)) : Prop :=
  match t with
  | .vector _ => ∀ v ∈ vs, ∃ x, v = .scalar x
  | .matrix _ => ∀ v ∈ vs, ∃ x, v = .scalar x
  | _ => True

end MUL.Spec
