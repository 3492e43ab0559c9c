import Verif.Model.Basetypes
/-!
# Rewriting rules
-/

namespace MUL.Spec

section
variable {F : Type} [FArith F]

/-- An expression of numbers and operations other than plus-minus: if it has values at all, it has one, a number. -/
inductive OneNumber : AST F → Prop
  | number (s : F) : OneNumber (.scalar s)
  | operation (op : SimpleOp) (l r : AST F) : op ≠ .addSub → OneNumber l → OneNumber r → OneNumber (.simple op l r)

/-- The rules `c+e = e+c`, `c*e = e*c`, `2x = 2*x`, `l-r = l+(-r)`, `-(-e) = e` and `(e) = e`, where `c` is a number. -/
inductive Rule : AST F → AST F → Prop
  | sum (c e : AST F) : OneNumber c → Rule (.simple .add c e) (.simple .add e c)
  | product (c e : AST F) : OneNumber c → Rule (.simple .mult c e) (.simple .mult e c)
  | hidden (l r : AST F) : Rule (.simple .hiddenMult l r) (.simple .mult l r)
  | minus (l r : AST F) : Rule (.simple .sub l r) (.simple .add l (.simple .neg (.scalar (FArith.ofInt 0)) r))
  | negative (e : AST F) : Rule (.simple .neg (.scalar (FArith.ofInt 0))
      (.simple .parenths (.simple .neg (.scalar (FArith.ofInt 0)) e) (.scalar (FArith.ofInt 0)))) e
  | parentheses (e : AST F) : Rule (.simple .parenths e (.scalar (FArith.ofInt 0))) e

end

end MUL.Spec
