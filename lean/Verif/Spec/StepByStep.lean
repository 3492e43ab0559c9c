import Verif.Spec.Grammar
import Verif.Spec.Eval
import Verif.Spec.Replace
/-!
# C98: writing a parenthesised expression for a variable
-/

namespace MUL.Spec
open MUL

mutual
/-- The expression with `(d)` written for the variable `x`; nothing is changed in equations, nor where an integral or derivative gives one of
the names `L` a meaning of its own. -/
def substEx (x : Str) (d : Ex) (L : List Str) : Ex → Ex
  | .num ip fp => .num ip fp
  | .var n => if n = x then .paren d else .var n
  | .paren e => .paren (substEx x d L e)
  | .fn n op e => .fn n op (substEx x d L e)
  | .root a b => .root (substEx x d L a) (substEx x d L b)
  | .call n args => .call n (substAll x d L args)
  | .vec es => .vec (substAll x d L es)
  | .mat rows => .mat (substRows x d L rows)
  | .list es => .list (substAll x d L es)
  | .neg e => .neg (substEx x d L e)
  | .bin op l r => .bin op (substEx x d L l) (substEx x d L r)
  | .integ e y lo hi => .integ (if y ∈ L then e else substEx x d L e) y (substEx x d L lo) (substEx x d L hi)
  | .deriv e y a => .deriv (if y ∈ L then e else substEx x d L e) y (substEx x d L a)
  | .eqs ls rs vars => .eqs ls rs vars
/-- several expressions -/
def substAll (x : Str) (d : Ex) (L : List Str) : List Ex → List Ex
  | [] => []
  | e :: es => substEx x d L e :: substAll x d L es
/-- rows of expressions -/
def substRows (x : Str) (d : Ex) (L : List Str) : List (List Ex) → List (List Ex)
  | [] => []
  | r :: rs => substAll x d L r :: substRows x d L rs
end

/-- The tree consists of numbers, variables in `V`, vectors, matrices, lists and operations: no calls, integrals, derivatives and equations. -/
inductive Direct {F : Type} (V : Str → Prop) : AST F → Prop
  | scalar (s : F) : Direct V (.scalar s)
  | vector (v : List (AST F)) : (∀ a ∈ v, Direct V a) → Direct V (.vector v)
  | matrix (m : List (List (AST F))) : (∀ l ∈ m, ∀ a ∈ l, Direct V a) → Direct V (.matrix m)
  | list (l : List (AST F)) : (∀ a ∈ l, Direct V a) → Direct V (.list l)
  | variable (n : Str) : V n → Direct V (.variable n)
  | simple (op : SimpleOp) (l r : AST F) : Direct V l → Direct V r → Direct V (.simple op l r)

end MUL.Spec
