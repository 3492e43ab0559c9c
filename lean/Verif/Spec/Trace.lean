import Verif.Model.Trace
/-!
# C91: trees without integrals, finished evaluations and their output
-/

namespace MUL.Spec
open MUL

/-- There is no integral anywhere in the tree. -/
inductive NoIntegral {F : Type} : AST F → Prop
  | scalar (s : F) : NoIntegral (.scalar s)
  | variable (n : Str) : NoIntegral (.variable n)
  | vector (v : List (AST F)) : (∀ a ∈ v, NoIntegral a) → NoIntegral (.vector v)
  | matrix (m : List (List (AST F))) : (∀ l ∈ m, ∀ a ∈ l, NoIntegral a) → NoIntegral (.matrix m)
  | list (l : List (AST F)) : (∀ a ∈ l, NoIntegral a) → NoIntegral (.list l)
  | function (n : Str) (args : List (AST F)) : (∀ a ∈ args, NoIntegral a) → NoIntegral (.function n args)
  | simple (op : SimpleOp) (l r : AST F) : NoIntegral l → NoIntegral r → NoIntegral (.simple op l r)
  | derivative (e : AST F) (x : Str) (a : AST F) : NoIntegral e → NoIntegral a → NoIntegral (.derivative e x a)
  | equation (eqs : List (AST F × AST F)) (vars : List Str) : (∀ e ∈ eqs, NoIntegral e.1) → (∀ e ∈ eqs, NoIntegral e.2) →
      NoIntegral (.equation eqs vars)

/-- A budgeted computation prints the lines `out` and then returns `r`, when the budget is large enough. -/
def Prints {L ε α : Type} (f : Nat → Tr L ε α) (out : List L) (r : Out ε α) : Prop := r ≠ .timeout ∧ ∃ n, f n = ⟨out, r⟩

/-- The sums of an integral multiplied with the width of a slice: `(b - a) / 10^(PREC - 3)` with `a` the smaller and `b` the larger
bound. -/
def scaled {F : Type} [FNum F] (cfg : Cfg) (a b : F) (sums : List (Value F)) : Out EvalError (List (Value F)) :=
  let lo := if FArith.lt b a then b else a
  let hi := if FArith.lt b a then a else b
  sums.mapM fun s => liftMath (vMult s (.scalar (FArith.div (FArith.sub hi lo) (FArith.powi (FArith.ofInt 10) ((cfg.prec : Int) - 3)))))

/-- The bounds are scalars that are equal. -/
def sameBounds {F : Type} [FNum F] : Value F × Value F → Bool
  | (.scalar a, .scalar b) => FArith.beq a b
  | _ => false

end MUL.Spec
