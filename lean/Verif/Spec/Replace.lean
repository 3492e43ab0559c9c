import Mathlib.Data.List.Forall2
import Verif.Model.Basetypes
/-!
# Replacing parts of a tree
-/

namespace MUL.Spec

section
variable {F : Type}

/-- `b'` is `b` with some parts replaced by parts related by `B`; no part that is replaced lies below an integral,
derivative or equation that binds a name in `X`. -/
inductive Replaced (B : AST F → AST F → Prop) (X : Str → Prop) : AST F → AST F → Prop
  | part (a a' : AST F) : B a a' → Replaced B X a a'
  | same (a : AST F) : Replaced B X a a
  | vector (v v' : List (AST F)) : List.Forall₂ (Replaced B X) v v' → Replaced B X (.vector v) (.vector v')
  | matrix (m m' : List (List (AST F))) : List.Forall₂ (List.Forall₂ (Replaced B X)) m m' → Replaced B X (.matrix m) (.matrix m')
  | list (l l' : List (AST F)) : List.Forall₂ (Replaced B X) l l' → Replaced B X (.list l) (.list l')
  | function (f : Str) (as as' : List (AST F)) : List.Forall₂ (Replaced B X) as as' → Replaced B X (.function f as) (.function f as')
  | simple (op : SimpleOp) (l l' r r' : AST F) : Replaced B X l l' → Replaced B X r r' → Replaced B X (.simple op l r) (.simple op l' r')
  | integral (e e' : AST F) (x : Str) (lo lo' hi hi' : AST F) : ¬ X x → Replaced B X e e' → Replaced B X lo lo' → Replaced B X hi hi' →
      Replaced B X (.integral e x lo hi) (.integral e' x lo' hi')
  | bounds (e : AST F) (x : Str) (lo lo' hi hi' : AST F) : Replaced B X lo lo' → Replaced B X hi hi' →
      Replaced B X (.integral e x lo hi) (.integral e x lo' hi')
  | derivative (e e' : AST F) (x : Str) (a a' : AST F) : ¬ X x → Replaced B X e e' → Replaced B X a a' →
      Replaced B X (.derivative e x a) (.derivative e' x a')
  | point (e : AST F) (x : Str) (a a' : AST F) : Replaced B X a a' → Replaced B X (.derivative e x a) (.derivative e x a')
  | equation (es es' : List (AST F × AST F)) (names : List Str) : (∀ n ∈ names, ¬ X n) →
      List.Forall₂ (Replaced B X) (es.map Prod.fst) (es'.map Prod.fst) → List.Forall₂ (Replaced B X) (es.map Prod.snd) (es'.map Prod.snd) →
      Replaced B X (.equation es names) (.equation es' names)

/-- The names in `X` have the meaning `g` in `c`. -/
def Fixes (X : Str → Prop) (g : Str → Option (List (Value F))) (c : Context F) : Prop := ∀ y, X y → c.findVar y = g y

mutual
/-- The tree with every free occurrence of the variable `x` replaced by `t`. -/
def substitute (x : Str) (t : AST F) : AST F → AST F
  | .scalar s => .scalar s
  | .vector v => .vector (substituteAll x t v)
  | .matrix m => .matrix (substituteRows x t m)
  | .list l => .list (substituteAll x t l)
  | .variable n => if n = x then t else .variable n
  | .function f as => .function f (substituteAll x t as)
  | .simple op l r => .simple op (substitute x t l) (substitute x t r)
  | .integral e y lo hi => .integral (if y = x then e else substitute x t e) y (substitute x t lo) (substitute x t hi)
  | .derivative e y a => .derivative (if y = x then e else substitute x t e) y (substitute x t a)
  | .equation es ys => .equation (if x ∈ ys then es else substituteEqs x t es) ys
/-- several trees -/
def substituteAll (x : Str) (t : AST F) : List (AST F) → List (AST F)
  | [] => []
  | a :: as => substitute x t a :: substituteAll x t as
/-- rows of trees -/
def substituteRows (x : Str) (t : AST F) : List (List (AST F)) → List (List (AST F))
  | [] => []
  | r :: rs => substituteAll x t r :: substituteRows x t rs
/-- equations -/
def substituteEqs (x : Str) (t : AST F) : List (AST F × AST F) → List (AST F × AST F)
  | [] => []
  | (l, r) :: es => (substitute x t l, substitute x t r) :: substituteEqs x t es
end

end

end MUL.Spec
