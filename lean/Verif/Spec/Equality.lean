import Verif.Model.Basetypes
/-!
# Equality of trees: specification for C85
-/

namespace MUL.Spec
variable {F : Type}

/-- Two trees of the same form whose corresponding numbers are related by `R`. -/
inductive Alike (R : F → F → Prop) : AST F → AST F → Prop
  | scalar (a b : F) : R a b → Alike R (.scalar a) (.scalar b)
  | vector (v w : List (AST F)) : v.length = w.length → (∀ p ∈ v.zip w, Alike R p.1 p.2) → Alike R (.vector v) (.vector w)
  | matrix (v w : List (List (AST F))) : v.length = w.length → (∀ p ∈ v.zip w, p.1.length = p.2.length) →
      (∀ p ∈ v.zip w, ∀ q ∈ p.1.zip p.2, Alike R q.1 q.2) → Alike R (.matrix v) (.matrix w)
  | list (v w : List (AST F)) : v.length = w.length → (∀ p ∈ v.zip w, Alike R p.1 p.2) → Alike R (.list v) (.list w)
  | variable (n : Str) : Alike R (.variable n) (.variable n)
  | function (n : Str) (v w : List (AST F)) : v.length = w.length → (∀ p ∈ v.zip w, Alike R p.1 p.2) →
      Alike R (.function n v) (.function n w)
  | simple (op : SimpleOp) (l r l' r' : AST F) : Alike R l l' → Alike R r r' → Alike R (.simple op l r) (.simple op l' r')
  | integral (e : AST F) (x : Str) (l u e' l' u' : AST F) : Alike R e e' → Alike R l l' → Alike R u u' →
      Alike R (.integral e x l u) (.integral e' x l' u')
  | derivative (e : AST F) (x : Str) (a e' a' : AST F) : Alike R e e' → Alike R a a' →
      Alike R (.derivative e x a) (.derivative e' x a')
  | equation (v w : List (AST F × AST F)) (ns : List Str) : v.length = w.length → (∀ p ∈ v.zip w, Alike R p.1.1 p.2.1) →
      (∀ p ∈ v.zip w, Alike R p.1.2 p.2.2) → Alike R (.equation v ns) (.equation w ns)

/-- Every number written in the tree satisfies `N`. -/
inductive Written (N : F → Prop) : AST F → Prop
  | scalar (a : F) : N a → Written N (.scalar a)
  | vector (v : List (AST F)) : (∀ a ∈ v, Written N a) → Written N (.vector v)
  | matrix (m : List (List (AST F))) : (∀ r ∈ m, ∀ a ∈ r, Written N a) → Written N (.matrix m)
  | list (l : List (AST F)) : (∀ a ∈ l, Written N a) → Written N (.list l)
  | variable (n : Str) : Written N (.variable n)
  | function (n : Str) (args : List (AST F)) : (∀ a ∈ args, Written N a) → Written N (.function n args)
  | simple (op : SimpleOp) (l r : AST F) : Written N l → Written N r → Written N (.simple op l r)
  | integral (e : AST F) (x : Str) (lo hi : AST F) : Written N e → Written N lo → Written N hi → Written N (.integral e x lo hi)
  | derivative (e : AST F) (x : Str) (a : AST F) : Written N e → Written N a → Written N (.derivative e x a)
  | equation (eqs : List (AST F × AST F)) (vars : List Str) : (∀ e ∈ eqs, Written N e.1) → (∀ e ∈ eqs, Written N e.2) →
      Written N (.equation eqs vars)

end MUL.Spec
