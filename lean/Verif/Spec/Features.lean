import Verif.Spec.Grammar
import Verif.Model.Basetypes
/-!
# Specification for C101: what the crate features change

`row-major` (field `rowMajor` of `Cfg`) and `high-prec` (field `prec`).
-/

namespace MUL.Spec

section
variable {F : Type}

mutual
/-- The tree with every matrix literal transposed. -/
def flipped : AST F → AST F
  | .scalar s => .scalar s
  | .vector v => .vector (flippedAll v)
  | .matrix m => .matrix (transpose ((flippedRows m).headD []).length (flippedRows m))
  | .list l => .list (flippedAll l)
  | .variable n => .variable n
  | .function n as => .function n (flippedAll as)
  | .simple op l r => .simple op (flipped l) (flipped r)
  | .integral e x lo hi => .integral (flipped e) x (flipped lo) (flipped hi)
  | .derivative e x a => .derivative (flipped e) x (flipped a)
  | .equation es vs => .equation (flippedEqs es) vs
/-- several trees -/
def flippedAll : List (AST F) → List (AST F)
  | [] => []
  | a :: as => flipped a :: flippedAll as
/-- rows of trees -/
def flippedRows : List (List (AST F)) → List (List (AST F))
  | [] => []
  | r :: rs => flippedAll r :: flippedRows rs
/-- equations -/
def flippedEqs : List (AST F × AST F) → List (AST F × AST F)
  | [] => []
  | (l, r) :: es => (flipped l, flipped r) :: flippedEqs es
end

/-- The outcome with the tree in it transposed; failures are the same. -/
def flippedOutcome {ε : Type} : Out ε (AST F) → Out ε (AST F)
  | .ok a => .ok (flipped a)
  | .err e => .err e
  | .panic => .panic
  | .timeout => .timeout

/-- Trees without matrix literals. -/
inductive MatrixFree : AST F → Prop
  | scalar (s : F) : MatrixFree (.scalar s)
  | vector (v : List (AST F)) : (∀ a ∈ v, MatrixFree a) → MatrixFree (.vector v)
  | list (l : List (AST F)) : (∀ a ∈ l, MatrixFree a) → MatrixFree (.list l)
  | variable (n : Str) : MatrixFree (.variable n)
  | function (n : Str) (as : List (AST F)) : (∀ a ∈ as, MatrixFree a) → MatrixFree (.function n as)
  | simple (op : SimpleOp) (l r : AST F) : MatrixFree l → MatrixFree r → MatrixFree (.simple op l r)
  | integral (e : AST F) (x : Str) (lo hi : AST F) : MatrixFree e → MatrixFree lo → MatrixFree hi →
      MatrixFree (.integral e x lo hi)
  | derivative (e : AST F) (x : Str) (a : AST F) : MatrixFree e → MatrixFree a → MatrixFree (.derivative e x a)
  | equation (es : List (AST F × AST F)) (vs : List Str) : (∀ e ∈ es, MatrixFree e.1) → (∀ e ∈ es, MatrixFree e.2) →
      MatrixFree (.equation es vs)

/-- Trees without integrals, derivatives and equations. -/
inductive Arithmetical : AST F → Prop
  | scalar (s : F) : Arithmetical (.scalar s)
  | vector (v : List (AST F)) : (∀ a ∈ v, Arithmetical a) → Arithmetical (.vector v)
  | matrix (m : List (List (AST F))) : (∀ r ∈ m, ∀ a ∈ r, Arithmetical a) → Arithmetical (.matrix m)
  | list (l : List (AST F)) : (∀ a ∈ l, Arithmetical a) → Arithmetical (.list l)
  | variable (n : Str) : Arithmetical (.variable n)
  | function (n : Str) (as : List (AST F)) : (∀ a ∈ as, Arithmetical a) → Arithmetical (.function n as)
  | simple (op : SimpleOp) (l r : AST F) : Arithmetical l → Arithmetical r → Arithmetical (.simple op l r)

end

end MUL.Spec
