import Verif.Spec.Shapes
/-!
# C104: expressions whose evaluation cannot fail

The part of the type system of C100 in which nothing depends on the numbers: no indexing, no inverse, no powers of matrices, no integrals and no
equations. Everything else is allowed, also calls, derivatives, lists and `±`.
-/

namespace MUL.Spec
open MUL

/-- The operation never looks at the numbers to decide whether it succeeds: not an index, not an inverse, not a power of a matrix. -/
def Unconditional (op : SimpleOp) (σ : Shape) : Prop := op ≠ .get ∧ op ≠ .inv ∧ (op = .pow → σ = .num)

/-- `Certain φ Γ a σ`: with variables of the shapes `Γ` and the functions `φ`, the expression `a` surely has values, of the shape `σ`. -/
inductive Certain {F : Type} (φ : Str → Option (Function F)) : (Str → Option Shape) → AST F → Shape → Prop
  | scalar {Γ} (s : F) : Certain φ Γ (.scalar s) .num
  | vector {Γ} (v : List (AST F)) : v ≠ [] → (∀ a ∈ v, Certain φ Γ a .num) → Certain φ Γ (.vector v) (.vec v.length)
  | matrix {Γ} (m : List (List (AST F))) (c : Nat) : m ≠ [] → 0 < c → (∀ r ∈ m, r.length = c) →
      (∀ r ∈ m, ∀ a ∈ r, Certain φ Γ a .num) → Certain φ Γ (.matrix m) (.mat m.length c)
  | list {Γ} (l : List (AST F)) (σ : Shape) : (∀ a ∈ l, Certain φ Γ a σ) → Certain φ Γ (.list l) σ
  | variable {Γ} (x : Str) (σ : Shape) : Γ x = some σ → Certain φ Γ (.variable x) σ
  | function {Γ} (g : Str) (f : Function F) (args : List (AST F)) (σs : List Shape) (τ : Shape) : g ≠ [] → φ g = some f →
      args.length = f.inputs.length → σs.length = args.length → (∀ p ∈ args.zip σs, Certain φ Γ p.1 p.2) →
      Certain φ (callShapes Γ f.inputs σs) f.ast τ → Certain φ Γ (.function g args) τ
  | simple {Γ} (op : SimpleOp) (l r : AST F) (σ τ ρ : Shape) : Certain φ Γ l σ → Certain φ Γ r τ → opShape op σ τ = some ρ →
      Unconditional op σ → Certain φ Γ (.simple op l r) ρ
  | derivative {Γ} (e : AST F) (x : Str) (a : AST F) (σ : Shape) : Certain φ Γ a .num → Certain φ (setShape Γ x .num) e σ →
      Certain φ Γ (.derivative e x a) σ

end MUL.Spec
