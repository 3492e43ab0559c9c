import Verif.Spec.Eval
/-!
# C100: the shape of a result can be read off the expression

A small type system for expressions: a shape is "a number", "a vector with `n` entries" or "an `r` × `c` matrix".
-/

namespace MUL.Spec
open MUL

/-- What kind of value, and how large. -/
inductive Shape where
  | num
  | vec (n : Nat)
  | mat (r c : Nat)
  deriving DecidableEq, Repr

/-- The value has the shape; vectors and matrices have at least one entry, and all rows of a matrix are equally long. -/
def HasShape {F : Type} : Value F → Shape → Prop
  | .scalar _, .num => True
  | .vector v, .vec n => v.length = n ∧ 0 < n
  | .matrix m, .mat r c => m.length = r ∧ (∀ row ∈ m, row.length = c) ∧ 0 < r ∧ 0 < c
  | _, _ => False

/-- Products: a number times anything, the scalar product of two vectors, a matrix applied to a vector, two matrices. -/
def mulShape : Shape → Shape → Option Shape
  | .num, τ => some τ
  | σ, .num => some σ
  | .vec n, .vec m => if n = m then some .num else none
  | .mat r c, .vec n => if c = n then some (.vec r) else none
  | .mat r c, .mat r' c' => if c = r' then some (.mat r c') else none
  | .vec _, .mat _ _ => none

/-- Quotients: anything by a number, and two vectors of the same length. -/
def divShape : Shape → Shape → Option Shape
  | σ, .num => some σ
  | .vec n, .vec m => if n = m then some .num else none
  | _, _ => none

/-- The shape an operation gives to operands of the shapes `σ` and `τ` (operations with one operand ignore the other one). -/
def opShape (op : SimpleOp) (σ τ : Shape) : Option Shape :=
  match op with
  | .add | .sub | .addSub => if σ = τ then some σ else none
  | .neg => some τ
  | .mult | .hiddenMult => mulShape σ τ
  | .div => divShape σ τ
  | .cross => match σ, τ with
    | .vec n, .vec m => if n = m ∧ n ≤ 3 then some (.vec 3) else none
    | _, _ => none
  | .get => match σ, τ with
    | .vec _, .num => some .num
    | _, _ => none
  | .pow => match σ, τ with
    | .num, .num => some .num
    | .mat r c, .num => if r = c then some (.mat r c) else none
    | _, _ => none
  | .root => if σ = .num ∧ τ = .num then some .num else none
  | .sin | .cos | .tan | .arcsin | .arccos | .arctan | .sqrt | .ln => if σ = .num then some .num else none
  | .abs => match σ with
    | .num => some .num
    | .vec _ => some .num
    | .mat _ _ => none
  | .det => match σ with
    | .mat r c => if r = c then some .num else none
    | _ => none
  | .inv => match σ with
    | .mat r c => if r = c then some (.mat r c) else none
    | _ => none
  | .parenths => some σ

/-- The shapes of the variables, with `x` given the shape `σ`. -/
def setShape (Γ : Str → Option Shape) (x : Str) (σ : Shape) : Str → Option Shape := fun y => if y = x then some σ else Γ y

/-- The shapes of the variables inside a function: those of the parameters, and of the other variables of the caller. -/
def callShapes (Γ : Str → Option Shape) (params : List Str) (σs : List Shape) : Str → Option Shape :=
  fun y => match (params.zip σs).find? fun p => p.1 == y with
    | some p => some p.2
    | none => Γ y

/-- `Shaped eqs pows φ Γ a σ`: with variables of the shapes `Γ` and the functions `φ`, the expression `a` has the shape `σ`. A function is
checked at each call, with the shapes of the arguments; so there is a (finite) derivation only if the calls are not circular. `eqs` also admits
equations, whose evaluation can panic, and `pows` powers of matrices that are not square, which succeed only for an exponent below 1. -/
inductive Shaped {F : Type} (eqs pows : Prop) (φ : Str → Option (Function F)) : (Str → Option Shape) → AST F → Shape → Prop
  | scalar {Γ} (s : F) : Shaped eqs pows φ Γ (.scalar s) .num
  | vector {Γ} (v : List (AST F)) : v ≠ [] → (∀ a ∈ v, Shaped eqs pows φ Γ a .num) → Shaped eqs pows φ Γ (.vector v) (.vec v.length)
  | matrix {Γ} (m : List (List (AST F))) (c : Nat) : m ≠ [] → 0 < c → (∀ r ∈ m, r.length = c) →
      (∀ r ∈ m, ∀ a ∈ r, Shaped eqs pows φ Γ a .num) → Shaped eqs pows φ Γ (.matrix m) (.mat m.length c)
  | list {Γ} (l : List (AST F)) (σ : Shape) : (∀ a ∈ l, Shaped eqs pows φ Γ a σ) → Shaped eqs pows φ Γ (.list l) σ
  | variable {Γ} (x : Str) (σ : Shape) : Γ x = some σ → Shaped eqs pows φ Γ (.variable x) σ
  | function {Γ} (g : Str) (f : Function F) (args : List (AST F)) (σs : List Shape) (τ : Shape) : g ≠ [] → φ g = some f →
      args.length = f.inputs.length → σs.length = args.length → (∀ p ∈ args.zip σs, Shaped eqs pows φ Γ p.1 p.2) →
      Shaped eqs pows φ (callShapes Γ f.inputs σs) f.ast τ → Shaped eqs pows φ Γ (.function g args) τ
  | simple {Γ} (op : SimpleOp) (l r : AST F) (σ τ ρ : Shape) : Shaped eqs pows φ Γ l σ → Shaped eqs pows φ Γ r τ → opShape op σ τ = some ρ →
      Shaped eqs pows φ Γ (.simple op l r) ρ
  | integral {Γ} (e : AST F) (x : Str) (lo hi : AST F) : Shaped eqs pows φ Γ lo .num → Shaped eqs pows φ Γ hi .num →
      Shaped eqs pows φ (setShape Γ x .num) e .num → Shaped eqs pows φ Γ (.integral e x lo hi) .num
  | derivative {Γ} (e : AST F) (x : Str) (a : AST F) (σ : Shape) : Shaped eqs pows φ Γ a .num → Shaped eqs pows φ (setShape Γ x .num) e σ →
      Shaped eqs pows φ Γ (.derivative e x a) σ
  | equation1 {Γ} (es : List (AST F × AST F)) (x : Str) : eqs → Shaped eqs pows φ Γ (.equation es [x]) .num
  | equations {Γ} (es : List (AST F × AST F)) (xs : List Str) : eqs → 2 ≤ xs.length → Shaped eqs pows φ Γ (.equation es xs) (.vec xs.length)
  | power {Γ} (l r : AST F) (m n : Nat) : pows → Shaped eqs pows φ Γ l (.mat m n) → Shaped eqs pows φ Γ r .num → Shaped eqs pows φ Γ (.simple .pow l r) (.mat m n)

/-- The stored variables have the shapes `Γ` (all values of a variable the same). -/
def CtxShaped {F : Type} (Γ : Str → Option Shape) (ctx : Context F) : Prop :=
  ∀ x σ, Γ x = some σ → ∃ vs, ctx.findVar x = some vs ∧ ∀ v ∈ vs, HasShape v σ

/-- The same, and each stored variable has a value and a shape. -/
def CtxAllShaped {F : Type} (Γ : Str → Option Shape) (ctx : Context F) : Prop :=
  CtxShaped Γ ctx ∧ ∀ x vs, ctx.findVar x = some vs → vs ≠ [] ∧ ∃ σ, Γ x = some σ

/-- Numbers, variables, vectors, matrices, operations, calls and derivatives: neither lists nor integrals nor equations. -/
inductive Single {F : Type} : AST F → Prop
  | scalar (s : F) : Single (.scalar s)
  | vector (v : List (AST F)) : v ≠ [] → (∀ a ∈ v, Single a) → Single (.vector v)
  | matrix (m : List (List (AST F))) (c : Nat) : m ≠ [] → 0 < c → (∀ r ∈ m, r.length = c) → (∀ r ∈ m, ∀ a ∈ r, Single a) → Single (.matrix m)
  | variable (x : Str) : Single (.variable x)
  | function (g : Str) (args : List (AST F)) : (∀ a ∈ args, Single a) → Single (.function g args)
  | simple (op : SimpleOp) (l r : AST F) : Single l → Single r → Single (.simple op l r)
  | derivative (e : AST F) (x : Str) (a : AST F) : Single e → Single a → Single (.derivative e x a)

/-- The failures that depend on the numbers and not only on the shapes. -/
def numberFailures : List String :=
  ["Exponent must be an integer!", "Index must be a positive Integer!", "Index out of bounds for vector!",
   "Can't calculate inverse of a matrix with determinant 0!", "Infinite solutions"]

/-- What can still go wrong when the shapes are right. -/
def DependsOnNumbers : EvalError → Prop
  | .mathError s => s ∈ numberFailures ∨ s = "Amount of solutions for f(x) and f(x+h) are different!"
  | _ => False

end MUL.Spec
