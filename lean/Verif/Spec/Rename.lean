import Verif.Model.Basetypes
/-!
# Renaming

`σ` renames variables, `τ` functions.
-/

namespace MUL.Spec

section
variable {F : Type} (σ τ : Str → Str)

mutual
/-- The tree with all names exchanged. -/
def rename : AST F → AST F
  | .scalar s => .scalar s
  | .vector v => .vector (renameAll v)
  | .matrix m => .matrix (renameRows m)
  | .list l => .list (renameAll l)
  | .variable n => .variable (σ n)
  | .function n as => .function (τ n) (renameAll as)
  | .simple op l r => .simple op (rename l) (rename r)
  | .integral e x lo hi => .integral (rename e) (σ x) (rename lo) (rename hi)
  | .derivative e x a => .derivative (rename e) (σ x) (rename a)
  | .equation es vs => .equation (renameEqs es) (vs.map σ)
/-- several trees -/
def renameAll : List (AST F) → List (AST F)
  | [] => []
  | a :: as => rename a :: renameAll as
/-- rows of trees -/
def renameRows : List (List (AST F)) → List (List (AST F))
  | [] => []
  | r :: rs => renameAll r :: renameRows rs
/-- equations -/
def renameEqs : List (AST F × AST F) → List (AST F × AST F)
  | [] => []
  | (l, r) :: es => (rename l, rename r) :: renameEqs es
end

/-- A variable under its new name. -/
def renameVar (v : Variable F) : Variable F := ⟨σ v.name, v.values⟩

/-- A function under its new name, with parameters and body renamed. -/
def renameFun (f : Function F) : Function F := ⟨τ f.name, rename σ τ f.ast, f.inputs.map σ⟩

/-- The context with all names exchanged. -/
def renameCtx (c : Context F) : Context F := ⟨c.vars.map (renameVar σ), c.funs.map (renameFun σ τ)⟩

/-- An error that mentions a name mentions the new one. -/
def renameErr : EvalError → EvalError
  | .noVariable n => .noVariable (σ n)
  | .noFunction n => .noFunction (τ n)
  | e => e

/-- Every variable name written in the tree, bound names and search variables included, satisfies `P`. -/
inductive Names {F : Type} (P : Str → Prop) : AST F → Prop
  | scalar (s : F) : Names P (.scalar s)
  | vector (v : List (AST F)) : (∀ a ∈ v, Names P a) → Names P (.vector v)
  | matrix (m : List (List (AST F))) : (∀ l ∈ m, ∀ a ∈ l, Names P a) → Names P (.matrix m)
  | list (l : List (AST F)) : (∀ a ∈ l, Names P a) → Names P (.list l)
  | variable (n : Str) : P n → Names P (.variable n)
  | function (n : Str) (args : List (AST F)) : (∀ a ∈ args, Names P a) → Names P (.function n args)
  | simple (op : SimpleOp) (l r' : AST F) : Names P l → Names P r' → Names P (.simple op l r')
  | integral (e : AST F) (x : Str) (lo hi : AST F) : P x → Names P e → Names P lo → Names P hi → Names P (.integral e x lo hi)
  | derivative (e : AST F) (x : Str) (a : AST F) : P x → Names P e → Names P a → Names P (.derivative e x a)
  | equation (eqs : List (AST F × AST F)) (vars : List Str) : (∀ e ∈ eqs, Names P e.1) → (∀ e ∈ eqs, Names P e.2) →
      (∀ v ∈ vars, P v) → Names P (.equation eqs vars)

/-- Every variable name stored in the context, in the bodies and in the parameter lists of its functions, satisfies `P`. -/
structure CtxNames {F : Type} (P : Str → Prop) (c : Context F) : Prop where
  vars : ∀ v ∈ c.vars, P v.name
  bodies : ∀ f ∈ c.funs, Names P f.ast
  params : ∀ f ∈ c.funs, ∀ n ∈ f.inputs, P n

/-- `x` becomes `y`, all other names stay. -/
def replaceName (x y : Str) (n : Str) : Str := if n = x then y else n

/-- `x` and `y` are exchanged. -/
def swapName (x y : Str) (n : Str) : Str := if n = x then y else if n = y then x else n

end

end MUL.Spec
