import Verif.Spec.Grammar
import Verif.Model.Basetypes
/-!
# Specification for C59: what becomes of a tree that is printed and read back
-/

namespace MUL.Spec

/-- Operations of one operand (their second operand is a dummy). -/
def oneOperand : List SimpleOp :=
  [.sin, .cos, .tan, .abs, .sqrt, .ln, .arcsin, .arccos, .arctan, .det, .inv, .parenths]

section
variable {F : Type} [FArith F]

mutual
/-- The tree that is expected back: numbers are rounded to `PREC-2` decimals, exponents are in parentheses, and in
the default build (column-major) matrices are transposed. -/
def reread (cfg : Cfg) : AST F → AST F
  | .scalar s => .scalar (Value.roundScalar s ((cfg.prec : Int) - 2))
  | .vector v => .vector (rereadAll cfg v)
  | .matrix m =>
    let m' := rereadRows cfg m
    .matrix (if cfg.rowMajor then m' else transpose (m'.headD []).length m')
  | .list l => .list (rereadAll cfg l)
  | .variable n => .variable n
  | .function n as => .function n (rereadAll cfg as)
  | .simple op l r =>
    if op = .neg then .simple .neg l (reread cfg r)
    else if op ∈ oneOperand then .simple op (reread cfg l) r
    else if op = .pow then .simple .pow (reread cfg l) (.simple .parenths (reread cfg r) (.scalar (FArith.ofInt 0)))
    else .simple op (reread cfg l) (reread cfg r)
  | .integral e x lo hi => .integral (reread cfg e) x (reread cfg lo) (reread cfg hi)
  | .derivative e x a => .derivative (reread cfg e) x (reread cfg a)
  | .equation es vs => .equation es vs
/-- several trees -/
def rereadAll (cfg : Cfg) : List (AST F) → List (AST F)
  | [] => []
  | a :: as => reread cfg a :: rereadAll cfg as
/-- rows of trees -/
def rereadRows (cfg : Cfg) : List (List (AST F)) → List (List (AST F))
  | [] => []
  | r :: rs => rereadAll cfg r :: rereadRows cfg rs
end

/-- The number rounds to a finite non-negative number, and to zero only if it is zero. -/
def NumReadable (cfg : Cfg) (v : F) : Prop :=
  ∃ (m : Nat) (x : Int), FArith.isInf (FArith.ofDec m x : F) = false ∧
    Value.roundScalar v ((cfg.prec : Int) - 2) = FArith.ofDec m x ∧
    (FArith.beq (FArith.ofDec m x : F) (FArith.ofInt 0) = true → FArith.beq v (FArith.ofInt 0) = true)

end

mutual
/-- The expressions whose printed form is an expression again: no `?`, `#`, `&`, no `abs`, no equations, no power
directly before anything but a parenthesis. -/
def Ex.Readable (F : Type) [FArith F] (cfg : Cfg) : Ex → Prop
  | .num ip fp => NumReadable cfg (FArith.ofDec (digitsVal (ip ++ fp.getD [])) (-((fp.getD []).length : Int)) : F)
  | .var _ => True
  | .paren e => e.Readable F cfg
  | .fn _ op e => op ≠ .abs ∧ e.Readable F cfg
  | .root a b => a.Readable F cfg ∧ b.Readable F cfg
  | .call _ args => ReadableAll F cfg args
  | .vec es => ReadableAll F cfg es
  | .mat rows => ReadableRows F cfg rows
  | .list es => ReadableAll F cfg es
  | .neg e => e.Readable F cfg
  | .bin op l r => l.Readable F cfg ∧ r.Readable F cfg ∧ op ∉ [BinOp.get, .cross, .addSub] ∧
      (op = .juxt → (∃ a b, l = .bin .pow a b) → r.text.head? = some '(')
  | .integ e _ lo hi => e.Readable F cfg ∧ lo.Readable F cfg ∧ hi.Readable F cfg
  | .deriv e _ a => e.Readable F cfg ∧ a.Readable F cfg
  | .eqs _ _ _ => False
/-- several expressions -/
def ReadableAll (F : Type) [FArith F] (cfg : Cfg) : List Ex → Prop
  | [] => True
  | e :: es => e.Readable F cfg ∧ ReadableAll F cfg es
/-- rows of expressions -/
def ReadableRows (F : Type) [FArith F] (cfg : Cfg) : List (List Ex) → Prop
  | [] => True
  | r :: rs => ReadableAll F cfg r ∧ ReadableRows F cfg rs
end

/-- Trees that printing does not change: all numbers have at most `PREC-2` decimals; matrices only with the
`row-major` feature. -/
inductive Unrounded {F : Type} [FArith F] (cfg : Cfg) : AST F → Prop
  | scalar (s : F) : Value.roundScalar s ((cfg.prec : Int) - 2) = s → Unrounded cfg (.scalar s)
  | vector (v : List (AST F)) : (∀ a ∈ v, Unrounded cfg a) → Unrounded cfg (.vector v)
  | matrix (m : List (List (AST F))) : cfg.rowMajor = true → (∀ r ∈ m, ∀ a ∈ r, Unrounded cfg a) → Unrounded cfg (.matrix m)
  | list (l : List (AST F)) : (∀ a ∈ l, Unrounded cfg a) → Unrounded cfg (.list l)
  | variable (n : Str) : Unrounded cfg (.variable n)
  | function (n : Str) (l : List (AST F)) : (∀ a ∈ l, Unrounded cfg a) → Unrounded cfg (.function n l)
  | neg (z r : AST F) : Unrounded cfg r → Unrounded cfg (.simple .neg z r)
  | one (op : SimpleOp) (l z : AST F) : op ∈ oneOperand → Unrounded cfg l → Unrounded cfg (.simple op l z)
  | two (op : SimpleOp) (l r : AST F) : op ∉ oneOperand → op ≠ .neg → Unrounded cfg l → Unrounded cfg r →
      Unrounded cfg (.simple op l r)
  | integral (e : AST F) (x : Str) (lo hi : AST F) : Unrounded cfg e → Unrounded cfg lo → Unrounded cfg hi →
      Unrounded cfg (.integral e x lo hi)
  | derivative (e : AST F) (x : Str) (a : AST F) : Unrounded cfg e → Unrounded cfg a → Unrounded cfg (.derivative e x a)

end MUL.Spec
