import Verif.Props.Literals
import Mathlib.Data.List.Forall2
/-!
# C96: the texts a tree can be read from
-/

namespace MUL.Spec
open MUL

/-- The symbol of a binary operator. -/
def opSymbol : SimpleOp → Option Char
  | .add => some '+'
  | .sub => some '-'
  | .addSub => some '&'
  | .mult => some '*'
  | .div => some '/'
  | .cross => some '#'
  | .pow => some '^'
  | .get => some '?'
  | _ => none

/-- The name of a built-in function of one argument. -/
def opName : SimpleOp → Option Str
  | .sin => some "sin".toList
  | .cos => some "cos".toList
  | .tan => some "tan".toList
  | .abs => some "abs".toList
  | .sqrt => some "sqrt".toList
  | .ln => some "ln".toList
  | .arcsin => some "arcsin".toList
  | .arccos => some "arccos".toList
  | .arctan => some "arctan".toList
  | .det => some "det".toList
  | .inv => some "inv".toList
  | _ => none

/-- The operand that is filled in where there is none. -/
def noOperand {F : Type} [FArith F] : AST F := .scalar (FArith.ofInt 0)

/-- Texts in brackets, separated by commas. -/
def bracketed (ws : List Str) : Str := '[' :: commas ws ++ [']']

/-- `w` is an entry of `eq(...)` with the sides `uv`: `a=b`, possibly followed by a second `=` and anything else. The longer side is the
first. -/
def EntrySides (w : Str) (uv : Str × Str) : Prop :=
  ∃ a b rest, w = a ++ '=' :: b ++ rest ∧ '=' ∉ a ∧ '=' ∉ b ∧ (rest = [] ∨ rest.head? = some '=') ∧
    uv = if b.length ≤ a.length then (a, b) else (b, a)

mutual
/-- The text `s` (without blanks) is a way to write the tree. `c` is the last character of an integral, a derivative or an equation; it is `)`
unless there is a `)` in one of the texts that are not read as expressions. -/
def Spells {F : Type} [FArith F] (cfg : Cfg) : AST F → Str → Prop
  | .scalar a, s => ∃ m e, Literal s m e ∧ a = FArith.ofDec m e
  | .variable n, s => s = n
  | .vector v, s => ∃ ws, ws ≠ [] ∧ s = bracketed ws ∧ SpellsAll cfg v ws
  | .matrix m, s => ∃ (rows : List (List Str)) (n : Nat), rows ≠ [] ∧ 0 < n ∧ s = bracketed (rows.map bracketed) ∧ (∀ r ∈ rows, r.length = n) ∧
      SpellsRows cfg m (if cfg.rowMajor then rows else transpose n rows)
  | .list l, s => ∃ ws, ws ≠ [] ∧ s = '{' :: commas ws ++ ['}'] ∧ SpellsAll cfg l ws
  | .function n args, s => ∃ ws, ws ≠ [] ∧ s = n ++ '(' :: commas ws ++ [')'] ∧ SpellsAll cfg args ws
  | .simple op l r, s =>
    (op = .parenths ∧ r = noOperand ∧ ∃ w, s = '(' :: w ++ [')'] ∧ Spells cfg l w) ∨
    (op = .hiddenMult ∧ ∃ u v, s = u ++ v ∧ Spells cfg l u ∧ Spells cfg r v) ∨
    (op = .neg ∧ l = noOperand ∧ ∃ w, s = '-' :: w ∧ Spells cfg r w) ∨
    (op = .root ∧ ∃ u v, s = "root(".toList ++ u ++ ',' :: v ++ [')'] ∧ Spells cfg l u ∧ Spells cfg r v) ∨
    (∃ c, opSymbol op = some c ∧ ∃ u v, s = u ++ c :: v ∧ Spells cfg l u ∧ Spells cfg r v) ∨
    (∃ c, opSymbol op = some c ∧ op ≠ .sub ∧ l = noOperand ∧ ∃ v, s = c :: v ∧ Spells cfg r v) ∨
    (∃ f, opName op = some f ∧ r = noOperand ∧ ∃ w, s = f ++ '(' :: w ++ [')'] ∧ Spells cfg l w)
  | .integral e x lo hi, s => ∃ u v w c, s = "I(".toList ++ u ++ ',' :: x ++ ',' :: v ++ ',' :: w ++ [c] ∧ (c = ')' ∨ ')' ∈ x) ∧
      Spells cfg e u ∧ Spells cfg lo v ∧ Spells cfg hi w
  | .derivative e x a, s => ∃ u v c, s = "D(".toList ++ u ++ ',' :: x ++ ',' :: v ++ [c] ∧ (c = ')' ∨ ')' ∈ x) ∧
      Spells cfg e u ∧ Spells cfg a v
  | .equation es xs, s => ∃ ws uvs c, s = "eq(".toList ++ commas ws ++ [c] ∧
      (c = ')' ∨ ∃ w ∈ ws, ')' ∈ w ∧ ('=' ∉ w ∨ 2 ≤ w.count '=')) ∧
      xs = ws.filter ('=' ∉ ·) ∧ List.Forall₂ EntrySides (ws.filter ('=' ∈ ·)) uvs ∧ SpellsEqs cfg es uvs
/-- The texts are ways to write the trees. -/
def SpellsAll {F : Type} [FArith F] (cfg : Cfg) : List (AST F) → List Str → Prop
  | [], [] => True
  | a :: as, w :: ws => Spells cfg a w ∧ SpellsAll cfg as ws
  | _, _ => False
/-- The texts are ways to write the rows of trees. -/
def SpellsRows {F : Type} [FArith F] (cfg : Cfg) : List (List (AST F)) → List (List Str) → Prop
  | [], [] => True
  | r :: rs, w :: ws => SpellsAll cfg r w ∧ SpellsRows cfg rs ws
  | _, _ => False
/-- The texts are ways to write the sides of the equations. -/
def SpellsEqs {F : Type} [FArith F] (cfg : Cfg) : List (AST F × AST F) → List (Str × Str) → Prop
  | [], [] => True
  | e :: es, w :: ws => Spells cfg e.1 w.1 ∧ Spells cfg e.2 w.2 ∧ SpellsEqs cfg es ws
  | _, _ => False
end

end MUL.Spec
