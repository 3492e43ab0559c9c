import Verif.Model.Helpers
import Verif.Spec.Parser
/-!
# Specification for C09: concrete syntax

`Ex` is the abstract syntax of the expressions a user writes, `Ex.text` the way they are written,
`Ex.WF` says which trees can be written without extra parentheses (precedence, associativity,
juxtaposition), `Ex.tree` is the meaning: the tree the parser is expected to return.
-/

namespace MUL.Spec

/-- Binary operators, with juxtaposition (`2x`, `(a)(b)`) as an operator of its own. -/
inductive BinOp where
  | add | sub | addSub | mult | div | cross | juxt | pow | get
  deriving DecidableEq, Repr

namespace BinOp

/-- How the operator is written. -/
def text : BinOp → Str
  | add => ['+'] | sub => ['-'] | addSub => ['&'] | mult => ['*'] | div => ['/'] | cross => ['#']
  | juxt => [] | pow => ['^'] | get => ['?']

/-- The operation it stands for. -/
def op : BinOp → SimpleOp
  | add => .add | sub => .sub | addSub => .addSub | mult => .mult | div => .div | cross => .cross
  | juxt => .hiddenMult | pow => .pow | get => .get

/-- Binding strength; unary minus has 4, everything that is not an operator application 10. -/
def level : BinOp → Nat
  | add => 0 | sub => 1 | addSub => 2 | mult => 3 | div => 5 | cross => 6 | juxt => 7 | pow => 8 | get => 9

/-- `-` and `*` group to the left, all others to the right. -/
def leftAssoc : BinOp → Bool
  | sub => true | mult => true | _ => false

end BinOp

/-- Concrete syntax trees. -/
inductive Ex where
  /-- a numeral: digits before the point, and the digits after it if there is a point -/
  | num (ip : Str) (fp : Option Str)
  | var (name : Str)
  | paren (e : Ex)
  /-- built-in function of one argument, by its name -/
  | fn (name : Str) (op : SimpleOp) (e : Ex)
  | root (a b : Ex)
  | call (name : Str) (args : List Ex)
  | vec (es : List Ex)
  /-- matrix literal, by its inner lists -/
  | mat (rows : List (List Ex))
  | list (es : List Ex)
  | neg (e : Ex)
  | bin (op : BinOp) (l r : Ex)
  | integ (e : Ex) (x : Str) (lo hi : Ex)
  | deriv (e : Ex) (x : Str) (a : Ex)
  /-- `eq(l₁=r₁,…,v₁,…)`: the left sides, the right sides, the search variables -/
  | eqs (ls rs : List Ex) (vars : List Str)

/-- The built-in functions of one argument. -/
def builtins : List (Str × SimpleOp) :=
  [("sin".toList, .sin), ("cos".toList, .cos), ("tan".toList, .tan), ("abs".toList, .abs),
   ("sqrt".toList, .sqrt), ("ln".toList, .ln), ("arcsin".toList, .arcsin), ("arccos".toList, .arccos),
   ("arctan".toList, .arctan), ("det".toList, .det), ("inv".toList, .inv)]

/-- Names with a built-in meaning in front of a parenthesis. -/
def reserved : List Str :=
  builtins.map Prod.fst ++ ["root".toList, "I".toList, "D".toList, "eq".toList]

/-- Pieces joined with commas. -/
def commas (ps : List Str) : Str := [','].intercalate ps

mutual
/-- The text of an expression. -/
def Ex.text : Ex → Str
  | .num ip fp => ip ++ (match fp with | none => [] | some f => '.' :: f)
  | .var n => n
  | .paren e => ['('] ++ e.text ++ [')']
  | .fn n _ e => n ++ ['('] ++ e.text ++ [')']
  | .root a b => "root".toList ++ ['('] ++ commas [a.text, b.text] ++ [')']
  | .call n args => n ++ ['('] ++ commas (textAll args) ++ [')']
  | .vec es => ['['] ++ commas (textAll es) ++ [']']
  | .mat rows => ['['] ++ commas (textRows rows) ++ [']']
  | .list es => ['{'] ++ commas (textAll es) ++ ['}']
  | .neg e => ['-'] ++ e.text
  | .bin op l r => l.text ++ op.text ++ r.text
  | .integ e x lo hi => "I".toList ++ ['('] ++ commas [e.text, x, lo.text, hi.text] ++ [')']
  | .deriv e x a => "D".toList ++ ['('] ++ commas [e.text, x, a.text] ++ [')']
  | .eqs ls rs vars => "eq".toList ++ ['('] ++
      commas ((List.zipWith (fun l r => l ++ ['='] ++ r) (textAll ls) (textAll rs)) ++ vars) ++ [')']
/-- The texts of several expressions. -/
def textAll : List Ex → List Str
  | [] => []
  | e :: es => e.text :: textAll es
/-- The texts of the inner lists of a matrix literal. -/
def textRows : List (List Ex) → List Str
  | [] => []
  | r :: rs => (['['] ++ commas (textAll r) ++ [']']) :: textRows rs
end

/-- Binding strength of the outermost construct. -/
def Ex.level : Ex → Nat
  | .neg _ => 4
  | .bin op _ _ => op.level
  | _ => 10

/-- Literal vector or matrix. -/
def Ex.isBracket : Ex → Bool
  | .vec _ => true
  | .mat _ => true
  | _ => false

/-- Names used in the grammar: valid names in the sense of `is_valid_var_name`, in ASCII, with balanced
braces and without parentheses, brackets, commas, equality signs and white space. -/
def NameShape [UTable] (n : Str) : Prop :=
  ValidName n ∧ Ascii n ∧ (∀ c ∈ n, c ∉ ['(', ')', '[', ']', ',', '=', ' ', '\t', '\n', '\r', '\x0b', '\x0c']) ∧
  (∀ j, 0 ≤ braces (n.take j)) ∧ braces n = 0

/-- Where juxtaposition is read as multiplication: a digit before a letter, a backslash, an opening
parenthesis or bracket; a closing before an opening parenthesis. (Not after an underscore and one more
character.) -/
def Juxtaposable (l r : Str) : Prop :=
  ∃ a b l' r', l = l' ++ [a] ∧ r = b :: r' ∧ l'.getLast? ≠ some '_' ∧
    ((a.isDigit = true ∧ (b.isAlpha = true ∨ b = '\\' ∨ b = '(' ∨ b = '[')) ∨ (a = ')' ∧ b = '('))

mutual
/-- Which trees may be written as their text. -/
def Ex.WF [UTable] : Ex → Prop
  | .num ip fp => (∀ c ∈ ip, c.isDigit = true) ∧ (∀ f, fp = some f → ∀ c ∈ f, c.isDigit = true) ∧
      (ip ≠ [] ∨ ∃ f, fp = some f ∧ f ≠ [])
  | .var n => NameShape n
  | .paren e => e.WF
  | .fn n op e => (n, op) ∈ builtins ∧ e.WF
  | .root a b => a.WF ∧ b.WF
  | .call n args => NameShape n ∧ n ∉ reserved ∧ args ≠ [] ∧ WFAll args
  | .vec es => es ≠ [] ∧ WFAll es ∧ ∀ e ∈ es, e.isBracket = false
  | .mat rows => rows ≠ [] ∧ WFRows rows ∧ ∃ n, 0 < n ∧ ∀ r ∈ rows, r.length = n ∧ ∀ e ∈ r, e.isBracket = false
  | .list es => es ≠ [] ∧ WFAll es
  | .neg e => e.WF ∧ 4 < e.level
  | .bin op l r => l.WF ∧ r.WF ∧
      (if op.leftAssoc then op.level ≤ l.level ∧ op.level < r.level
        else op.level < l.level ∧ op.level ≤ r.level) ∧
      (op ≠ .add → r.text.head? ≠ some '-') ∧
      (op = .juxt → Juxtaposable l.text r.text)
  | .integ e x lo hi => e.WF ∧ NameShape x ∧ lo.WF ∧ hi.WF
  | .deriv e x a => e.WF ∧ NameShape x ∧ a.WF
  | .eqs ls rs vars => ls.length = rs.length ∧ WFAll ls ∧ WFAll rs ∧ (ls ≠ [] ∨ vars ≠ []) ∧
      (∀ s ∈ textAll ls ++ textAll rs, '=' ∉ s) ∧ ∀ v ∈ vars, NameShape v
/-- All expressions of a list may be written. -/
def WFAll [UTable] : List Ex → Prop
  | [] => True
  | e :: es => e.WF ∧ WFAll es
/-- All entries of the inner lists may be written. -/
def WFRows [UTable] : List (List Ex) → Prop
  | [] => True
  | r :: rs => WFAll r ∧ WFRows rs
end

/-- Transposition of a list of `n`-element rows. -/
def transpose {α : Type} (n : Nat) (rows : List (List α)) : List (List α) :=
  (List.range n).map fun i => rows.filterMap fun r => r[i]?

mutual
/-- The tree an expression stands for. Matrix literals list their columns, or their rows with the
`row-major` feature. In an equation the textually longer side comes first. -/
def Ex.tree {F : Type} [FArith F] (cfg : Cfg) : Ex → AST F
  | .num ip fp => .scalar (FArith.ofDec (digitsVal (ip ++ fp.getD [])) (-((fp.getD []).length : Int)))
  | .var n => .variable n
  | .paren e => .simple .parenths (e.tree cfg) (.scalar (FArith.ofInt 0))
  | .fn _ op e => .simple op (e.tree cfg) (.scalar (FArith.ofInt 0))
  | .root a b => .simple .root (a.tree cfg) (b.tree cfg)
  | .call n args => .function n (treeAll cfg args)
  | .vec es => .vector (treeAll cfg es)
  | .mat rows =>
    let m := treeRows cfg rows
    .matrix (if cfg.rowMajor then m else transpose (m.headD []).length m)
  | .list es => .list (treeAll cfg es)
  | .neg e => .simple .neg (.scalar (FArith.ofInt 0)) (e.tree cfg)
  | .bin op l r => .simple op.op (l.tree cfg) (r.tree cfg)
  | .integ e x lo hi => .integral (e.tree cfg) x (lo.tree cfg) (hi.tree cfg)
  | .deriv e x a => .derivative (e.tree cfg) x (a.tree cfg)
  | .eqs ls rs vars => .equation
      (List.zipWith (fun (l r : Str × AST F) => if r.1.length ≤ l.1.length then (l.2, r.2) else (r.2, l.2))
        ((textAll ls).zip (treeAll cfg ls)) ((textAll rs).zip (treeAll cfg rs))) vars
/-- The trees of several expressions. -/
def treeAll {F : Type} [FArith F] (cfg : Cfg) : List Ex → List (AST F)
  | [] => []
  | e :: es => e.tree cfg :: treeAll cfg es
/-- The trees of the inner lists of a matrix literal. -/
def treeRows {F : Type} [FArith F] (cfg : Cfg) : List (List Ex) → List (List (AST F))
  | [] => []
  | r :: rs => treeAll cfg r :: treeRows cfg rs
end

end MUL.Spec
