import Verif.Model.Lit
import Verif.Model.Print
/-!
# Specification for C62: how LaTeX formulas are read

A reader for LaTeX mathematics, written independently of the printer. It turns LaTeX into the plain notation
(without blanks) of the library's own expression texts: `\frac{a}{b}` becomes `a/b`, `a^{b}` becomes `a^(b)`,
`\sqrt[n]{a}` becomes `root(a,n)`, `\int_{l}^{u}f dx` becomes `I(f,x,l,u)` and so on. The text is cut into symbols
(`lex`), which are processed from left to right with a stack of the groups that are still open (`step`).
-/

namespace MUL.Spec.Tex

/-- The symbols of LaTeX formulas, all of them except single characters. -/
inductive Sym where
  | frac | close | open_ | sup | sub | sqrt | rootOpen | rootMid
  | int | diff | partial_ | atText
  | lparen | rparen | lbrace | rbrace | eqOpen | eqClose | vecOpen | vecClose | matOpen | matClose
  | rowEnd | cell | vecSep | newline | comma | semicolon | alignEq | spacedEq
  | cdot | times | pm | sin | cos | tan | ln | arcsin | arccos | arctan | det | pi
  deriving DecidableEq, Repr

/-- How the symbols are written. -/
def Sym.text : Sym → Str
  | .frac => str! "\\frac{"
  | .close => str! "}"
  | .open_ => str! "{"
  | .sup => str! "^{"
  | .sub => str! "_{"
  | .sqrt => str! "\\sqrt{"
  | .rootOpen => str! "\\sqrt["
  | .rootMid => str! "]{"
  | .int => str! "\\int_{"
  | .diff => str! " d"
  | .partial_ => str! "\\partial}{\\partial "
  | .atText => str! "\\text{at }"
  | .lparen => str! "\\left("
  | .rparen => str! "\\right)"
  | .lbrace => str! "\\left\\{"
  | .rbrace => str! "\\right\\}"
  | .eqOpen => str! "\\left|\\begin{align}"
  | .eqClose => str! "\\end{align}\\right|"
  | .vecOpen => str! "\\begin{pmatrix}"
  | .vecClose => str! "\\end{pmatrix}"
  | .matOpen => str! "\\begin{bmatrix}"
  | .matClose => str! "\\end{bmatrix}"
  | .rowEnd => str! " \\\\"
  | .cell => str! " & "
  | .vecSep => str! "\\\\ "
  | .newline => str! "\n "
  | .comma => str! ", "
  | .semicolon => str! "; "
  | .alignEq => str! "&="
  | .spacedEq => str! " = "
  | .cdot => str! "\\cdot "
  | .times => str! "\\times "
  | .pm => str! "\\pm"
  | .sin => str! "\\sin"
  | .cos => str! "\\cos"
  | .tan => str! "\\tan"
  | .ln => str! "\\ln"
  | .arcsin => str! "\\arcsin"
  | .arccos => str! "\\arccos"
  | .arctan => str! "\\arctan"
  | .det => str! "\\det"
  | .pi => str! "\\pi"

/-- All symbols. -/
def symbols : List Sym :=
  [.frac, .close, .open_, .sup, .sub, .sqrt, .rootOpen, .rootMid, .int, .diff, .partial_, .atText, .lparen, .rparen,
   .lbrace, .rbrace, .eqOpen, .eqClose, .vecOpen, .vecClose, .matOpen, .matClose, .rowEnd, .cell, .vecSep, .newline,
   .comma, .semicolon, .alignEq, .spacedEq, .cdot, .times, .pm, .sin, .cos, .tan, .ln, .arcsin, .arccos, .arctan,
   .det, .pi]

/-- A symbol or a single character. -/
inductive Tok where
  | sym (s : Sym)
  | chr (c : Char)
  deriving DecidableEq, Repr

/-- The symbol at the beginning of a text. (No symbol is the beginning of another one.) -/
def symbolAt (s : Str) : Option Sym := symbols.find? fun y => y.text.isPrefixOf s

/-- Cutting a text into symbols and characters; the number counts characters of the last symbol still to be skipped. -/
def lexSkip : Nat → Str → List Tok
  | _, [] => []
  | k + 1, _ :: s => lexSkip k s
  | 0, c :: s =>
    match symbolAt (c :: s) with
    | some y => .sym y :: lexSkip (y.text.length - 1) s
    | none => .chr c :: lexSkip 0 s

/-- Cutting a text into symbols and characters. -/
def lex (s : Str) : List Tok := lexSkip 0 s

/-- Symbols that stand for a piece of plain notation by themselves. -/
def Sym.plain : Sym → Option Str
  | .lparen => some ['('] | .rparen => some [')'] | .lbrace => some ['{'] | .rbrace => some ['}']
  | .eqOpen => some ['e', 'q', '('] | .eqClose => some [')']
  | .vecOpen => some ['['] | .vecClose => some [']'] | .matOpen => some ['[', '['] | .rowEnd => some [']', ',', '[']
  | .cell => some [','] | .vecSep => some [','] | .newline => some [] | .comma => some [','] | .semicolon => some [',']
  | .alignEq => some ['='] | .spacedEq => some ['=']
  | .cdot => some ['*'] | .times => some ['x'] | .pm => some ['+', '-']
  | .sin => some (str! "sin") | .cos => some (str! "cos") | .tan => some (str! "tan") | .ln => some (str! "ln")
  | .arcsin => some (str! "arcsin") | .arccos => some (str! "arccos") | .arctan => some (str! "arctan")
  | .det => some (str! "det") | .pi => some (str! "pi")
  | _ => none

/-- Groups that are still open. `before` is the notation read before the group. -/
inductive Opened where
  /-- braces after `^`, `_`, `\sqrt`, and the lower half of a fraction; `last` is written when they close -/
  | braces (last : Str)
  /-- upper half of a fraction -/
  | upper (before : Str)
  /-- between the halves of a fraction -/
  | between
  | rootIndex (before : Str)
  | rootBody (before index : Str)
  | lowerBound (before : Str)
  | betweenBounds (before lower : Str)
  | upperBound (before lower : Str)
  | integrand (before lower upper : Str)
  /-- the name after `d` -/
  | integName (before lower upper body : Str)
  | derivName (before : Str)
  | derivBody (before name : Str)
  | derivPlace (before name body : Str)
  deriving DecidableEq, Repr

/-- The open groups, innermost first, and the notation read in the innermost one. -/
abbrev State := List Opened × Str

/-- Letters, digits and the underscore. -/
def nameChar (c : Char) : Bool := c.isAlphanum || c == '_'

/-- The name after `d` ends where the next character is not part of a name; this completes the integral. -/
def settle : State → State
  | (.integName before lower upper body :: st, out) =>
    (st, before ++ str! "I(" ++ body ++ [','] ++ out ++ [','] ++ lower ++ [','] ++ upper ++ [')'])
  | s => s

/-- Processing one symbol; `none` if it does not fit. -/
def stepSym (y : Sym) : State → Option State
  | (st, out) =>
    match y, st with
    | .frac, st => some (.upper out :: st, [])
    | .close, .braces last :: st => some (st, out ++ last)
    | .close, .upper before :: st => some (.between :: st, before ++ out ++ ['/'])
    | .open_, .between :: st => some (.braces [] :: st, out)
    | .sup, .betweenBounds before lower :: st => some (.upperBound before lower :: st, [])
    | .sup, st => some (.braces [')'] :: st, out ++ ['^', '('])
    | .sub, st => some (.braces [] :: st, out ++ ['_'])
    | .sqrt, st => some (.braces [')'] :: st, out ++ str! "sqrt(")
    | .rootOpen, st => some (.rootIndex out :: st, [])
    | .rootMid, .rootIndex before :: st => some (.rootBody before out :: st, [])
    | .close, .rootBody before index :: st => some (st, before ++ str! "root(" ++ out ++ [','] ++ index ++ [')'])
    | .int, st => some (.lowerBound out :: st, [])
    | .close, .lowerBound before :: st => some (.betweenBounds before out :: st, [])
    | .close, .upperBound before lower :: st => some (.integrand before lower out :: st, [])
    | .diff, .integrand before lower upper :: st => some (.integName before lower upper out :: st, [])
    | .partial_, .upper before :: st => some (.derivName before :: st, [])
    | .close, .derivName before :: st => some (.derivBody before out :: st, [])
    -- `out` is `(body)_`
    | .atText, .braces [] :: .derivBody before name :: st =>
      some (.derivPlace before name ((out.drop 1).dropLast.dropLast) :: st, [])
    -- `out` is `name=place`
    | .close, .derivPlace before name body :: st =>
      some (st, before ++ str! "D(" ++ body ++ [','] ++ name ++ [','] ++ out.drop (name.length + 1) ++ [')'])
    -- the last row ends with `],[`, too
    | .matClose, st => some (st, out.dropLast.dropLast ++ [']'])
    | y, st => y.plain.map fun w => (st, out ++ w)

/-- Processing one symbol or character. -/
def step (t : Tok) (s : State) : Option State :=
  match t with
  | .chr c => if nameChar c then some (s.1, s.2 ++ [c]) else some ((settle s).1, (settle s).2 ++ [c])
  | .sym y => stepSym y (settle s)

/-- Processing all of them; at the end no group may be open. -/
def run : List Tok → State → Option Str
  | [], s => if (settle s).1 = [] then some (settle s).2 else none
  | t :: ts, s => (step t s).bind (run ts)

/-- The plain notation of a LaTeX formula. -/
def read (s : Str) : Option Str := run (lex s) ([], [])

/-- Reading a definition `name = formula`, with or without an `&`: the name, and the plain notation of the formula. -/
def readDefinition (s : Str) : Option (Str × Str) :=
  (read ((s.dropWhile (· != '=')).drop 2)).map fun b => ((s.takeWhile (· != '=')).filter (fun c => c != '&' && c != ' '), b)

/-! ## Formulas whose LaTeX is unambiguous -/

/-- A name that LaTeX shows as it is: letters, digits and underscores, not ending with an underscore. -/
def ClearName (n : Str) : Prop := n ≠ [] ∧ (∀ c ∈ n, nameChar c = true) ∧ n.getLast? ≠ some '_'

section
variable {F : Type} [FNum F]

/-- Trees whose LaTeX ends with the name of an integration variable. -/
def endsWithName : AST F → Bool
  | .integral .. => true
  | .simple op _ r =>
    match op with
    | .add | .sub | .addSub | .mult | .neg | .hiddenMult | .cross => endsWithName r
    | _ => false
  | _ => false

/-- The texts that follow an integral without an operator must not continue the name of its variable. -/
def Detached (latex : Str) : Prop := ∃ c, latex.head? = some c ∧ nameChar c = false

/-- Operations that print only their first operand. -/
def firstOnly : List SimpleOp :=
  [.abs, .sin, .cos, .tan, .sqrt, .ln, .arcsin, .arccos, .arctan, .det, .parenths]

/-- Unambiguous formulas: plain names, no number in scientific notation, no `inv` (which is printed without the
parentheses its argument needs), no empty matrices. -/
inductive Clear (cfg : Cfg) : AST F → Prop
  | scalar (x : F) : (FArith.beq (Value.roundScalar x ((cfg.prec : Int) - 2)) (FArith.ofInt 0) = true →
      FArith.beq x (FArith.ofInt 0) = true) → Clear cfg (.scalar x)
  | variable (n : Str) : ClearName n → Clear cfg (.variable n)
  | vector (v : List (AST F)) : (∀ a ∈ v, Clear cfg a) → Clear cfg (.vector v)
  | matrix (m : List (List (AST F))) : m ≠ [] → (∀ r ∈ m, r ≠ []) → (∀ r ∈ m, ∀ a ∈ r, Clear cfg a) → Clear cfg (.matrix m)
  | list (l : List (AST F)) : (∀ a ∈ l, Clear cfg a) → Clear cfg (.list l)
  | function (n : Str) (l : List (AST F)) : ClearName n → (∀ a ∈ l, Clear cfg a) → Clear cfg (.function n l)
  | neg (z r : AST F) : Clear cfg r → Clear cfg (.simple .neg z r)
  | one (op : SimpleOp) (l z : AST F) : op ∈ firstOnly → Clear cfg l → Clear cfg (.simple op l z)
  | two (op : SimpleOp) (l r : AST F) : op ∉ firstOnly → op ≠ .neg → op ≠ .inv → Clear cfg l → Clear cfg r →
      (op = .hiddenMult → endsWithName l = true → Detached (r.asLatex cfg)) → Clear cfg (.simple op l r)
  | integral (e : AST F) (x : Str) (lo hi : AST F) : ClearName x → Clear cfg e → Clear cfg lo →
      Clear cfg hi → Clear cfg (.integral e x lo hi)
  | derivative (e : AST F) (x : Str) (a : AST F) : ClearName x → Clear cfg e → Clear cfg a →
      Clear cfg (.derivative e x a)
  | equation (es : List (AST F × AST F)) (vs : List Str) : (∀ p ∈ es, Clear cfg p.1) → (∀ p ∈ es, Clear cfg p.2) →
      Clear cfg (.equation es vs)

end

end MUL.Spec.Tex
