import Verif.Model.Lit
import Verif.Model.Basetypes
/-!
# Specification for C51-C57, C59: reading printed text
-/

namespace MUL.Spec

/-! ## C52: balanced LaTeX -/

/-- Letters only, and not one of the four bracketing commands. -/
def PlainCommand (w : Str) : Prop :=
  w ≠ [] ∧ (∀ c ∈ w, c.isAlpha = true) ∧
    w ∉ [str! "left", str! "right", str! "begin", str! "end"]

/-- Delimiters that belong together after `\left` and `\right`. -/
def Delimiters (d e : Str) : Prop :=
  (d, e) ∈ [(str! "(", str! ")"), (str! "|", str! "|"), (str! "\\{", str! "\\}")]

/-- Balanced LaTeX: text, commands and line breaks, put in sequence and nested in braces, `\left…\right…` and
`\begin{n}…\end{n}`. -/
inductive Balanced : Str → Prop where
  | text (s : Str) (h : ∀ c ∈ s, c ∉ ['{', '}', '\\']) : Balanced s
  | command (w : Str) (h : PlainCommand w) : Balanced ('\\' :: w)
  | lineBreak : Balanced ['\\', '\\']
  | seq (s t : Str) (hs : Balanced s) (ht : Balanced t) : Balanced (s ++ t)
  | group (s : Str) (h : Balanced s) : Balanced (['{'] ++ s ++ ['}'])
  | delimited (d e s : Str) (hd : Delimiters d e) (h : Balanced s) :
      Balanced (str! "\\left" ++ d ++ s ++ str! "\\right" ++ e)
  | environment (n s : Str) (hn : ∀ c ∈ n, c.isAlpha = true) (h : Balanced s) :
      Balanced (str! "\\begin{" ++ n ++ ['}'] ++ s ++ str! "\\end{" ++ n ++ ['}'])

/-- All names of variables, of called functions and of variables of integration and differentiation satisfy `V`. -/
inductive AllNames {F : Type} (V : Str → Prop) : AST F → Prop
  | scalar (s : F) : AllNames V (.scalar s)
  | vector (v : List (AST F)) : (∀ a ∈ v, AllNames V a) → AllNames V (.vector v)
  | matrix (m : List (List (AST F))) : (∀ r ∈ m, ∀ a ∈ r, AllNames V a) → AllNames V (.matrix m)
  | list (l : List (AST F)) : (∀ a ∈ l, AllNames V a) → AllNames V (.list l)
  | variable (n : Str) : V n → AllNames V (.variable n)
  | function (n : Str) (args : List (AST F)) : V n → (∀ a ∈ args, AllNames V a) → AllNames V (.function n args)
  | simple (op : SimpleOp) (l r : AST F) : AllNames V l → AllNames V r → AllNames V (.simple op l r)
  | integral (e : AST F) (x : Str) (lo hi : AST F) : V x → AllNames V e → AllNames V lo → AllNames V hi →
      AllNames V (.integral e x lo hi)
  | derivative (e : AST F) (x : Str) (a : AST F) : V x → AllNames V e → AllNames V a →
      AllNames V (.derivative e x a)
  | equation (eqs : List (AST F × AST F)) (vars : List Str) :
      (∀ e ∈ eqs, AllNames V e.1) → (∀ e ∈ eqs, AllNames V e.2) → AllNames V (.equation eqs vars)

/-- The commands of a LaTeX text, as LaTeX reads them: a backslash and all letters that follow. -/
def commands : Str → List Str
  | [] => []
  | '\\' :: rest => rest.takeWhile Char.isAlpha :: commands rest
  | _ :: rest => commands rest

/-! ## C53: lines and cells of a LaTeX matrix -/

/-- Split at `\\`. -/
def splitBreaks : Str → List Str
  | [] => [[]]
  | '\\' :: '\\' :: rest => [] :: splitBreaks rest
  | c :: rest => match splitBreaks rest with
    | [] => [[c]]
    | l :: ls => (c :: l) :: ls

/-- Split at a character. -/
def splitChar (d : Char) : Str → List Str
  | [] => [[]]
  | c :: rest =>
    if c = d then [] :: splitChar d rest
    else match splitChar d rest with
      | [] => [[c]]
      | l :: ls => (c :: l) :: ls

/-- Without blanks at both ends. -/
def trimBlanks (s : Str) : Str :=
  ((s.dropWhile (· == ' ')).reverse.dropWhile (· == ' ')).reverse

/-- The cells of the body of a LaTeX matrix: lines end at `\\`, cells at `&`, blanks around cells do not count. -/
def latexCells (body : Str) : List (List Str) :=
  (splitBreaks body).map fun l => (splitChar '&' l).map trimBlanks

/-! ## C57: alignment -/

/-- The lines of a text. -/
def lines (s : Str) : List Str := splitChar '\n' s

/-- All lines have the same number of characters. -/
def Aligned (s : Str) : Prop := ∀ a ∈ lines s, ∀ b ∈ lines s, a.length = b.length

/-- The middle line of `n` lines (the upper one if there are two). -/
def Middle (n i : Nat) : Prop := 2 * i + 1 = n ∨ 2 * i + 2 = n

/-- The piece of a bracket over `n` lines that belongs to line `i`: top, bottom or middle piece. -/
def bracketPiece (n i : Nat) (top mid bot : Char) : Char := if i = 0 then top else if i + 1 = n then bot else mid

/-- The names of the Greek letters. -/
def greekNames : List Str :=
  [str! "alpha", str! "beta", str! "gamma", str! "delta", str! "epsilon", str! "zeta", str! "eta", str! "theta", str! "iota",
   str! "kappa", str! "lambda", str! "mu", str! "nu", str! "xi", str! "omicron", str! "pi", str! "rho", str! "sigma", str! "tau",
   str! "upsilon", str! "phi", str! "chi", str! "psi", str! "omega"]

/-- With a capital. -/
def capital : Str → Str
  | [] => []
  | c :: s => c.toUpper :: s

/-- Small and capital letter number `k` in the Unicode block of mathematical italic letters (which has one extra letter
between rho and sigma). -/
def smallGreek (k : Nat) : Char := Char.ofNat (0x1D6FC + (if k ≤ 16 then k else k + 1))
def capitalGreek (k : Nat) : Char := Char.ofNat (0x1D6E2 + (if k ≤ 16 then k else k + 1))

/-- The words of a line. -/
def words (s : Str) : List Str := (splitChar ' ' s).filter (· ≠ [])

end MUL.Spec
