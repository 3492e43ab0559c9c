import Verif.Model.Basetypes
/-!
# Specifications for the parser properties (C06, C08, C11, C16)
-/

namespace MUL.Spec

/-- All characters are ASCII. -/
def Ascii (s : Str) : Prop := ∀ c ∈ s, c.val < 128

/-- Unclosed round parentheses after a piece of text. -/
def parens (s : Str) : Int := (s.count '(' : Nat) - (s.count ')' : Nat)

/-- Unclosed braces after a piece of text. -/
def braces (s : Str) : Int := (s.count '{' : Nat) - (s.count '}' : Nat)

/-- Round parentheses are balanced: never more closed than opened, all closed at the end. -/
def ParenBal (s : Str) : Prop := (∀ j, 0 ≤ parens (s.take j)) ∧ parens s = 0

/-- Characters that may not stand in a name outside of braces. -/
def nameForbidden : List Char := ['?', '+', '-', '&', '*', '/', '^', '#', '=']

/-- A valid variable or function name: starts with a letter or a backslash, and each character outside
of braces is none of the forbidden ones, and if it is numeric, an underscore stands directly before it. -/
def ValidName [UTable] (s : Str) : Prop :=
  (∃ c r, s = c :: r ∧ (UTable.isAlphabetic c = true ∨ c = '\\')) ∧
  ∀ i c, s[i]? = some c → braces (s.take (i + 1)) = 0 →
    c ∉ nameForbidden ∧ (UTable.isNumeric c = true → ∃ j, i = j + 1 ∧ s[j]? = some '_')

/-- Well-formed syntax trees: vectors, lists and argument lists are non-empty, matrices are non-empty
and rectangular, and all names of variables and called functions satisfy `V`. -/
inductive WFTree {F : Type} (V : Str → Prop) : AST F → Prop
  | scalar (s : F) : WFTree V (.scalar s)
  | vector (v : List (AST F)) : v ≠ [] → (∀ a ∈ v, WFTree V a) → WFTree V (.vector v)
  | matrix (m : List (List (AST F))) (n : Nat) : m ≠ [] → 0 < n → (∀ r ∈ m, r.length = n) →
      (∀ r ∈ m, ∀ a ∈ r, WFTree V a) → WFTree V (.matrix m)
  | list (l : List (AST F)) : l ≠ [] → (∀ a ∈ l, WFTree V a) → WFTree V (.list l)
  | variable (n : Str) : V n → WFTree V (.variable n)
  | function (n : Str) (args : List (AST F)) : V n → args ≠ [] → (∀ a ∈ args, WFTree V a) →
      WFTree V (.function n args)
  | simple (op : SimpleOp) (l r : AST F) : WFTree V l → WFTree V r → WFTree V (.simple op l r)
  | integral (e : AST F) (x : Str) (lo hi : AST F) : WFTree V e → WFTree V lo → WFTree V hi →
      WFTree V (.integral e x lo hi)
  | derivative (e : AST F) (x : Str) (a : AST F) : WFTree V e → WFTree V a → WFTree V (.derivative e x a)
  | equation (eqs : List (AST F × AST F)) (vars : List Str) :
      (∀ e ∈ eqs, WFTree V e.1) → (∀ e ∈ eqs, WFTree V e.2) → WFTree V (.equation eqs vars)

end MUL.Spec
