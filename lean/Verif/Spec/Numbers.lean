import Verif.Model.Lit
import Verif.Model.Out
import Mathlib.Algebra.Order.Field.Basic
/-!
# Specification for C63: how numbers are written

Decimal notation, scientific notation, and the number each text stands for.
-/

namespace MUL.Spec

section
variable {K : Type} [Field K]

/-- The value of a digit. -/
def digitOf (c : Char) : Nat := c.toNat - 48

/-- The value of a string of digits: the last digit counts once, the others ten times. -/
inductive DigitsAre : Str → Nat → Prop
  | one (c : Char) : c.isDigit = true → DigitsAre [c] (digitOf c)
  | more (s : Str) (c : Char) (n : Nat) : DigitsAre s n → c.isDigit = true → DigitsAre (s ++ [c]) (10 * n + digitOf c)

/-- Decimal notation without sign: `12`, `0.05`. -/
inductive Unsigned : Str → K → Prop
  | whole (ip : Str) (n : Nat) : DigitsAre ip n → Unsigned ip (n : K)
  | fraction (ip fp : Str) (n m : Nat) : DigitsAre ip n → DigitsAre fp m →
      Unsigned (ip ++ ['.'] ++ fp) ((n : K) + (m : K) / 10 ^ fp.length)

/-- Decimal notation. There is no minus zero. -/
inductive Plain : Str → K → Prop
  | pos (s : Str) (x : K) : Unsigned s x → Plain s x
  | neg (s : Str) (x : K) : Unsigned s x → x ≠ 0 → Plain (['-'] ++ s) (-x)

/-- Whole numbers (exponents). -/
inductive Whole : Str → Int → Prop
  | pos (s : Str) (n : Nat) : DigitsAre s n → Whole s (n : Int)
  | neg (s : Str) (n : Nat) : DigitsAre s n → Whole (['-'] ++ s) (-(n : Int))

/-- Scientific notation: `1.5e-9`, and in LaTeX `1.5\cdot 10^{-9}`. -/
inductive Scientific (latex : Bool) : Str → K → Prop
  | mk (s ks : Str) (x : K) (k : Int) : Plain s x → Whole ks k →
      Scientific latex (if latex then s ++ str! "\\cdot 10^{" ++ ks ++ str! "}" else s ++ str! "e" ++ ks) (x * 10 ^ k)

end

end MUL.Spec
