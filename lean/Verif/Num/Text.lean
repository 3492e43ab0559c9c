import Verif.Model.Helpers
/-!
# Text of numbers

The laws of `f64` formatting that the printing theorems use. They are documented properties of Rust's
`Display` and `LowerExp` for `f64`: `{}` writes a finite number without exponent, with at least one digit before
the point and no point without digits after it; reading the text with `str::parse` gives the number back.
`Verif/Num/RatText.lean` shows that the laws can be met.
-/

namespace MUL

/-- Digits with an optional fractional part: `12`, `0.5`. -/
def numeral (ip fp : Str) : Str := ip ++ (if fp = [] then [] else '.' :: fp)

/-- A string of decimal digits. -/
def AllDigits (s : Str) : Prop := ∀ c ∈ s, c.isDigit = true

/-- Formatting of the numbers of `F`. -/
class TextLaws (F : Type) [FNum F] : Prop where
  /-- letters (`inf`, `NaN`), digits, minus sign and point only -/
  display_chars : ∀ (a : F), ∀ c ∈ FText.display a, c.isAlphanum = true ∨ c = '-' ∨ c = '.'
  display_ne : ∀ a : F, FText.display a ≠ []
  exp_chars : ∀ (a : F), ∀ c ∈ FText.displayExp a, c.isAlphanum = true ∨ c = '-' ∨ c = '.' ∨ c = '+'
  /-- more than a sign -/
  exp_ne : ∀ a : F, (FText.displayExp a).drop 1 ≠ []
  /-- a finite non-negative number is written as a numeral which denotes it -/
  display_decimal : ∀ (m : Nat) (e : Int), FArith.isInf (FArith.ofDec m e : F) = false →
    ∃ ip fp, ip ≠ [] ∧ AllDigits ip ∧ AllDigits fp ∧ FText.display (FArith.ofDec m e : F) = numeral ip fp ∧
      (FArith.ofDec (digitsVal (ip ++ fp)) (-(fp.length : Int)) : F) = FArith.ofDec m e
  display_zero : ∀ (m : Nat) (e : Int), FArith.beq (FArith.ofDec m e : F) (FArith.ofInt 0) = true →
    FText.display (FArith.ofDec m e : F) = ['0']
  /-- a negative number is written with a minus sign -/
  display_neg : ∀ (m : Nat) (e : Int),
    FText.display (FArith.neg (FArith.ofDec m e) : F) = '-' :: FText.display (FArith.ofDec m e : F)
  /-- multiplying by minus one is changing the sign -/
  neg_one_mul : ∀ (m : Nat) (e : Int),
    FArith.mul (FArith.ofInt (-1)) (FArith.ofDec m e : F) = FArith.neg (FArith.ofDec m e)
  /-- scientific notation: sign, numeral, `e`, exponent -/
  exp_decimal : ∀ (m : Nat) (e : Int), FArith.isInf (FArith.ofDec m e : F) = false →
    ∃ ip fp xs, ∃ neg : Bool, ip ≠ [] ∧ xs ≠ [] ∧ AllDigits ip ∧ AllDigits fp ∧ AllDigits xs ∧
      FText.displayExp (FArith.ofDec m e : F) = '+' :: (numeral ip fp ++ 'e' :: ((if neg then ['-'] else []) ++ xs)) ∧
      (FArith.ofDec (digitsVal (ip ++ fp))
        ((if neg then -(digitsVal xs : Int) else (digitsVal xs : Int)) - (fp.length : Int)) : F) = FArith.ofDec m e
  exp_neg : ∀ (m : Nat) (e : Int),
    FText.displayExp (FArith.neg (FArith.ofDec m e) : F) = '-' :: (FText.displayExp (FArith.ofDec m e : F)).drop 1

/-- A finite number: plus or minus a decimal number that does not overflow. In `f64` this is every finite
number; in a type with more numbers than decimal ones (fractions) it is the decimal ones. -/
def Decimal {F : Type} [FArith F] (a : F) : Prop :=
  ∃ (m : Nat) (e : Int), FArith.isInf (FArith.ofDec m e : F) = false ∧
    (a = FArith.ofDec m e ∨ a = FArith.neg (FArith.ofDec m e))

end MUL
