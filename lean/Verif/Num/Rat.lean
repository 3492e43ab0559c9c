import Verif.Num.Ext
import Verif.Num.Text
import Mathlib.Data.Nat.Log
import Mathlib.Data.Rat.Floor
import Mathlib.Algebra.Order.Ring.Rat
import Mathlib.Algebra.Field.Rat
/-!
# Rational numbers: a computable instance for concrete examples

The elementary functions are stand-ins: `sqrt` and `powf` are exact where the result is rational and of the
obvious form, everything else is NaN. Used in examples and witnesses only.
-/

namespace MUL

/-- Rational numbers with negative zero, infinities and NaN. -/
abbrev Q := Ext ℚ

/-- Square root of a perfect square. -/
def ratSqrt (x : ℚ) : Option ℚ :=
  let r : ℚ := mkRat (Nat.sqrt x.num.natAbs) (Nat.sqrt x.den)
  if 0 ≤ x ∧ r * r = x then some r else none

instance : FElem Q where
  powf a b := match b.value with
    | some y => if y.den = 1 then FArith.powi a y.num else .nan
    | none => .nan
  sqrt a := match a.value with
    | some x => match ratSqrt x with
      | some r => .fin r
      | none => .nan
    | none => .nan
  sin a := a
  cos _ := .nan
  tan a := a
  asin a := a
  acos _ := .nan
  atan a := a
  ln _ := .nan
  pi := .fin (314159265 / 100000000)
  e := .fin (271828183 / 100000000)

/-- The last `k` decimal digits of `n`. -/
def padDigits : Nat → Nat → Str
  | 0, _ => []
  | k + 1, n => padDigits k (n / 10) ++ [Char.ofNat (48 + n % 10)]

/-- The decimal digits of `n`. -/
def natDigits (n : Nat) : Str := padDigits (Nat.log 10 n + 1) n

/-- Number of decimals needed for a fraction with the denominator `d`, if there is one. -/
def decimalsOf (d : Nat) : Option Nat := (List.range (Nat.log 2 d + 1)).find? fun k => 10 ^ k % d = 0

/-- Decimal text of a non-negative fraction; a stand-in `n:d` if it has no finite decimal expansion. -/
def ratText (x : ℚ) : Str :=
  match decimalsOf x.den with
  | some k =>
    let n := x.num.natAbs * (10 ^ k / x.den)
    numeral (natDigits (n / 10 ^ k)) (padDigits k n)
  | none => natDigits x.num.natAbs ++ ['.'] ++ natDigits x.den

/-- Scientific notation of a non-negative fraction, without sign. -/
def ratExp (x : ℚ) : Str :=
  match decimalsOf x.den with
  | some k =>
    let n := x.num.natAbs * (10 ^ k / x.den)
    let w := Nat.log 10 n
    let e : Int := (w : Int) - k
    numeral ((natDigits n).take 1) ((natDigits n).drop 1) ++ 'e' :: ((if e < 0 then ['-'] else []) ++ natDigits e.natAbs)
  | none => ['0']

instance : FText Q where
  display a := match a with
    | .fin x => if x < 0 then '-' :: ratText (-x) else ratText x
    | .negZero => ['-', '0']
    | .inf false => ['i', 'n', 'f']
    | .inf true => ['-', 'i', 'n', 'f']
    | .nan => ['N', 'a', 'N']
  displayExp a := match a with
    | .fin x => if x < 0 then '-' :: ratExp (-x) else '+' :: ratExp x
    | .negZero => '-' :: ratExp 0
    | .inf false => ['+', 'i', 'n', 'f']
    | .inf true => ['-', 'i', 'n', 'f']
    | .nan => ['N', 'a', 'N']

instance : FNum Q where

/-- The laws of exact arithmetic hold for `Q`. -/
example : Exact Q ℚ := inferInstance

example : FArith.add (.fin (1/2) : Q) (.fin (1/3)) = .fin (5/6) := by decide +kernel
example : FArith.div (.fin 1 : Q) (.fin 0) = .inf false := by decide +kernel

example : FText.display (.fin (5/4) : Q) = "1.25".toList := by decide +kernel
example : FText.display (.fin (-1/16) : Q) = "-0.0625".toList := by decide +kernel
example : FText.display (.fin 120 : Q) = "120".toList := by decide +kernel
example : FText.displayExp (.fin (-1/16) : Q) = "-6.25e-2".toList := by decide +kernel

end MUL
