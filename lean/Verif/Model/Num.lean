import Verif.Model.Out
/-!
# The number interface

The code computes with `f64`. The model is generic in the number type `F`; everything the code
does with an `f64` is one of the operations below. Theorems that quantify over all `F` therefore
hold for IEEE-754 `f64` itself, whatever its rounding. Numeric theorems use instances from
`Verif/Num`.
-/

namespace MUL

/-- Basic `f64` operations: literals, arithmetic operators, comparisons, classification, casts. -/
class FArith (F : Type) where
  /-- integer literals and `as f64` casts of integers -/
  ofInt : Int → F
  /-- the float nearest to the decimal `m * 10^e`: float literals, `str::parse::<f64>` -/
  ofDec : Nat → Int → F
  nan : F
  /-- infinity, negative if the argument is `true` -/
  inf : Bool → F
  add : F → F → F
  sub : F → F → F
  mul : F → F → F
  div : F → F → F
  /-- `%` -/
  rem : F → F → F
  neg : F → F
  abs : F → F
  /-- `f64::round` (half away from zero) -/
  round : F → F
  powi : F → Int → F
  /-- `==` -/
  beq : F → F → Bool
  /-- `<` -/
  lt : F → F → Bool
  isNaN : F → Bool
  isInf : F → Bool
  isSignNeg : F → Bool
  /-- `as usize` (saturating) -/
  toUsize : F → Nat
  /-- `as i32` (saturating) -/
  toI32 : F → Int

/-- Elementary functions of `f64`. Uninterpreted except where a theorem says otherwise. -/
class FElem (F : Type) where
  powf : F → F → F
  sqrt : F → F
  sin : F → F
  cos : F → F
  tan : F → F
  asin : F → F
  acos : F → F
  atan : F → F
  ln : F → F
  /-- `std::f64::consts::PI` -/
  pi : F
  /-- `std::f64::consts::E` -/
  e : F

/-- Formatting of `f64`. -/
class FText (F : Type) where
  /-- `to_string()`, i.e. `{}` -/
  display : F → Str
  /-- `{:+e}` -/
  displayExp : F → Str

class FNum (F : Type) extends FArith F, FElem F, FText F

/-- Unicode classification of `char`. Only its behaviour on ASCII is fixed. -/
class UTable where
  isAlphabetic : Char → Bool
  isNumeric : Char → Bool
  alpha_ascii : ∀ c : Char, c.val < 128 → isAlphabetic c = c.isAlpha
  numeric_ascii : ∀ c : Char, c.val < 128 → isNumeric c = c.isDigit

/-- The table with ASCII letters and digits only. Used for concrete examples. -/
@[instance_reducible] def UTable.ascii : UTable where
  isAlphabetic := Char.isAlpha
  isNumeric := Char.isDigit
  alpha_ascii := fun _ _ => rfl
  numeric_ascii := fun _ _ => rfl

/-- Crate features that change behaviour. `prec` is the constant `PREC`:
8, or 13 with feature `high-prec`  (src/lib.rs 141-147).
`rowMajor` is the feature `row-major` (src/parser.rs 90-103). The constant is small, so that `PREC as i32` is `PREC`. -/
structure Cfg where
  prec : Nat
  rowMajor : Bool
  small : prec < 2 ^ 31
  deriving DecidableEq, Repr

theorem Cfg.small_two (cfg : Cfg) : cfg.prec - 2 < 2 ^ 31 := by
  have := cfg.small
  omega

/-- The crate built without features. -/
def Cfg.default : Cfg := ⟨8, false, by decide⟩

/-- The crate built with `high-prec`. -/
def Cfg.highPrec : Cfg := ⟨13, false, by decide⟩

/-- The crate built with `row-major`. -/
def Cfg.rowMajorCfg : Cfg := ⟨8, true, by decide⟩

end MUL
