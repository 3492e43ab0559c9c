import Verif.Model.Num
import Mathlib.Algebra.Order.Floor.Ring
import Mathlib.Algebra.Order.Field.Basic
import Mathlib.Algebra.Order.Ring.Abs
/-!
# Exact arithmetic

The laws under which the numeric theorems are proved: finite numbers are the elements of an ordered field `K`
and are computed without rounding; everything that is not finite (NaN and the infinities) has no value and
propagates as in IEEE-754. Zero may carry a sign. Everything a law does not fix stays arbitrary.
`Verif/Num/Ext.lean` shows that the laws hold for the concrete type `Ext K`.
-/

namespace MUL

/-- Rounding to an integer, half away from zero (`f64::round`). -/
def roundAway {K : Type} [Field K] [LinearOrder K] [FloorRing K] (x : K) : Int :=
  if 0 ≤ x then ⌊x + 1 / 2⌋ else -⌊-x + 1 / 2⌋

/-- Rounding towards zero (`as` casts, `%`). -/
def truncate {K : Type} [Field K] [LinearOrder K] [FloorRing K] (x : K) : Int :=
  if 0 ≤ x then ⌊x⌋ else -⌊-x⌋

/-- Exact arithmetic on `F` with values in `K`. -/
class Exact (F : Type) [FArith F] (K : outParam Type) [Field K] [LinearOrder K] [IsStrictOrderedRing K]
    [FloorRing K] where
  /-- the number denoted; `none` for NaN and the infinities -/
  val : F → Option K
  val_ofInt : ∀ n : Int, val (FArith.ofInt n) = some (n : K)
  val_ofDec : ∀ (m : Nat) (e : Int), val (FArith.ofDec m e) = some ((m : K) * 10 ^ e)
  val_nan : val FArith.nan = none
  val_inf : ∀ b, val (FArith.inf b) = none
  val_add : ∀ {a b x y}, val a = some x → val b = some y → val (FArith.add a b) = some (x + y)
  add_none : ∀ {a b}, val a = none ∨ val b = none → val (FArith.add a b) = none
  val_sub : ∀ {a b x y}, val a = some x → val b = some y → val (FArith.sub a b) = some (x - y)
  sub_none : ∀ {a b}, val a = none ∨ val b = none → val (FArith.sub a b) = none
  val_mul : ∀ {a b x y}, val a = some x → val b = some y → val (FArith.mul a b) = some (x * y)
  mul_none : ∀ {a b}, val a = none ∨ val b = none → val (FArith.mul a b) = none
  val_div : ∀ {a b x y}, val a = some x → val b = some y → y ≠ 0 → val (FArith.div a b) = some (x / y)
  /-- dividing by zero, or something that is not finite, gives nothing finite -/
  div_none : ∀ {a b}, val a = none ∨ val b = some 0 → val (FArith.div a b) = none
  /-- a finite number divided by an infinity is zero -/
  val_div_inf : ∀ {a b x}, val a = some x → FArith.isInf b = true → val (FArith.div a b) = some 0
  /-- non-zero divided by zero is an infinity, zero divided by zero is NaN -/
  div_zero_inf : ∀ {a b x}, val a = some x → x ≠ 0 → val b = some 0 → FArith.isInf (FArith.div a b) = true
  div_zero_nan : ∀ {a b}, val a = some 0 → val b = some 0 → FArith.isNaN (FArith.div a b) = true
  div_nan : ∀ {a b : F}, FArith.isNaN a = true ∨ FArith.isNaN b = true → FArith.isNaN (FArith.div a b) = true
  val_rem : ∀ {a b x y}, val a = some x → val b = some y → y ≠ 0 →
    val (FArith.rem a b) = some (x - truncate (x / y) * y)
  rem_none : ∀ {a b}, val a = none → val (FArith.rem a b) = none
  val_neg : ∀ a, val (FArith.neg a) = (val a).map (- ·)
  val_abs : ∀ a, val (FArith.abs a) = (val a).map (|·|)
  val_round : ∀ a, val (FArith.round a) = (val a).map fun x => (roundAway x : K)
  val_powi : ∀ {a x} {n : Int}, val a = some x → (0 ≤ n ∨ x ≠ 0) → val (FArith.powi a n) = some (x ^ n)
  powi_none : ∀ {a} {n : Int}, val a = none → 0 < n → val (FArith.powi a n) = none
  beq_val : ∀ {a b x y}, val a = some x → val b = some y → FArith.beq a b = decide (x = y)
  beq_none_left : ∀ {a b x}, val a = none → val b = some x → FArith.beq a b = false
  beq_none_right : ∀ {a b x}, val a = some x → val b = none → FArith.beq a b = false
  lt_val : ∀ {a b x y}, val a = some x → val b = some y → FArith.lt a b = decide (x < y)
  /-- comparisons with NaN are false -/
  nan_beq : ∀ {a b : F}, FArith.isNaN a = true ∨ FArith.isNaN b = true → FArith.beq a b = false
  nan_lt : ∀ {a b : F}, FArith.isNaN a = true ∨ FArith.isNaN b = true → FArith.lt a b = false
  /-- nothing that is not finite lies between two finite numbers -/
  lt_none : ∀ {a b c y z}, val a = none → val b = some y → val c = some z → FArith.lt b a = true → FArith.lt a c = false
  finite_iff : ∀ a, (FArith.isInf a || FArith.isNaN a) = (val a).isNone
  sign_neg : ∀ {a x}, val a = some x → x < 0 → FArith.isSignNeg a = true
  sign_pos : ∀ {a x}, val a = some x → 0 < x → FArith.isSignNeg a = false
  /-- the zero written `0` is positive -/
  sign_ofInt : ∀ n : Int, 0 ≤ n → FArith.isSignNeg (FArith.ofInt n : F) = false
  val_toUsize : ∀ {a x}, val a = some x → 0 ≤ x → FArith.toUsize a = min (⌊x⌋.toNat) (2 ^ 64 - 1)
  val_toI32 : ∀ {a x}, val a = some x → FArith.toI32 a = max (-2 ^ 31) (min (truncate x) (2 ^ 31 - 1))

end MUL
