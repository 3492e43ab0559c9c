import Mathlib.Data.Rat.Defs
import Mathlib.Algebra.Order.Ring.Rat
import Mathlib.Algebra.Field.Rat
import Mathlib.Algebra.Order.Field.Basic
/-!
# Specification: the numbers of IEEE-754 binary64
-/

namespace MUL.Spec

/-- The finite binary64 numbers: 53 significant bits, exponents from -1074 to 971. -/
def Representable (x : ℚ) : Prop := ∃ m e : Int, |m| < 2 ^ 53 ∧ -1074 ≤ e ∧ e ≤ 971 ∧ x = m * 2 ^ e

/-- `y` is a binary64 number nearest to `x`. -/
def NearestDouble (x y : ℚ) : Prop := Representable y ∧ ∀ r, Representable r → |y - x| ≤ |r - x|

end MUL.Spec
