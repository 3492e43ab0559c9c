import Verif.Num.Binary64
import Verif.Model.Basetypes
import Mathlib.LinearAlgebra.Matrix.Determinant.Basic
/-!
# Specification for C75: values that store given binary64 numbers
-/

namespace MUL.Spec

variable {F : Type} [FArith F] [Binary64 F]

/-- `v` is a scalar that stores `x`. -/
def StoresScalar (v : Value F) (x : ℚ) : Prop := ∃ a : F, v = .scalar a ∧ Binary64.val a = some x

/-- `v` is a vector that stores `x 0, x 1, …`. -/
def StoresVector {n : Nat} (v : Value F) (x : Fin n → ℚ) : Prop :=
  ∃ l : List F, v = .vector l ∧ l.map Binary64.val = List.ofFn fun i => some (x i)

/-- `v` is a matrix that stores the rows of `A`. -/
def StoresMatrix {r c : Nat} (v : Value F) (A : Matrix (Fin r) (Fin c) ℚ) : Prop :=
  ∃ m : List (List F), v = .matrix m ∧
    (m.map fun row => row.map Binary64.val) = List.ofFn fun i => List.ofFn fun j => some (A i j)

/-- The sum of the absolute values of the products of a dot product. -/
def absDot {n : Nat} (x y : Fin n → ℚ) : ℚ := ∑ i, |x i * y i|

/-- The product of the sums of the absolute values of the rows: a bound of the determinant. -/
def rowBound {n : Nat} (A : Matrix (Fin n) (Fin n) ℚ) : ℚ := ∏ i, ∑ j, |A i j|

/-- The same with sums below one counted as one: a bound of the determinants of all parts of the matrix. -/
def rowBound1 {n : Nat} (A : Matrix (Fin n) (Fin n) ℚ) : ℚ := ∏ i, max 1 (∑ j, |A i j|)

/-- `x` is a whole multiple of `2^-k`. -/
def OnGrid (k : Nat) (x : ℚ) : Prop := ∃ m : Int, x = m / 2 ^ k

end MUL.Spec
