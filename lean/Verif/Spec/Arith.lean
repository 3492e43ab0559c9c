import Verif.Num.Exact
import Verif.Model.Basetypes
import Mathlib.Data.Matrix.Mul
/-!
# Specifications for the arithmetic properties (C30-C39)

Which mathematical object a value of the library stands for, when all its entries are finite.
-/

namespace MUL.Spec

variable {F : Type} [FArith F] {K : Type} [Field K] [LinearOrder K] [IsStrictOrderedRing K] [FloorRing K] [Exact F K]

/-- `v` is the scalar `x`. -/
def IsScalar (v : Value F) (x : K) : Prop := ∃ a : F, v = .scalar a ∧ Exact.val a = some x

/-- `v` is the vector `x`: its entries in order are `x 0, x 1, …`. -/
def IsVector {n : Nat} (v : Value F) (x : Fin n → K) : Prop :=
  ∃ l : List F, v = .vector l ∧ l.map Exact.val = List.ofFn fun i => some (x i)

/-- `v` is the matrix `A`: its rows in order are the rows of `A`. -/
def IsMatrix {r c : Nat} (v : Value F) (A : Matrix (Fin r) (Fin c) K) : Prop :=
  ∃ m : List (List F), v = .matrix m ∧
    (m.map fun row => row.map Exact.val) = List.ofFn fun i => List.ofFn fun j => some (A i j)

end MUL.Spec

namespace MUL.Spec

/-- Same kind and same dimensions. -/
def SameShape {F : Type} : Value F → Value F → Prop
  | .scalar _, .scalar _ => True
  | .vector a, .vector b => a.length = b.length
  | .matrix a, .matrix b => a.map List.length = b.map List.length
  | _, _ => False

/-- Apply `f` entry by entry. -/
def entrywise {F : Type} (f : F → F → F) : Value F → Value F → Value F
  | .scalar a, .scalar b => .scalar (f a b)
  | .vector a, .vector b => .vector (List.zipWith f a b)
  | .matrix a, .matrix b => .matrix (List.zipWith (List.zipWith f) a b)
  | v, _ => v

/-- The three kinds of values. -/
inductive Kind where
  | scalar | vector | matrix
  deriving DecidableEq, Repr

/-- The kind of a value. -/
def kind {F : Type} : Value F → Kind
  | .scalar _ => .scalar
  | .vector _ => .vector
  | .matrix _ => .matrix

/-- Which kinds of operands an operation accepts (the right operand of the one-argument operations, and the
left one of negation, plays no role). -/
def accepts : SimpleOp → Kind → Kind → Bool
  | .add, a, b | .sub, a, b | .addSub, a, b => a = b
  | .mult, a, b | .hiddenMult, a, b => !(a = .vector && b = .matrix)
  | .div, a, b => b = .scalar || (a = .vector && b = .vector)
  | .cross, a, b => a = .vector && b = .vector
  | .pow, a, b => (a = .scalar || a = .matrix) && b = .scalar
  | .get, a, b => a = .vector && b = .scalar
  | .root, a, b => a = .scalar && b = .scalar
  | .neg, _, _ | .parenths, _, _ => true
  | .abs, a, _ => a = .scalar || a = .vector
  | .det, a, _ | .inv, a, _ => a = .matrix
  | .sin, a, _ | .cos, a, _ | .tan, a, _ | .arcsin, a, _ | .arccos, a, _ | .arctan, a, _ | .sqrt, a, _ | .ln, a, _ =>
    a = .scalar

/-- `x` rounded to `p` decimals is one of the numbers `k / 10^p` nearest to `x`. -/
def NearestDecimal {K : Type} [Field K] [LinearOrder K] (p : Nat) (x y : K) : Prop :=
  (∃ k : Int, y = k / 10 ^ p) ∧ |y - x| ≤ 1 / (2 * 10 ^ p)

end MUL.Spec
