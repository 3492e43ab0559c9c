import Verif.Model.Values
import Verif.Model.Num
/-!
# Specification for C102: which operations panic on which values

`Value` is a public type: matrices without rows or with rows of different lengths, and vectors without entries, can be
made by hand and handed to every operation.
-/

namespace MUL.Spec

section
variable {F : Type} [FArith F]

/-- The number of entries of the first row. -/
def width (m : List (List F)) : Nat := (m.headD []).length

/-- Some row is shorter than the first one. -/
def ShortRow (m : List (List F)) : Prop := ∃ r ∈ m, r.length < width m

/-- Some row is longer than the first one. -/
def LongRow (m : List (List F)) : Prop := ∃ r ∈ m, width m < r.length

/-- The operations that panic, with the operands on which they do. -/
def Panics : SimpleOp → Value F → Value F → Prop
  | .add, .matrix a, .matrix b | .addSub, .matrix a, .matrix b =>
      a.length = b.length ∧ (a = [] ∨ width a = width b ∧ (ShortRow a ∨ ShortRow b))
  | .sub, .matrix a, .matrix b =>
      ShortRow b ∨ a.length = b.length ∧ (a = [] ∨ width a = width b ∧ ShortRow a)
  | .mult, .scalar _, .matrix b | .hiddenMult, .scalar _, .matrix b => ShortRow b
  | .mult, .matrix a, .scalar _ | .hiddenMult, .matrix a, .scalar _ | .div, .matrix a, .scalar _ => ShortRow a
  | .mult, .matrix a, .vector b | .hiddenMult, .matrix a, .vector b => a = [] ∨ width a = b.length ∧ LongRow a
  | .mult, .matrix a, .matrix b | .hiddenMult, .matrix a, .matrix b =>
      a = [] ∨ width a = b.length ∧ (b = [] ∨ 0 < width b ∧ (ShortRow a ∨ ShortRow b))
  | .get, .vector a, .scalar i => a = [] ∧ FArith.beq (FArith.rem i (FArith.ofInt 1)) (FArith.ofInt 0) = true ∧ FArith.isSignNeg i = false
  | .pow, .matrix a, .scalar k => FArith.beq (FArith.round k) k = true ∧ 0 < FArith.toI32 k ∧ (a = [] ∨ a.length = width a ∧ ShortRow a)
  | .det, .matrix a, _ | .inv, .matrix a, _ => a = []
  | _, _, _ => False

end

end MUL.Spec
