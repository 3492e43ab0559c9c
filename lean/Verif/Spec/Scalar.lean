import Verif.Spec.Grammar
import Verif.Spec.Eval
/-!
# Specification for C72: operations on numbers
-/

namespace MUL.Spec
variable {F : Type} [FNum F]

/-- The functions of the number type that the built-in functions stand for. `abs` multiplies negative numbers by `-1`. -/
def numFn : SimpleOp → Option (F → F)
  | .sin => some FElem.sin
  | .cos => some FElem.cos
  | .tan => some FElem.tan
  | .arcsin => some FElem.asin
  | .arccos => some FElem.acos
  | .arctan => some FElem.atan
  | .sqrt => some FElem.sqrt
  | .ln => some FElem.ln
  | .abs => some fun a => if FArith.lt a (FArith.ofInt 0) then FArith.mul a (FArith.ofInt (-1)) else a
  | _ => none

/-- The results of the binary operators on two numbers. -/
def numOp : BinOp → Option (F → F → List F)
  | .add => some fun a b => [FArith.add a b]
  | .sub => some fun a b => [FArith.add a (FArith.mul b (FArith.ofInt (-1)))]
  | .addSub => some fun a b => [FArith.add a b, FArith.add a (FArith.mul b (FArith.ofInt (-1)))]
  | .mult | .juxt => some fun a b => [FArith.mul a b]
  | .div => some fun a b => [FArith.div a b]
  | .pow => some fun a b => [FElem.powf a b]
  | .cross | .get => none

end MUL.Spec
