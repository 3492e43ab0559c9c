import Verif.Model.Errors
import Verif.Model.Eval
/-!
# Specification of error reports  (C61)
-/

namespace MUL.Spec

/-- Errors whose text is passed through from somewhere else: a maths function. -/
def Foreign : QuickEvalError → Prop
  | .evalError (.mathError _) => True
  | _ => False

/-- `name` occurs in `text`. -/
def Says (text name : Str) : Prop := name <:+: text

/-- The English word for the kind of a value. -/
def kindName {F : Type} : Value F → String
  | .scalar _ => "scalar"
  | .vector _ => "vector"
  | .matrix _ => "matrix"

/-- The text for operands of the wrong kind: which operation, and which kinds in the order they are spoken.
(The library misspells `matrix` in one text.) -/
def kindText {F : Type} (op : SimpleOp) (a b : Value F) : String :=
  match op with
  | .add | .addSub => "Can't add " ++ kindName b ++ " to " ++ kindName a ++ "!"
  | .sub => "Can't subtract " ++ kindName b ++ " from " ++ kindName a ++ "!"
  | .mult | .hiddenMult => "Vector has to be on the right side of linear transformation!"
  | .div => "Can't divide " ++ kindName a ++ " by " ++ kindName b ++ "!"
  | .cross => "Cross product can only be computed between two vectors!"
  | .pow => "Can only raise scalar or matrix to the power of scalar!"
  | .get => "Can only index vector with scalar!"
  | .root => "Can only take root of a scalar!"
  | .sin => "Can't take sin of " ++ kindName a ++ "!"
  | .cos => "Can't take cos of " ++ kindName a ++ "!"
  | .tan => "Can't take tan of " ++ kindName a ++ "!"
  | .arcsin => "Can't take arcsin of " ++ (if kindName a = "matrix" then "matrxi" else kindName a) ++ "!"
  | .arccos => "Can't take arccos of " ++ kindName a ++ "!"
  | .arctan => "Can't take arctan of " ++ kindName a ++ "!"
  | .abs => "Can't take abs of " ++ kindName a ++ "!"
  | .sqrt => "Can't take sqrt of " ++ kindName a ++ "!"
  | .ln => "Can't take ln of " ++ kindName a ++ "!"
  | .det => "Can't calculate determinant of a " ++ kindName a ++ "!"
  | .inv => "Can't calculate inverse of a " ++ kindName a ++ "!"
  | .neg | .parenths => "unreachable"

end MUL.Spec
