import Verif.Model.Num
/-!
# Base types: values, trees, contexts, errors  (src/basetypes.rs, src/errors.rs)
-/

namespace MUL

/-- `enum Value`  (src/basetypes.rs 201-207). -/
inductive Value (F : Type) where
  | matrix (m : List (List F))
  | vector (v : List F)
  | scalar (s : F)
  deriving DecidableEq, Repr

/-- `enum SimpleOpType`  (src/basetypes.rs 875-926). -/
inductive SimpleOp where
  | add | sub | addSub | neg | mult | div | cross | hiddenMult | pow | get
  | sin | cos | tan | abs | sqrt | root | ln | arcsin | arccos | arctan | det | inv | parenths
  deriving DecidableEq, Repr

/-- `enum AST` together with `enum Operation` and `enum AdvancedOperation`
(src/basetypes.rs 635-648, 946-977). Simplification: the `Box<Operation>` indirection is
flattened, `AST::Operation(SimpleOperation{..})` is `simple`, the three advanced operations are
constructors of their own. -/
inductive AST (F : Type) where
  | scalar (s : F)
  | vector (v : List (AST F))
  | matrix (m : List (List (AST F)))
  | list (l : List (AST F))
  | variable (name : Str)
  | function (name : Str) (inputs : List (AST F))
  | simple (op : SimpleOp) (left right : AST F)
  | integral (expr : AST F) (inTermsOf : Str) (lower upper : AST F)
  | derivative (expr : AST F) (inTermsOf : Str) (at_ : AST F)
  | equation (equations : List (AST F × AST F)) (searchVars : List Str)
  deriving Repr

/-- `struct Variable`  (src/basetypes.rs 29-32); `Values` is a list of `Value`. -/
structure Variable (F : Type) where
  name : Str
  values : List (Value F)
  deriving DecidableEq, Repr

/-- `struct Function`  (src/basetypes.rs 62-66). -/
structure Function (F : Type) where
  name : Str
  ast : AST F
  inputs : List Str
  deriving Repr

/-- `struct Context`  (src/basetypes.rs 91-94). -/
structure Context (F : Type) where
  vars : List (Variable F)
  funs : List (Function F)
  deriving Repr

/-- `enum ParserError`  (src/errors.rs 54-69). -/
inductive ParserError where
  | parseValue (s : Str)
  | missingBracket
  | emptyVec
  | notRectMatrix
  | emptyExpr
  | unmatchedOpenDelimiter
  | unmatchedCloseDelimiter
  | equationWithoutEqual
  | tooManyEquals
  | noEquation
  | invalidVariableName (s : Str)
  | invalidFunctionName (s : Str)
  | wrongNumberOfArgs (s : String)
  deriving DecidableEq, Repr

/-- `enum EvalError`  (src/errors.rs 97-114). -/
inductive EvalError where
  | nonScalarInVector
  | nonScalarInMatrix
  | recursiveFunction
  | vectorInEq
  | matrixInEq
  | nothingToDoEq
  | underdeterminedSystem
  | infiniteSolutions
  | naNOrInf
  | expressionCheckFailed
  | searchVarsInVars
  | noVariable (s : Str)
  | noFunction (s : Str)
  | wrongNumberOfArgs (expected given : Nat)
  | mathError (s : String)
  deriving DecidableEq, Repr

/-- `enum QuickEvalError`  (src/errors.rs 150-155). -/
inductive QuickEvalError where
  | duplicateVars
  | parserError (e : ParserError)
  | evalError (e : EvalError)
  deriving DecidableEq, Repr

/-- `n as i32` for `n : usize`: the lowest 32 bits, as a signed number. -/
def asI32 (n : Nat) : Int := if n % 2 ^ 32 < 2 ^ 31 then (n % 2 ^ 32 : Nat) else ((n % 2 ^ 32 : Nat) : Int) - 2 ^ 32

theorem asI32_small {n : Nat} (h : n < 2 ^ 31) : asI32 n = n := by
  unfold asI32
  rw [Nat.mod_eq_of_lt (by omega), if_pos h]

section
variable {F : Type}

namespace Value

/-- `Value::get_scalar`  (src/basetypes.rs 212-218). -/
def getScalar : Value F → Option F
  | scalar a => some a
  | matrix _ => none
  | vector _ => none

/-- `Value::get_vector`  (src/basetypes.rs 221-227). -/
def getVector : Value F → Option (List F)
  | vector a => some a
  | matrix _ => none
  | scalar _ => none

/-- `Value::get_matrix`  (src/basetypes.rs 230-236). -/
def getMatrix : Value F → Option (List (List F))
  | matrix a => some a
  | scalar _ => none
  | vector _ => none

/-- `Value::is_scalar`  (src/basetypes.rs 238-243). -/
def isScalar : Value F → Bool
  | scalar _ => true
  | _ => false

/-- `Value::is_vector`  (src/basetypes.rs 245-250). -/
def isVector : Value F → Bool
  | vector _ => true
  | _ => false

/-- `Value::is_matrix`  (src/basetypes.rs 252-257). -/
def isMatrix : Value F → Bool
  | matrix _ => true
  | _ => false

variable [FArith F]

/-- The expression `(a*10f64.powi(prec as i32)).round()/10f64.powi(prec as i32)` that occurs in
`Value::round` and `round_and_format`  (src/basetypes.rs 261, src/helpers.rs 36-51). -/
def roundScalar (a : F) (prec : Int) : F :=
  FArith.div (FArith.round (FArith.mul a (FArith.powi (FArith.ofInt 10) prec)))
    (FArith.powi (FArith.ofInt 10) prec)

/-- The body of `Value::round` for the exponent `prec as i32`  (src/basetypes.rs 260-280). -/
def roundTo (v : Value F) (prec : Int) : Value F :=
  match v with
  | scalar a => scalar (roundScalar a prec)
  | vector v => vector (v.map fun i => roundScalar i prec)
  | matrix m => matrix (m.map fun i => i.map fun j => roundScalar j prec)

/-- `Value::round`  (src/basetypes.rs 259-281). -/
def round (v : Value F) (prec : Nat) : Value F := v.roundTo (asI32 prec)

theorem round_small (v : Value F) {p : Nat} (h : p < 2 ^ 31) : v.round p = v.roundTo p := by
  unfold round
  rw [asI32_small h]

/-- `Value::is_inf_or_nan`  (src/basetypes.rs 283-304). -/
def isInfOrNan : Value F → Bool
  | scalar s => FArith.isInf s || FArith.isNaN s
  | vector v => v.any fun i => FArith.isInf i || FArith.isNaN i
  | matrix m => m.any fun i => i.any fun j => FArith.isInf j || FArith.isNaN j

/-- `==` on lists of floats (derived `PartialEq` of `Vec<f64>`): same length and all entries `==`. -/
def beqList : List F → List F → Bool
  | [], [] => true
  | a :: as, b :: bs => FArith.beq a b && beqList as bs
  | _, _ => false

/-- `==` on lists of rows (derived `PartialEq` of `Vec<Vec<f64>>`). -/
def beqRows : List (List F) → List (List F) → Bool
  | [], [] => true
  | a :: as, b :: bs => beqList a b && beqRows as bs
  | _, _ => false

/-- derived `PartialEq for Value`  (src/basetypes.rs 201). Uses float `==`, so `NaN != NaN`. -/
def beq : Value F → Value F → Bool
  | scalar a, scalar b => FArith.beq a b
  | vector a, vector b => beqList a b
  | matrix a, matrix b => beqRows a b
  | _, _ => false

end Value

/-- `Values::round`  (src/basetypes.rs 578-581). -/
def valuesRound [FArith F] (vs : List (Value F)) (prec : Nat) : List (Value F) :=
  vs.map fun x => x.round prec

/-- `AST::from_value`  (src/basetypes.rs 652-674). -/
def AST.fromValue : Value F → AST F
  | .scalar s => .scalar s
  | .vector v => .vector (v.map .scalar)
  | .matrix m => .matrix (m.map fun i => i.map .scalar)

namespace Context

/-- `Context::empty`  (src/basetypes.rs 109-111). -/
def empty : Context F := ⟨[], []⟩

/-- `Context::default`: `pi` and `e`  (src/basetypes.rs 98-103). -/
def default [FElem F] : Context F :=
  ⟨[⟨['p', 'i'], [.scalar FElem.pi]⟩, ⟨['e'], [.scalar FElem.e]⟩], []⟩

/-- `Context::from_vars`  (src/basetypes.rs 113-115). -/
def fromVars (vars : List (Variable F)) : Context F := ⟨vars, []⟩

/-- `Context::from_funs`  (src/basetypes.rs 117-119). -/
def fromFuns (funs : List (Function F)) : Context F := ⟨[], funs⟩

/-- `Context::add_var`  (src/basetypes.rs 121-128). -/
def addVar (c : Context F) (v : Variable F) : Context F :=
  { c with vars := (c.vars.filter fun w => w.name != v.name) ++ [v] }

/-- `Context::add_fun`  (src/basetypes.rs 130-137). -/
def addFun (c : Context F) (f : Function F) : Context F :=
  { c with funs := (c.funs.filter fun g => g.name != f.name) ++ [f] }

/-- `Context::remove_var`  (src/basetypes.rs 139-144). -/
def removeVar (c : Context F) (n : Str) : Context F :=
  { c with vars := c.vars.filter fun w => w.name != n }

/-- `Context::remove_fun`  (src/basetypes.rs 146-151). -/
def removeFun (c : Context F) (n : Str) : Context F :=
  { c with funs := c.funs.filter fun g => g.name != n }

/-- The search `for i in context.vars.iter() { if &i.name == v {..} }`: first variable with the
name  (src/parser.rs 444-448). -/
def findVar (c : Context F) (n : Str) : Option (List (Value F)) :=
  (c.vars.find? fun w => w.name == n).map (·.values)

/-- The search `for i in context.funs.iter()`: first function with the name
(src/parser.rs 456-462). -/
def findFun (c : Context F) (n : Str) : Option (Function F) :=
  c.funs.find? fun g => g.name == n

end Context
end

end MUL
