import Verif.Model.Lit
import Verif.Model.Basetypes
/-!
# Error values and their texts  (src/errors.rs)

`ParserError`, `EvalError` and `QuickEvalError` are in `Verif/Model/Basetypes.lean`. `Display` of these three types
writes `get_reason()` (src/errors.rs 91-95, 138-142, 172-176), so the model has only `getReason`. The
conversions from `mathjax_svg`, `tectonic` and `resvg` errors (src/errors.rs 204-223) are part of `Verif/Model/Output.lean`.
-/

namespace MUL

/-- `format!("{}", n)` for an unsigned integer. -/
def usizeText (n : Nat) : Str := Nat.toDigits 10 n

/-- `ParserError::get_reason`  (src/errors.rs 72-88). -/
def ParserError.getReason : ParserError → Str
  | .parseValue s => str! "Could not parse value " ++ s ++ ['!']
  | .missingBracket => str! "Could not parse vector/matrix because of missing brackets!"
  | .emptyVec => str! "Could not parse vector/matrix because it is (partially) empty!"
  | .notRectMatrix => str! "Could not parse matrix because it is not rectangular!"
  | .emptyExpr => str! "Could not parse empty expression!"
  | .unmatchedOpenDelimiter => str! "Unmatched opening delimiter!"
  | .unmatchedCloseDelimiter => str! "Unmatched closing delimiter!"
  | .equationWithoutEqual => str! "Must have = in equation!"
  | .tooManyEquals => str! "Too many = in equation. If you want to specify a system of equations please seperate each equation with a ','."
  | .noEquation => str! "Equation does not contain an '='!"
  | .invalidVariableName s => str! "Found invalid variable name: " ++ s ++ ['!']
  | .invalidFunctionName s => str! "Found invalid function name: " ++ s ++ ['!']
  | .wrongNumberOfArgs s => str! "Wrong number of arguments for " ++ s.toList ++ str! " operation!"

/-- `EvalError::get_reason`  (src/errors.rs 117-136). -/
def EvalError.getReason : EvalError → Str
  | .recursiveFunction => str! "Can't call a recursive function!"
  | .nonScalarInVector => str! "Vectors can only contain scalars!"
  | .nonScalarInMatrix => str! "Matrices can only contain scalars!"
  | .vectorInEq => str! "Can't have vectors in equations! Please convert your equation into a system of equations!"
  | .matrixInEq => str! "Can't have matrices in equations!"
  | .nothingToDoEq => str! "Nothing to do!"
  | .underdeterminedSystem => str! "Underdetermined system of equations!"
  | .infiniteSolutions => str! "Infinite Solutions!"
  | .naNOrInf => str! "NaN or Inf"
  | .expressionCheckFailed => str! "Expression Check Failed!"
  | .searchVarsInVars => str! "The given solve variables already exist in the context!"
  | .noVariable s => str! "Could not find variable " ++ s ++ ['!']
  | .noFunction s => str! "Could not find function " ++ s ++ ['!']
  | .wrongNumberOfArgs e g => str! "Wrong number of arguments! Expected " ++ usizeText e ++ str! " arguments, " ++
      usizeText g ++ str! " were given!"
  | .mathError s => s.toList

/-- `QuickEvalError::get_reason`  (src/errors.rs 163-169). -/
def QuickEvalError.getReason : QuickEvalError → Str
  | .duplicateVars => str! "Can't specify e and pi twice!"
  | .evalError e => e.getReason
  | .parserError e => e.getReason

/-- `enum LatexError`  (src/errors.rs 190-196). -/
inductive LatexError where
  | latexToPdfError (s : Str)
  | latexToImageError (s : Str)
  | latexToSvgError (s : Str)
  deriving DecidableEq, Repr

/-- `LatexError::get_reason`  (src/errors.rs 199-207). -/
def LatexError.getReason : LatexError → Str
  | .latexToPdfError s => str! "Could not convert Latex to PDF: " ++ s ++ ['!']
  | .latexToImageError s => str! "Could not convert Latex to Image: " ++ s ++ ['!']
  | .latexToSvgError s => str! "Could not convert Latex to SVG: " ++ s ++ ['!']

/-- `enum MathLibError`  (src/errors.rs 5-13). -/
inductive MathLibError where
  | parserError (e : ParserError)
  | evalError (e : EvalError)
  | quickEvalError (e : QuickEvalError)
  | latexError (e : LatexError)
  | other (s : Str)
  deriving DecidableEq, Repr

/-- `MathLibError::get_reason`  (src/errors.rs 17-26). -/
def MathLibError.getReason : MathLibError → Str
  | .parserError s => s.getReason
  | .evalError s => s.getReason
  | .quickEvalError s => s.getReason
  | .latexError s => s.getReason
  | .other s => s

/-- `impl From<ParserError> for MathLibError`  (src/errors.rs 29-33). -/
instance : Coe ParserError MathLibError := ⟨.parserError⟩
/-- `impl From<EvalError> for MathLibError`  (src/errors.rs 35-39). -/
instance : Coe EvalError MathLibError := ⟨.evalError⟩
/-- `impl From<QuickEvalError> for MathLibError`  (src/errors.rs 41-45). -/
instance : Coe QuickEvalError MathLibError := ⟨.quickEvalError⟩
/-- `impl From<LatexError> for MathLibError`  (src/errors.rs 48-52). -/
instance : Coe LatexError MathLibError := ⟨.latexError⟩
/-- `impl From<EvalError> for QuickEvalError`  (src/errors.rs 178-182). -/
instance : Coe EvalError QuickEvalError := ⟨.evalError⟩
/-- `impl From<ParserError> for QuickEvalError`  (src/errors.rs 184-188). -/
instance : Coe ParserError QuickEvalError := ⟨.parserError⟩
/-- `impl From<String> for EvalError`  (src/errors.rs 144-148). -/
instance : Coe String EvalError := ⟨.mathError⟩

end MUL
