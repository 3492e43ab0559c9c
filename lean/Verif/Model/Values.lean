import Verif.Model.Basetypes
/-!
# Making and taking apart values  (src/basetypes.rs)
-/

namespace MUL
variable {F : Type}

/-- The macro `value!`  (src/basetypes.rs 165-192), applied to arguments separated by `,` inside of rows separated by `;`. The first
arm that matches counts: one argument is a scalar, one row is a vector, several rows are a matrix. Anything else (no arguments, an
empty row) does not compile: `none`. Simplification: the arguments are numbers, already converted with `as f64`. -/
def valueMacro : List (List F) → Option (Value F)
  | [[x]] => some (.scalar x)
  | [x :: y :: xs] => some (.vector (x :: y :: xs))
  | r :: s :: rows => if (r :: s :: rows).all (fun row => !row.isEmpty) then some (.matrix (r :: s :: rows)) else none
  | _ => none

/-- `Values::from_vec`  (src/basetypes.rs 562-564). `Values` is a list of `Value`. -/
def valuesFromVec (vs : List (Value F)) : List (Value F) := vs

/-- `Values::to_vec`  (src/basetypes.rs 566-568). -/
def valuesToVec (vs : List (Value F)) : List (Value F) := vs

/-- `Values::get`  (src/basetypes.rs 570-572). -/
def valuesGet (vs : List (Value F)) (i : Nat) : Option (Value F) := (vs.drop i).head?

/-- `Values::len`  (src/basetypes.rs 574-576). -/
def valuesLen (vs : List (Value F)) : Nat := vs.length

/-- `Into<Values> for Value`  (src/basetypes.rs 536-540). -/
def Value.intoValues (v : Value F) : List (Value F) := valuesFromVec [v]

/-- `Variable::new` with one value  (src/basetypes.rs 36-38). -/
def Variable.new (name : Str) (v : Value F) : Variable F := ⟨name, v.intoValues⟩

/-- `Variable::new_from_values`, and `Variable::new` with several values  (src/basetypes.rs 36-42). -/
def Variable.newFromValues (name : Str) (vs : List (Value F)) : Variable F := ⟨name, vs⟩

/-- `Function::new`  (src/basetypes.rs 71-73). -/
def Function.new (name : Str) (ast : AST F) (inputs : List Str) : Function F := ⟨name, ast, inputs.map fun s => s⟩

/-- `Context::new`  (src/basetypes.rs 105-107). -/
def Context.new (vars : List (Variable F)) (funs : List (Function F)) : Context F := ⟨vars, funs⟩

/-- `AST::from_variable_name`  (src/basetypes.rs 676-678). -/
def AST.fromVariableName (n : Str) : AST F := .variable n

end MUL
