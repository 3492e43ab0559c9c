import Verif.Model.Basetypes
/-!
# The derived `PartialEq` of trees, variables, functions and contexts  (src/basetypes.rs 27, 60, 89, 556, 635, 875, 932, 946, 959)

`Value` is in `Basetypes`. The derived `eq` compares variants, then fields from first to last, stopping at the first difference; `Vec`
compares lengths, then entries; `f64` compares with IEEE `==`. Stopping early cannot be observed: comparisons have no effects and end.
-/

namespace MUL
variable {F : Type} [FArith F]

mutual
/-- `PartialEq for AST`, with those of `Operation` and `AdvancedOperation`  (src/basetypes.rs 635, 875, 946, 959). -/
def AST.beq : AST F → AST F → Bool
  | .scalar a, .scalar b => FArith.beq a b
  | .vector v, .vector w => beqAll v w
  | .matrix v, .matrix w => beqAllRows v w
  | .list v, .list w => beqAll v w
  | .variable n, .variable m => n == m
  | .function n v, .function m w => n == m && beqAll v w
  | .simple o l r, .simple o' l' r' => o == o' && l.beq l' && r.beq r'
  | .integral e x l u, .integral e' x' l' u' => e.beq e' && x == x' && l.beq l' && u.beq u'
  | .derivative e x a, .derivative e' x' a' => e.beq e' && x == x' && a.beq a'
  | .equation es ns, .equation es' ns' => beqEqs es es' && ns == ns'
  | _, _ => false

/-- `PartialEq for Vec<AST>` -/
def beqAll : List (AST F) → List (AST F) → Bool
  | [], [] => true
  | a :: v, b :: w => a.beq b && beqAll v w
  | _, _ => false

/-- `PartialEq for Vec<Vec<AST>>` -/
def beqAllRows : List (List (AST F)) → List (List (AST F)) → Bool
  | [], [] => true
  | a :: v, b :: w => beqAll a b && beqAllRows v w
  | _, _ => false

/-- `PartialEq for Vec<(AST, AST)>` -/
def beqEqs : List (AST F × AST F) → List (AST F × AST F) → Bool
  | [], [] => true
  | (l, r) :: v, (l', r') :: w => l.beq l' && r.beq r' && beqEqs v w
  | _, _ => false
end

/-- `PartialEq for Values`  (src/basetypes.rs 556). -/
def valuesBeq : List (Value F) → List (Value F) → Bool
  | [], [] => true
  | a :: v, b :: w => a.beq b && valuesBeq v w
  | _, _ => false

/-- `PartialEq for Variable`  (src/basetypes.rs 27). -/
def Variable.beq (a b : Variable F) : Bool := a.name == b.name && valuesBeq a.values b.values

/-- `PartialEq for Function`  (src/basetypes.rs 60). -/
def Function.beq (a b : Function F) : Bool := a.name == b.name && a.ast.beq b.ast && a.inputs == b.inputs

/-- `PartialEq for Context`  (src/basetypes.rs 89). -/
def Context.beq (a b : Context F) : Bool :=
  (a.vars.length == b.vars.length && (a.vars.zip b.vars).all fun p => p.1.beq p.2) &&
  (a.funs.length == b.funs.length && (a.funs.zip b.funs).all fun p => p.1.beq p.2)

end MUL
