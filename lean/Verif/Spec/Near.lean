import Verif.Spec.Rounding
import Verif.Num.Binary64
import Verif.Spec.ContextMap
/-!
# Specification for C67: values of the library within error bounds
-/

set_option linter.unusedSectionVars false

namespace MUL.Spec

section
variable {F : Type} [FArith F] [Binary64 F]

/-- The stored number is within the bound. -/
def Near (a : F) (p : Approx) : Prop := ∃ q : ℚ, Binary64.val a = some q ∧ |(q : ℝ) - p.val| ≤ p.err

/-- All stored numbers of a value are within the bounds. -/
def NearV : Value F → ObjR → Prop
  | .scalar a, .scalar p => Near a p
  | .vector l, .vector k => List.Forall₂ Near l k
  | .matrix l, .matrix k => List.Forall₂ (List.Forall₂ Near) l k
  | _, _ => False
end

/-- A context of the library in which the variables are within the bounds `ρ` and the functions are defined by `φ`. -/
structure ModelsR {F : Type} [FArith F] [Binary64 F] (cfg : Cfg) (ctx : Context F) (ρ : EnvR) (φ : Defs) : Prop where
  nodup : NoDupVars ctx
  vars : ∀ n o, ρ n = some o → ∃ v, ctx.findVar n = some [v] ∧ NearV v o
  funs : ∀ f params body, φ f = some (params, body) → ctx.findFun f = some ⟨f, body.tree cfg, params⟩

end MUL.Spec
