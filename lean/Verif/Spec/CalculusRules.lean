import Verif.Spec.Calculus
/-!
# Rules of calculus: specification for C84
-/

namespace MUL.Spec
variable {F : Type} [FNum F] {K : Type} [Field K] [LinearOrder K] [IsStrictOrderedRing K] [FloorRing K] [Exact F K]

/-- With the variable `x` set to any of the numbers in `S`, the expression `e` has one value, `f` of that number. -/
abbrev Gives (S : K → Prop) (cfg : Cfg) (ctx : Context F) (x : Str) (e : AST F) (f : K → K) : Prop :=
  ComputesOn S IsScalar cfg ctx x e fun (_ : Fin 1) => f

/-- The expression `e` has one value, the number `v`. -/
def Number (cfg : Cfg) (ctx : Context F) (e : AST F) (v : K) : Prop :=
  ∃ w, Finishes (fun n => eval cfg n e ctx) (.ok [w]) ∧ IsScalar w v

/-- The points at which an integrand is evaluated. -/
abbrev Samples (cfg : Cfg) (a b : K) : K → Prop := SamplePoint (10 ^ (cfg.prec - 3)) (min a b) (max a b)

end MUL.Spec
