import Verif.Spec.Grammar
import Verif.Spec.Rename
/-!
# Renaming in texts
-/

namespace MUL.Spec

section
variable (σ τ : Str → Str)

mutual
/-- The expression with all names exchanged: variables by `σ`, functions by `τ`. Built-in functions stay. -/
def renameEx : Ex → Ex
  | .num ip fp => .num ip fp
  | .var n => .var (σ n)
  | .paren e => .paren (renameEx e)
  | .fn n op e => .fn n op (renameEx e)
  | .root a b => .root (renameEx a) (renameEx b)
  | .call n args => .call (τ n) (renameExs args)
  | .vec es => .vec (renameExs es)
  | .mat rows => .mat (renameExRows rows)
  | .list es => .list (renameExs es)
  | .neg e => .neg (renameEx e)
  | .bin op l r => .bin op (renameEx l) (renameEx r)
  | .integ e x lo hi => .integ (renameEx e) (σ x) (renameEx lo) (renameEx hi)
  | .deriv e x a => .deriv (renameEx e) (σ x) (renameEx a)
  | .eqs ls rs vars => .eqs (renameExs ls) (renameExs rs) (vars.map σ)
/-- several expressions -/
def renameExs : List Ex → List Ex
  | [] => []
  | e :: es => renameEx e :: renameExs es
/-- rows of expressions -/
def renameExRows : List (List Ex) → List (List Ex)
  | [] => []
  | r :: rs => renameExs r :: renameExRows rs
end

mutual
/-- No equation in the expression. -/
def NoEquation : Ex → Prop
  | .num _ _ => True
  | .var _ => True
  | .paren e => NoEquation e
  | .fn _ _ e => NoEquation e
  | .root a b => NoEquation a ∧ NoEquation b
  | .call _ args => NoEquations args
  | .vec es => NoEquations es
  | .mat rows => NoEquationRows rows
  | .list es => NoEquations es
  | .neg e => NoEquation e
  | .bin _ l r => NoEquation l ∧ NoEquation r
  | .integ e _ lo hi => NoEquation e ∧ NoEquation lo ∧ NoEquation hi
  | .deriv e _ a => NoEquation e ∧ NoEquation a
  | .eqs _ _ _ => False
/-- in none of several expressions -/
def NoEquations : List Ex → Prop
  | [] => True
  | e :: es => NoEquation e ∧ NoEquations es
/-- in no row -/
def NoEquationRows : List (List Ex) → Prop
  | [] => True
  | r :: rs => NoEquations r ∧ NoEquationRows rs
end

end

end MUL.Spec
