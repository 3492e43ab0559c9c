import Mathlib.Data.List.Forall2
import Verif.Spec.Grammar
import Verif.Spec.Sides
/-!
# Exchanging sides of equations anywhere in an expression
-/

namespace MUL.Spec

/-- `e'` is `e` with the sides of some equations in one unknown exchanged, also of equations that are part of other equations in one unknown,
of integrals, and so on. -/
inductive SidesExchanged : Ex → Ex → Prop
  | same (e : Ex) : SidesExchanged e e
  | paren (e e' : Ex) : SidesExchanged e e' → SidesExchanged (.paren e) (.paren e')
  | fn (n : Str) (op : SimpleOp) (e e' : Ex) : SidesExchanged e e' → SidesExchanged (.fn n op e) (.fn n op e')
  | root (a a' b b' : Ex) : SidesExchanged a a' → SidesExchanged b b' → SidesExchanged (.root a b) (.root a' b')
  | call (n : Str) (as as' : List Ex) : List.Forall₂ SidesExchanged as as' → SidesExchanged (.call n as) (.call n as')
  | vec (es es' : List Ex) : List.Forall₂ SidesExchanged es es' → SidesExchanged (.vec es) (.vec es')
  | mat (rs rs' : List (List Ex)) : List.Forall₂ (List.Forall₂ SidesExchanged) rs rs' → SidesExchanged (.mat rs) (.mat rs')
  | list (es es' : List Ex) : List.Forall₂ SidesExchanged es es' → SidesExchanged (.list es) (.list es')
  | neg (e e' : Ex) : SidesExchanged e e' → SidesExchanged (.neg e) (.neg e')
  | bin (op : BinOp) (l l' r r' : Ex) : SidesExchanged l l' → SidesExchanged r r' → SidesExchanged (.bin op l r) (.bin op l' r')
  | integ (e e' : Ex) (x : Str) (lo lo' hi hi' : Ex) : SidesExchanged e e' → SidesExchanged lo lo' → SidesExchanged hi hi' →
      SidesExchanged (.integ e x lo hi) (.integ e' x lo' hi')
  | deriv (e e' : Ex) (x : Str) (a a' : Ex) : SidesExchanged e e' → SidesExchanged a a' → SidesExchanged (.deriv e x a) (.deriv e' x a')
  | eqs (ls rs ms ns ls' rs' : List Ex) (x : Str) : List.Forall₂ SidesExchanged ls ms → List.Forall₂ SidesExchanged rs ns →
      ls.length = rs.length → ls'.length = rs'.length → SameUpToSides (ms.zip ns) (ls'.zip rs') → SidesExchanged (.eqs ls rs [x]) (.eqs ls' rs' [x])

mutual
/-- Every equation in the expression has one unknown. -/
def OneUnknown : Ex → Prop
  | .num _ _ => True
  | .var _ => True
  | .paren e => OneUnknown e
  | .fn _ _ e => OneUnknown e
  | .root a b => OneUnknown a ∧ OneUnknown b
  | .call _ args => OneUnknowns args
  | .vec es => OneUnknowns es
  | .mat rows => OneUnknownRows rows
  | .list es => OneUnknowns es
  | .neg e => OneUnknown e
  | .bin _ l r => OneUnknown l ∧ OneUnknown r
  | .integ e _ lo hi => OneUnknown e ∧ OneUnknown lo ∧ OneUnknown hi
  | .deriv e _ a => OneUnknown e ∧ OneUnknown a
  | .eqs ls rs xs => xs.length = 1 ∧ OneUnknowns ls ∧ OneUnknowns rs
/-- in several expressions -/
def OneUnknowns : List Ex → Prop
  | [] => True
  | e :: es => OneUnknown e ∧ OneUnknowns es
/-- in rows -/
def OneUnknownRows : List (List Ex) → Prop
  | [] => True
  | r :: rs => OneUnknowns r ∧ OneUnknownRows rs
end

end MUL.Spec
