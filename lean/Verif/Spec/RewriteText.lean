import Mathlib.Data.List.Forall2
import Verif.Spec.Grammar
import Verif.Spec.Sides
/-!
# Rewriting texts
-/

namespace MUL.Spec

/-- A written expression of numbers and operations other than plus-minus: if it has values at all, it has one, a number. -/
inductive NumberEx : Ex → Prop
  | num (ip : Str) (fp : Option Str) : NumberEx (.num ip fp)
  | paren (e : Ex) : NumberEx e → NumberEx (.paren e)
  | neg (e : Ex) : NumberEx e → NumberEx (.neg e)
  | fn (n : Str) (op : SimpleOp) (e : Ex) : op ≠ .addSub → NumberEx e → NumberEx (.fn n op e)
  | root (a b : Ex) : NumberEx a → NumberEx b → NumberEx (.root a b)
  | bin (op : BinOp) (l r : Ex) : op ≠ .addSub → NumberEx l → NumberEx r → NumberEx (.bin op l r)

/-- Expressions that can be rewritten into each other: by the rules `c+e = e+c`, `c*e = e*c` (`c` a number), `2x = 2*x`, `l-r = l+(-r)`,
`-(-e) = e`, `(e) = e`, by writing a number another way (`same`), by exchanging the sides of equations in one unknown and by leaving out an equation written twice; at any number of places,
in any number of steps and in both directions. -/
inductive Rewritten (same : Ex → Ex → Prop) : Ex → Ex → Prop
  | sum (c e : Ex) : NumberEx c → Rewritten same (.bin .add c e) (.bin .add e c)
  | product (c e : Ex) : NumberEx c → Rewritten same (.bin .mult c e) (.bin .mult e c)
  | hidden (l r : Ex) : Rewritten same (.bin .juxt l r) (.bin .mult l r)
  | minus (l r : Ex) : Rewritten same (.bin .sub l r) (.bin .add l (.neg r))
  | negative (e : Ex) : Rewritten same (.neg (.paren (.neg e))) e
  | parentheses (e : Ex) : Rewritten same (.paren e) e
  | constant (c c' : Ex) : NumberEx c → NumberEx c' → same c c' → Rewritten same c c'
  | sides (ls rs ls' rs' : List Ex) (x : Str) : ls.length = rs.length → ls'.length = rs'.length → SameUpToSides (ls.zip rs) (ls'.zip rs') →
      Rewritten same (.eqs ls rs [x]) (.eqs ls' rs' [x])
  | twice (l r : Ex) (x : Str) : Rewritten same (.eqs [l, l] [r, r] [x]) (.eqs [l] [r] [x])
  -- any number of steps, in both directions
  | refl (e : Ex) : Rewritten same e e
  | symm (e e' : Ex) : Rewritten same e e' → Rewritten same e' e
  | trans (e e' e'' : Ex) : Rewritten same e e' → Rewritten same e' e'' → Rewritten same e e''
  -- at any place
  | neg (e e' : Ex) : Rewritten same e e' → Rewritten same (.neg e) (.neg e')
  | fn (n : Str) (op : SimpleOp) (e e' : Ex) : Rewritten same e e' → Rewritten same (.fn n op e) (.fn n op e')
  | root (a a' b b' : Ex) : Rewritten same a a' → Rewritten same b b' → Rewritten same (.root a b) (.root a' b')
  | bin (op : BinOp) (l l' r r' : Ex) : Rewritten same l l' → Rewritten same r r' → Rewritten same (.bin op l r) (.bin op l' r')
  | integ (e e' : Ex) (x : Str) (lo lo' hi hi' : Ex) : Rewritten same e e' → Rewritten same lo lo' → Rewritten same hi hi' →
      Rewritten same (.integ e x lo hi) (.integ e' x lo' hi')
  | deriv (e e' : Ex) (x : Str) (a a' : Ex) : Rewritten same e e' → Rewritten same a a' → Rewritten same (.deriv e x a) (.deriv e' x a')
  | call (n : Str) (pre : List Ex) (e e' : Ex) (post : List Ex) : Rewritten same e e' → Rewritten same (.call n (pre ++ e :: post)) (.call n (pre ++ e' :: post))
  | vec (pre : List Ex) (e e' : Ex) (post : List Ex) : Rewritten same e e' → Rewritten same (.vec (pre ++ e :: post)) (.vec (pre ++ e' :: post))
  | list (pre : List Ex) (e e' : Ex) (post : List Ex) : Rewritten same e e' → Rewritten same (.list (pre ++ e :: post)) (.list (pre ++ e' :: post))
  | mat (above : List (List Ex)) (pre : List Ex) (e e' : Ex) (post : List Ex) (below : List (List Ex)) : Rewritten same e e' →
      Rewritten same (.mat (above ++ (pre ++ e :: post) :: below)) (.mat (above ++ (pre ++ e' :: post) :: below))
  | left (pre : List Ex) (e e' : Ex) (post rs : List Ex) (x : Str) : Rewritten same e e' →
      Rewritten same (.eqs (pre ++ e :: post) rs [x]) (.eqs (pre ++ e' :: post) rs [x])

end MUL.Spec
