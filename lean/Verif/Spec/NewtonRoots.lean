import Verif.Spec.Newton
import Mathlib.Analysis.Convex.Function
/-!
# Specification for C87: which solutions of one equation are found
-/

namespace MUL.Spec

/-- Between `a` and `b`, the function `g` rises at least by `m` and at most by `M` per unit. -/
def Slopes (g : ℝ → ℝ) (a b m M : ℝ) : Prop := ∀ x y, a ≤ x → x < y → y ≤ b → m * (y - x) ≤ g y - g x ∧ g y - g x ≤ M * (y - x)

/-- Between `a` and `b`, the partial function `f` is `g`. -/
def DefinedOn (f : ℝ → Option ℝ) (g : ℝ → ℝ) (a b : ℝ) : Prop := ∀ x, a ≤ x → x ≤ b → f x = some (g x)

/-- Near `s` the function `f` is well enough behaved: it rises, by `m` to `1.95·m` per unit within a distance of `1/2`; or by `m` to
`20·m` per unit and it is convex up to the next integer; or by `m` to `20·m` per unit and it is concave from the integer before, with
hardly any change of slope within the step `h` of the difference quotients. -/
inductive Tame (f : ℝ → Option ℝ) (g : ℝ → ℝ) (s m h : ℝ) : Prop
  | near : DefinedOn f g (s - 1 / 2) (s + 1 / 2 + h) → Slopes g (s - 1 / 2) (s + 1 / 2 + h) m (39 / 20 * m) → Tame f g s m h
  | convex : DefinedOn f g s (⌈s⌉ + h) → ConvexOn ℝ (Set.Icc s (⌈s⌉ + h)) g → Slopes g s (⌈s⌉ + h) m (20 * m) → Tame f g s m h
  | concave (m' : ℝ) : DefinedOn f g (min ⌊s⌋ (s - h)) (s + 2 * h) → ConcaveOn ℝ (Set.Icc (⌊s⌋ : ℝ) s) g →
      Slopes g (min ⌊s⌋ (s - h)) (s + h) m (20 * m) → 0 < m' → Slopes g (s - h) (s + 2 * h) m' (39 / 20 * m') → Tame f g s m h

end MUL.Spec
