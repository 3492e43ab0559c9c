import Verif.Spec.NewtonRoots
import Verif.Spec.Rounding
import Verif.Num.Binary64
import Verif.Spec.Near
/-!
# Specification for C89: solving one equation in binary64 arithmetic
-/

namespace MUL.Spec

/-- At the binary64 numbers between `a` and `b`, `φ` computes `g` to within `ε`. -/
def ComputesWithin {F : Type} [FArith F] [Binary64 F] (φ : F → F) (g : ℝ → ℝ) (a b ε : ℝ) : Prop :=
  ∀ (c : F) (x : ℚ), Binary64.val c = some x → a ≤ x → x ≤ b → ∃ y : ℚ, Binary64.val (φ c) = some y ∧ |(y : ℝ) - g x| ≤ ε

/-- `s` is a zero of `g` that can be found with steps of the size `h` if `g` is computed with errors up to `ε`: near `s` the function
rises (or falls) by `m` to `1.9·m` per unit, the errors are small compared with `m·h` and with `h`, and neither `s` nor `m` is so large
that neighbouring binary64 numbers are too far apart. -/
structure Findable (g : ℝ → ℝ) (s m ε h : ℝ) : Prop where
  zero : g s = 0
  pos : 0 < m
  slopes : Slopes g (s - 1 / 2) (s + 1 / 2 + 2 * h) m (19 / 10 * m) ∨
    Slopes (fun x => -g x) (s - 1 / 2) (s + 1 / 2 + 2 * h) m (19 / 10 * m)
  accurate : ε ≤ m * h / 400
  precise : ε ≤ h / 100
  near : |s| + 1 ≤ 2 ^ 46 * h
  flat : m * (|s| + 8) ≤ 2 ^ 46 * h

/-- Formulas of numbers: built from numerals, the variables in `V`, parentheses, signs, `+ - * / ^`, `root` and the functions of one number. -/
inductive NumFormula (V : Str → Prop) : Ex → Prop
  | num (ip : Str) (fp : Option Str) : NumFormula V (.num ip fp)
  | var (n : Str) : V n → NumFormula V (.var n)
  | paren (e : Ex) : NumFormula V e → NumFormula V (.paren e)
  | neg (e : Ex) : NumFormula V e → NumFormula V (.neg e)
  | bin (op : BinOp) (l r : Ex) : op ∈ [BinOp.add, .sub, .mult, .juxt, .div, .pow] → NumFormula V l → NumFormula V r →
      NumFormula V (.bin op l r)
  | fn (name : Str) (op : SimpleOp) (e : Ex) : op ∈ [SimpleOp.sin, .cos, .tan, .abs, .sqrt, .ln, .arcsin, .arccos, .arctan] →
      NumFormula V e → NumFormula V (.fn name op e)
  | root (a b : Ex) : NumFormula V a → NumFormula V b → NumFormula V (.root a b)

/-- `vs` are the results of one equation `le = re` between formulas, computed with error bounds derived by `Rounds`: there are at most ten, all
finite; at each of them the sides differ by at most `1.02·10^-PREC` and their errors; and each findable zero `s` of the difference in the
range of the start values is among them up to `1.03·10^-PREC / m + 1.2·10^-(PREC-2)`, or they are ten that are not larger. -/
def SolvesWithin {F : Type} [FArith F] [Binary64 F] (cfg : Cfg) (u : ℝ) (φ : Defs) (ρ : EnvR) (x : Str) (le re : Ex) (vs : List F) : Prop :=
  vs.length ≤ 10 ∧
  (∀ v ∈ vs, ∃ p : ℚ, Binary64.val v = some p ∧ ∀ a b : Approx, Rounds cfg u φ [] (ρ.set x (.scalar ⟨p, 0⟩)) le (.scalar a) →
    Rounds cfg u φ [] (ρ.set x (.scalar ⟨p, 0⟩)) re (.scalar b) → |a.val - b.val| ≤ 51 / 50 * 10 ^ (-(cfg.prec : Int)) + (a.err + b.err)) ∧
  ∀ (g k el er : ℝ → ℝ) (s m ε : ℝ),
    (∀ z, RepresentableR z → s - 1 / 2 ≤ z → z ≤ s + 1 / 2 + 2 * 10 ^ (-(cfg.prec : Int)) →
      Rounds cfg u φ [] (ρ.set x (.scalar ⟨z, 0⟩)) le (.scalar ⟨g z, el z⟩) ∧
      Rounds cfg u φ [] (ρ.set x (.scalar ⟨z, 0⟩)) re (.scalar ⟨k z, er z⟩) ∧ el z + er z + (|g z - k z| + (el z + er z)) / 2 ^ 53 ≤ ε) →
    Findable (fun z => g z - k z) s m ε (10 ^ (-(cfg.prec : Int))) → -1000 ≤ s → s ≤ 999 →
    (∃ v ∈ vs, ∃ p : ℚ, Binary64.val v = some p ∧
      |(p : ℝ) - s| ≤ 103 / 100 * 10 ^ (-(cfg.prec : Int)) / m + 6 / 5 * 10 ^ (-((cfg.prec - 2 : Nat) : Int))) ∨
    (vs.length = 10 ∧ ∀ v ∈ vs, ∃ p : ℚ, Binary64.val v = some p ∧
      |(p : ℝ)| ≤ |s| + 103 / 100 * 10 ^ (-(cfg.prec : Int)) / m + 6 / 5 * 10 ^ (-((cfg.prec - 2 : Nat) : Int)))

end MUL.Spec
