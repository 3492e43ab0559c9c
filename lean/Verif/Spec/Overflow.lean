import Verif.Spec.Denote
import Verif.Spec.Binary64
/-!
# Specification for C95: error bounds of formulas whose result is a number
-/

namespace MUL.Spec

/-- The relative error of one rounding. -/
noncomputable def unit : ℝ := 1 / 2 ^ 53

/-- The least number without underflow. -/
noncomputable def least : ℝ := 1 / 2 ^ 1022

/-- `Magnitude ρ e x m n`: the formula `e`, built from literals, variables (with the values `ρ`), sums, differences, products, absolute values
and quotients by literals, has the exact value `x`. `m` is its size: the value of the same formula with all numbers replaced by their absolute
values and all differences by sums (plus `least` for every literal, product and quotient). `n` counts the roundings a term of the formula can
go through. It mentions nothing of the library. -/
inductive Magnitude (ρ : Str → Option ℚ) : Ex → ℝ → ℝ → Nat → Prop
  | num (ip : Str) (fp : Option Str) : Magnitude ρ (.num ip fp) (numeral ip fp) (numeral ip fp + least) 1
  | var (v : Str) (x : ℚ) : ρ v = some x → Magnitude ρ (.var v) x |(x : ℝ)| 0
  | paren {e : Ex} {x m : ℝ} {n : Nat} : Magnitude ρ e x m n → Magnitude ρ (.paren e) x m n
  | neg {e : Ex} {x m : ℝ} {n : Nat} : Magnitude ρ e x m n → Magnitude ρ (.neg e) (-x) m n
  | abs {e : Ex} {x m : ℝ} {n : Nat} (name : Str) : Magnitude ρ e x m n → Magnitude ρ (.fn name .abs e) |x| m n
  | add {l r : Ex} {x y m k : ℝ} {i j : Nat} : Magnitude ρ l x m i → Magnitude ρ r y k j →
      Magnitude ρ (.bin .add l r) (x + y) (m + k) (max i j + 1)
  | sub {l r : Ex} {x y m k : ℝ} {i j : Nat} : Magnitude ρ l x m i → Magnitude ρ r y k j →
      Magnitude ρ (.bin .sub l r) (x - y) (m + k) (max i j + 1)
  | mult {l r : Ex} {x y m k : ℝ} {i j : Nat} : Magnitude ρ l x m i → Magnitude ρ r y k j →
      Magnitude ρ (.bin .mult l r) (x * y) (m * k + least) (i + j + 1)
  | juxt {l r : Ex} {x y m k : ℝ} {i j : Nat} : Magnitude ρ l x m i → Magnitude ρ r y k j →
      Magnitude ρ (.bin .juxt l r) (x * y) (m * k + least) (i + j + 1)
  /-- a quotient by a literal -/
  | div {l : Ex} {x m : ℝ} {i : Nat} (ip : Str) (fp : Option Str) : Magnitude ρ l x m i → least ≤ numeral ip fp → numeral ip fp < 2 ^ 1023 →
      Magnitude ρ (.bin .div l (.num ip fp)) (x / numeral ip fp) (m / numeral ip fp + least) (i + 3)

end MUL.Spec
