import Verif.Spec.Denote
/-!
# Specification for C88: formulas outside their domain
-/

namespace MUL.Spec

/-- The argument `x` lies outside the domain of the function. -/
inductive OutOfDomain : SimpleOp → ℝ → Prop
  | sqrt (x : ℝ) : x < 0 → OutOfDomain .sqrt x
  | ln (x : ℝ) : x ≤ 0 → OutOfDomain .ln x
  | arcsin (x : ℝ) : x < -1 ∨ 1 < x → OutOfDomain .arcsin x
  | arccos (x : ℝ) : x < -1 ∨ 1 < x → OutOfDomain .arccos x

/-- The power `x^y` of real numbers does not exist. -/
inductive NoPower : ℝ → ℝ → Prop
  | negative (x y : ℝ) : x < 0 → (∀ n : Int, y ≠ n) → NoPower x y
  | zero (y : ℝ) : y < 0 → NoPower 0 y

/-- The formula `e` stands for one number (`some x`) or is undefined (`none`): some function in it is used outside its domain, or something
is divided by zero. Sums, differences, products, square roots, sines, ... of something undefined are undefined, and so is a quotient with
undefined numerator. Quotients with an undefined denominator are left out: 1 divided by 1/0 is 0. -/
inductive Partly (cfg : Cfg) (φ : Defs) : Str → Env → Ex → Option ℝ → Prop
  | value {cur : Str} {ρ : Env} {e : Ex} {x : ℝ} : Denotes cfg φ cur ρ e [.scalar x] → Partly cfg φ cur ρ e (some x)
  | paren {cur : Str} {ρ : Env} {e : Ex} {o : Option ℝ} : Partly cfg φ cur ρ e o → Partly cfg φ cur ρ (.paren e) o
  | neg {cur : Str} {ρ : Env} {e : Ex} {o : Option ℝ} : Partly cfg φ cur ρ e o → Partly cfg φ cur ρ (.neg e) (o.map fun x => -x)
  | add {cur : Str} {ρ : Env} {l r : Ex} {o p : Option ℝ} : Partly cfg φ cur ρ l o → Partly cfg φ cur ρ r p →
      Partly cfg φ cur ρ (.bin .add l r) (Option.map₂ (fun x y => x + y) o p)
  | sub {cur : Str} {ρ : Env} {l r : Ex} {o p : Option ℝ} : Partly cfg φ cur ρ l o → Partly cfg φ cur ρ r p →
      Partly cfg φ cur ρ (.bin .sub l r) (Option.map₂ (fun x y => x - y) o p)
  | mult {cur : Str} {ρ : Env} {l r : Ex} {o p : Option ℝ} : Partly cfg φ cur ρ l o → Partly cfg φ cur ρ r p →
      Partly cfg φ cur ρ (.bin .mult l r) (Option.map₂ (fun x y => x * y) o p)
  | juxt {cur : Str} {ρ : Env} {l r : Ex} {o p : Option ℝ} : Partly cfg φ cur ρ l o → Partly cfg φ cur ρ r p →
      Partly cfg φ cur ρ (.bin .juxt l r) (Option.map₂ (fun x y => x * y) o p)
  | div {cur : Str} {ρ : Env} {l r : Ex} {o : Option ℝ} {y : ℝ} : Partly cfg φ cur ρ l o → Partly cfg φ cur ρ r (some y) → y ≠ 0 →
      Partly cfg φ cur ρ (.bin .div l r) (o.map fun x => x / y)
  | divZero {cur : Str} {ρ : Env} {l r : Ex} {o : Option ℝ} : Partly cfg φ cur ρ l o → Partly cfg φ cur ρ r (some 0) →
      Partly cfg φ cur ρ (.bin .div l r) none
  | pow {cur : Str} {ρ : Env} {l r : Ex} {x y z : ℝ} : Partly cfg φ cur ρ l (some x) → Partly cfg φ cur ρ r (some y) →
      Pow2 (.scalar x) (.scalar y) (.scalar z) → Partly cfg φ cur ρ (.bin .pow l r) (some z)
  | noPower {cur : Str} {ρ : Env} {l r : Ex} {x y : ℝ} : Partly cfg φ cur ρ l (some x) → Partly cfg φ cur ρ r (some y) → NoPower x y →
      Partly cfg φ cur ρ (.bin .pow l r) none
  | fn {cur : Str} {ρ : Env} {e : Ex} {x y : ℝ} (name : Str) (op : SimpleOp) : Partly cfg φ cur ρ e (some x) →
      Fn1 op (.scalar x) (.scalar y) → Partly cfg φ cur ρ (.fn name op e) (some y)
  | outside {cur : Str} {ρ : Env} {e : Ex} {x : ℝ} (name : Str) (op : SimpleOp) : Partly cfg φ cur ρ e (some x) → OutOfDomain op x →
      Partly cfg φ cur ρ (.fn name op e) none
  | strict {cur : Str} {ρ : Env} {e : Ex} (name : Str) (op : SimpleOp) : Partly cfg φ cur ρ e none →
      op = .sin ∨ op = .cos ∨ op = .abs ∨ op = .sqrt → Partly cfg φ cur ρ (.fn name op e) none
  /-- A function applied to numbers. -/
  | call {cur : Str} {ρ : Env} (f : Str) (args : List Ex) (params : List Str) (body : Ex) (xs : List ℝ) (o : Option ℝ)
      (hlen : args.length = xs.length) : φ f = some (params, body) → f ≠ cur → params.Nodup → args.length = params.length →
      (∀ i (h : i < args.length), Denotes cfg φ cur ρ args[i] [.scalar (xs[i]'(hlen ▸ h))]) →
      Partly cfg φ f (ρ.bind params (xs.map .scalar)) body o → Partly cfg φ cur ρ (.call f args) o

end MUL.Spec
