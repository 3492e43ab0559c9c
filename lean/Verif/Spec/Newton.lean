import Verif.Spec.Roots
import Verif.Num.Real
/-!
# Specification for C64: solving one equation for one variable

The procedure in terms of real numbers only.
-/

namespace MUL.Spec

/-- One search for a zero of `f` (`none`: no number) from the start value `x`, with at most the given number of steps: accept `x` if
`|f x| < h`, otherwise go to where the line through the graph at `x` and `x+h` meets the axis. -/
noncomputable def newtonFrom (f : ℝ → Option ℝ) (h : ℝ) : Nat → ℝ → Option ℝ
  | 0, _ => none
  | n + 1, x =>
    match f x with
    | none => none
    | some y =>
      if |y| < h then some x
      else match f (x + h) with
        | none => none
        | some y' => if y' = y then none else newtonFrom f h n (x - y * h / (y' - y))

/-- Two numbers are the same after rounding to `p` decimals. -/
def SameRounded (p : Nat) (x y : ℝ) : Prop := roundAway (x * 10 ^ p) = roundAway (y * 10 ^ p)

open Classical in
/-- Keep a number only if no kept one before it is the same after rounding to `p` decimals. -/
noncomputable def distinct (p : Nat) (l : List ℝ) : List ℝ :=
  l.foldl (fun acc x => if ∃ y ∈ acc, SameRounded p x y then acc else acc ++ [x]) []

/-- What is reported of the numbers found: the different ones; if there are more than ten, the ten that are smallest in absolute
value, in ascending order. -/
noncomputable def reported (p : Nat) (l : List ℝ) : List ℝ :=
  if (distinct p l).length ≤ 10 then distinct p l
  else (((distinct p l).mergeSort fun a b => decide (|a| ≤ |b|)).take 10).mergeSort fun a b => decide (a ≤ b)

/-- Everything found from the start values -1000, …, 999, in this order, with at most 1000 steps each. -/
noncomputable def found (f : ℝ → Option ℝ) (h : ℝ) : List ℝ :=
  (List.range 2000).filterMap fun (k : Nat) => newtonFrom f h 1000 ((k : ℝ) - 1000)

/-- The first value of the expression, as a function of the variable `x`, is `f` (`none` where it is infinite or not a number). -/
def FunctionOf {F : Type} [FNum F] [Exact F ℝ] (cfg : Cfg) (ctx : Context F) (x : Str) (e : AST F) (f : ℝ → Option ℝ) : Prop :=
  ∀ (a : F) (u : ℝ), Exact.val a = some u → ∃ r rest,
    Finishes (fun n => eval cfg n e (ctx.addVar ⟨x, [.scalar a]⟩)) (.ok (.scalar r :: rest)) ∧ Exact.val r = f u

end MUL.Spec
