import Verif.Props.Calculus
import Verif.Num.F64
/-!
# What goes wrong with binary64 numbers

Witnesses in the computable model of `f64` (`Verif/Num/F64.lean`).
-/

namespace MUL
open Out Spec

/-- C43: `I(1, x, 10^16, 10^16+2)` never returns: the step `2*10^-5` is less than half a unit in the last place of the
lower bound. -/
theorem C43_float_diverges (x : Str) :
    Diverges (fun n => eval .default n (.integral (.scalar (FArith.ofInt 1)) x (.scalar (FArith.ofInt (10 ^ 16)))
      (.scalar (FArith.ofInt (10 ^ 16 + 2)))) (Context.empty : Context F64)) := by
  refine C43_diverges .default _ (by simp [NoDupVars, Context.empty]) x _ _ _ (by decide +kernel) (by decide +kernel)
    (by decide +kernel) (by decide +kernel) fun p => ⟨[FArith.ofInt 1], scalar_finishes _ _ _⟩

/-- C43: so the claim that integration always terminates is false with floats. -/
theorem C43_float_arrives_false : ¬ ∃ N, StepsArrive F64 .default N := by
  rintro ⟨N, h⟩
  obtain ⟨k, _, hk⟩ := h (FArith.ofInt (10 ^ 16)) (FArith.ofInt (10 ^ 16 + 2)) (by decide +kernel)
  have : ∀ k, stepFrom (FArith.ofInt (10 ^ 16) : F64) (FArith.div (FArith.sub (FArith.ofInt (10 ^ 16 + 2)) (FArith.ofInt (10 ^ 16)))
      (FArith.powi (FArith.ofInt 10) ((Cfg.default.prec : Int) - 3))) k = FArith.ofInt (10 ^ 16) := by
    intro k
    induction k with
    | zero => rfl
    | succ k ih => rw [stepFrom, ih]; decide +kernel
  rw [this k] at hk
  exact absurd hk (by decide +kernel)

/-- C44: with floats the derivative of `x` at `10^9` is reported as 0, because `10^9 + 10^-8` rounds to `10^9`. -/
theorem C44_float_zero :
    Finishes (fun n => eval .default n (.derivative (.variable ['x']) ['x'] (.scalar (FArith.ofInt (10 ^ 9))))
      (Context.empty : Context F64)) (.ok [.scalar (FArith.ofInt 0)]) :=
  ⟨by simp, 6, by decide +kernel⟩

/-- C30: with floats addition is not associative, so the laws of C30 need exact arithmetic. -/
theorem C30_float_assoc_false : ∃ a b c v w : Value F64,
    (vAdd a b >>= fun x => vAdd x c) = .ok v ∧ (vAdd b c >>= fun x => vAdd a x) = .ok w ∧ v ≠ w :=
  ⟨.scalar (F64.lit 1 (-1)), .scalar (F64.lit 2 (-1)), .scalar (F64.lit 3 (-1)), _, _, rfl, rfl, by decide +kernel⟩

end MUL
