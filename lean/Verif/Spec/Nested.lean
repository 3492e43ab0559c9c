import Verif.Spec.Denote
/-!
# C92: nested derivatives and integrals
-/

namespace MUL.Spec
open MUL

/-- Evaluating the text of `e` in `ctx` gives one value, the number `z`. -/
def Yields {F : Type} [FNum F] [ExactReal F] [UTable] (cfg : Cfg) (ctx : Context F) (e : Ex) (z : ℝ) : Prop :=
  ∃ a : F, Finishes (fun n => quickEval cfg n e.text ctx) (.ok [.scalar a]) ∧ Exact.val a = some z

/-- `e`, `D(e,x,x)`, `D(D(e,x,x),x,x)`, …: the derivatives of `e` as expressions in the same variable. -/
def nthD (x : Str) : Nat → Ex → Ex
  | 0, e => e
  | n + 1, e => .deriv (nthD x n e) x (.var x)

end MUL.Spec
