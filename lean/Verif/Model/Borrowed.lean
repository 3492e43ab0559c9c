import Verif.Model.Eval
/-!
# The functions of `maths::calculus` called directly

`maths` is a public (if undocumented) module, and `calculate_derivative` and `calculate_derivative_newton` work on a `&mut Context` of the
caller. Here they are modelled once more, with the context as they leave it; `Model/Eval.lean` has them as they are called from `eval` and
from the solver, which pass a copy that is dropped. `Props/Borrowed.lean` relates the two.
-/

namespace MUL
open FArith

variable {F : Type} [FNum F]

/-- The `?` operator in a function with a `&mut Context`: if the step does not succeed, the context stays as it is at that point. -/
def Out.orLeave {ε α β : Type} (x : Out ε α) (ctx : Context F) (k : α → Out ε β × Context F) : Out ε β × Context F :=
  match x with
  | .ok a => k a
  | .err e => (.err e, ctx)
  | .panic => (.panic, ctx)
  | .timeout => (.timeout, ctx)

/-- `calculate_derivative`  (src/maths/calculus.rs 59-96), with a step budget for `eval`: the outcome and the context after the call. -/
def derivativeCall (cfg : Cfg) (n : Nat) (expr : AST F) (x : Str) (at_ : Value F) (ctx : Context F) :
    Out EvalError (List (Value F)) × Context F :=
  let ctx := dropVar ctx x
  match at_ with
  | .scalar s =>
    let ctx := ctx.addVar ⟨x, [at_]⟩
    (eval cfg n expr ctx).orLeave ctx fun fxs =>
      let ctx := ctx.removeVar x
      let ctx := ctx.addVar ⟨x, [.scalar (add s (powi (ofInt 10) (-(cfg.prec : Int))))]⟩
      (eval cfg n expr ctx).orLeave ctx fun fxhs =>
        if fxs.length ≠ fxhs.length then
          (.err (.mathError "Amount of solutions for f(x) and f(x+h) are different!"), ctx)
        else
          ((List.range fxs.length).mapM fun i => do
            let fxh ← idx fxhs i
            let fx ← idx fxs i
            eval cfg n (differenceQuotient cfg fxh fx) ctx).orLeave ctx fun res =>
          (.ok res.flatten, ctx.removeVar x)
  | _ => (.err (.mathError "Only scalar values are allowed!"), ctx)

/-- `calculate_derivative_newton`  (src/maths/calculus.rs 98-129), with a step budget for `eval`: the outcome and the context after the
call. -/
def newtonDerivativeCall (cfg : Cfg) (n : Nat) (expr : AST F) (x : Str) (at_ : Value F) (fx : Option (Value F)) (ctx : Context F) :
    Out EvalError (Value F) × Context F :=
  let ctx := dropVar ctx x
  match at_ with
  | .scalar s =>
    let second (fx : Value F) (ctx : Context F) : Out EvalError (Value F) × Context F :=
      let ctx := ctx.addVar ⟨x, [.scalar (add s (powi (ofInt 10) (-(cfg.prec : Int))))]⟩
      (eval cfg n expr ctx).orLeave ctx fun r =>
        (Out.unwrap r[0]?).orLeave ctx fun fxh =>
          (eval cfg n (differenceQuotient cfg fxh fx) ctx).orLeave ctx fun r =>
            (Out.unwrap r[0]?).orLeave ctx fun res => (.ok res, ctx.removeVar x)
    match fx with
    | some fx => second fx ctx
    | none =>
      let ctx := ctx.addVar ⟨x, [at_]⟩
      (eval cfg n expr ctx).orLeave ctx fun r =>
        (Out.unwrap r[0]?).orLeave ctx fun fx => second fx (ctx.removeVar x)
  | _ => (.err (.mathError "Only scalar values are allowed!"), ctx)

/-- `calculate_integral`  (src/maths/calculus.rs 8-51), with a step budget for `eval` and the loop. It borrows the context immutably. -/
def integralCall (cfg : Cfg) (n : Nat) (expr : AST F) (x : Str) (lower upper : Value F) (ctx : Context F) :
    Out EvalError (List (Value F)) :=
  calculateIntegral cfg (eval cfg n) n expr x lower upper ctx

end MUL
