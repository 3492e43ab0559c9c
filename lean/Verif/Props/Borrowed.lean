import Verif.Model.Borrowed
import Verif.Props.Calculus
import Verif.Props.ContextMap
import Verif.Props.Construct
/-!
# C94: the calculus functions called directly, and the caller's context
-/

namespace MUL
open Out Spec

set_option linter.unusedSectionVars false

section
variable {F : Type} [FNum F]

omit [FNum F] in
theorem addVar_removeVar (c : Context F) (v : Variable F) : (c.removeVar v.name).addVar v = c.addVar v := by
  simp [Context.addVar, Context.removeVar, List.filter_filter]

omit [FNum F] in
theorem removeVar_addVar (c : Context F) (v : Variable F) : (c.addVar v).removeVar v.name = c.removeVar v.name := by
  simp [Context.addVar, Context.removeVar, List.filter_append, List.filter_filter]

omit [FNum F] in
theorem again_addVar (c : Context F) (x : Str) (vs ws : List (Value F)) :
    ((c.addVar ⟨x, vs⟩).removeVar x).addVar ⟨x, ws⟩ = c.addVar ⟨x, ws⟩ := by
  have h1 := removeVar_addVar c ⟨x, vs⟩
  have h2 := addVar_removeVar c ⟨x, ws⟩
  simp only at h1 h2
  rw [h1, h2]

/-- `derivativeCall` in terms of the caller's context. -/
theorem derivativeCall_scalar (cfg : Cfg) (n : Nat) (e : AST F) (x : Str) (s : F) (ctx : Context F) :
    derivativeCall cfg n e x (.scalar s) ctx =
      (eval cfg n e (setVar ctx x s)).orLeave (setVar ctx x s) fun fxs =>
        (eval cfg n e (setVar ctx x (FArith.add s (stepH F cfg)))).orLeave (setVar ctx x (FArith.add s (stepH F cfg))) fun fxhs =>
          if fxs.length ≠ fxhs.length then
            (.err (.mathError "Amount of solutions for f(x) and f(x+h) are different!"), setVar ctx x (FArith.add s (stepH F cfg)))
          else
            ((List.range fxs.length).mapM fun i => do
              let fxh ← idx fxhs i
              let fx ← idx fxs i
              eval cfg n (differenceQuotient cfg fxh fx) (setVar ctx x (FArith.add s (stepH F cfg)))).orLeave
                (setVar ctx x (FArith.add s (stepH F cfg))) fun res => (.ok res.flatten, ctx.removeVar x) := by
  unfold derivativeCall
  have h1 := addVar_removeVar ctx ⟨x, [.scalar s]⟩
  have h2 := again_addVar ctx x [.scalar s] [.scalar (FArith.add s (stepH F cfg))]
  have h3 := removeVar_addVar ctx ⟨x, [.scalar (FArith.add s (stepH F cfg))]⟩
  simp only at h1 h3
  unfold stepH at h2 h3
  simp only [dropVar_eq, h1, h2, h3]
  rfl

theorem derivativeCall_fst (cfg : Cfg) (n : Nat) (e : AST F) (x : Str) (at_ : Value F) (ctx : Context F) :
    (derivativeCall cfg n e x at_ ctx).1 = calculateDerivative cfg (fun a c => evalRec cfg n a c []) e x at_ ctx := by
  unfold derivativeCall calculateDerivative
  cases at_ with
  | scalar s =>
    simp only [eval]
    cases evalRec cfg n e ((dropVar ctx x).addVar ⟨x, [.scalar s]⟩) [] <;> try rfl
    simp only [Out.orLeave, ok_bind]
    cases evalRec cfg n e ((((dropVar ctx x).addVar ⟨x, [.scalar s]⟩).removeVar x).addVar
        ⟨x, [.scalar (FArith.add s (FArith.powi (FArith.ofInt 10) (-(cfg.prec : Int))))]⟩) [] <;> try rfl
    simp only [ok_bind]
    split
    · rfl
    · rename_i fxs fxhs _
      generalize ((List.range fxs.length).mapM fun i => do
            let fxh ← idx fxhs i
            let fx ← idx fxs i
            evalRec cfg n (differenceQuotient cfg fxh fx) ((((dropVar ctx x).addVar ⟨x, [.scalar s]⟩).removeVar x).addVar
              ⟨x, [.scalar (FArith.add s (FArith.powi (FArith.ofInt 10) (-(cfg.prec : Int))))]⟩) []) = m
      cases m <;> rfl
  | vector v => rfl
  | matrix m => rfl

theorem derivative_at_value (cfg : Cfg) (n : Nat) (e : AST F) (x : Str) (at_ : Value F) (ctx : Context F) :
    eval cfg (n + 3) (.derivative e x (AST.fromValue at_)) ctx =
      calculateDerivative cfg (fun a c => evalRec cfg (n + 2) a c []) e x at_ ctx := by
  have h := C28_from_value cfg at_ ctx n
  unfold eval at h ⊢
  rw [evalRec.eq_def]
  simp only
  rw [h, ok_bind, mapM_single]
  cases calculateDerivative cfg (fun a c => evalRec cfg (n + 2) a c []) e x at_ ctx <;> simp

/-- C94: `calculate_derivative(e, x, at, context)` has the outcome of evaluating `D(e, x, at)`. -/
theorem C94_derivative (cfg : Cfg) (e : AST F) (x : Str) (at_ : Value F) (ctx : Context F) (r : Out EvalError (List (Value F))) :
    Finishes (fun n => (derivativeCall cfg n e x at_ ctx).1) r ↔
      Finishes (fun n => eval cfg n (.derivative e x (AST.fromValue at_)) ctx) r := by
  have hle : ∀ n m, n ≤ m → Le (calculateDerivative cfg (fun a c => evalRec cfg n a c []) e x at_ ctx)
      (calculateDerivative cfg (fun a c => evalRec cfg m a c []) e x at_ ctx) := fun n m h =>
    calculateDerivative_le cfg (fun a c => evalRec_le cfg h a c []) e x at_ ctx
  constructor
  · rintro ⟨hr, n, hn⟩
    refine ⟨hr, n + 3, ?_⟩
    beta_reduce at hn ⊢
    rw [derivativeCall_fst] at hn
    rw [derivative_at_value]
    rcases hle n (n + 2) (by omega) with h | h
    · exact absurd (hn.symm.trans h) hr
    · rw [← h, hn]
  · intro h
    obtain ⟨hr, n, hn⟩ := h
    obtain ⟨n', hn'⟩ := eval_mono ⟨hr, n, hn⟩
    refine ⟨hr, n' + 2, ?_⟩
    beta_reduce
    rw [derivativeCall_fst, ← derivative_at_value, hn' _ (by omega)]

/-- C94: after a successful call the caller's context has lost the variable, whatever it held before, and nothing else has changed. -/
theorem C94_context_ok (cfg : Cfg) (n : Nat) (e : AST F) (x : Str) (at_ : Value F) (ctx : Context F) (vs : List (Value F))
    (h : (derivativeCall cfg n e x at_ ctx).1 = .ok vs) : (derivativeCall cfg n e x at_ ctx).2 = ctx.removeVar x := by
  cases at_ with
  | scalar s =>
    revert h
    rw [derivativeCall_scalar]
    generalize eval cfg n e (setVar ctx x s) = a
    cases a <;> try (intro h; cases h; done)
    generalize eval cfg n e (setVar ctx x (FArith.add s (stepH F cfg))) = b
    cases b <;> try (intro h; cases h; done)
    simp only [Out.orLeave]
    split
    · intro h; cases h
    · rename_i fxs fxhs _
      generalize (List.mapM _ (List.range fxs.length) : Out EvalError (List (List (Value F)))) = m
      cases m <;> intro h <;> first | rfl | cases h
  | vector v => cases h
  | matrix m => cases h

/-- C94: if the expression fails at the point, the caller's context is left with the variable set to that point. -/
theorem C94_context_first (cfg : Cfg) (n : Nat) (e : AST F) (x : Str) (s : F) (ctx : Context F) (er : EvalError)
    (h : eval cfg n e (setVar ctx x s) = .err er) :
    derivativeCall cfg n e x (.scalar s) ctx = (.err er, setVar ctx x s) := by
  rw [derivativeCall_scalar, h]
  rfl

/-- C94: if it fails later, the context is left with the variable set to the point plus the step. -/
theorem C94_context_later (cfg : Cfg) (n : Nat) (e : AST F) (x : Str) (s : F) (ctx : Context F) (fxs : List (Value F)) (er : EvalError)
    (h : eval cfg n e (setVar ctx x s) = .ok fxs) (hr : (derivativeCall cfg n e x (.scalar s) ctx).1 = .err er) :
    (derivativeCall cfg n e x (.scalar s) ctx).2 = setVar ctx x (FArith.add s (stepH F cfg)) := by
  revert hr
  rw [derivativeCall_scalar, h]
  generalize eval cfg n e (setVar ctx x (FArith.add s (stepH F cfg))) = b
  simp only [Out.orLeave]
  cases b <;> try (intro h; rfl)
  simp only
  split
  · intro h; rfl
  · generalize (List.mapM _ (List.range fxs.length) : Out EvalError (List (List (Value F)))) = m
    cases m <;> intro h <;> first | rfl | cases h

/-- C94: a point that is a vector or a matrix: the variable is lost although nothing is computed. -/
theorem C94_context_kind (cfg : Cfg) (n : Nat) (e : AST F) (x : Str) (at_ : Value F) (ctx : Context F) (h : kind at_ ≠ .scalar) :
    derivativeCall cfg n e x at_ ctx = (.err (.mathError "Only scalar values are allowed!"), ctx.removeVar x) := by
  cases at_ with
  | scalar s => exact absurd rfl h
  | vector v => simp only [derivativeCall, dropVar_eq]
  | matrix m => simp only [derivativeCall, dropVar_eq]

/-- C94: so in every case all other variables and all functions are as before. -/
theorem C94_others (cfg : Cfg) (n : Nat) (e : AST F) (x : Str) (at_ : Value F) (ctx : Context F) :
    (∀ y, y ≠ x → (derivativeCall cfg n e x at_ ctx).2.findVar y = ctx.findVar y) ∧
      (derivativeCall cfg n e x at_ ctx).2.funs = ctx.funs := by
  have key : ∀ c : Context F, (c = ctx.removeVar x ∨ ∃ p, c = setVar ctx x p) →
      (∀ y, y ≠ x → c.findVar y = ctx.findVar y) ∧ c.funs = ctx.funs := by
    rintro c (rfl | ⟨p, rfl⟩)
    · refine ⟨fun y hy => ?_, rfl⟩
      have := C01_var_map ctx [.removeVar x] y
      simpa [runOps, CtxOp.apply, varsAfter, hy] using this
    · refine ⟨fun y hy => ?_, rfl⟩
      unfold setVar
      rw [findVar_addVar, if_neg hy]
  apply key
  cases at_ with
  | vector v => left; rw [C94_context_kind]; simp [kind]
  | matrix m => left; rw [C94_context_kind]; simp [kind]
  | scalar s =>
    rw [derivativeCall_scalar]
    generalize eval cfg n e (setVar ctx x s) = a
    cases a <;> try (exact Or.inr ⟨_, rfl⟩)
    generalize eval cfg n e (setVar ctx x (FArith.add s (stepH F cfg))) = b
    simp only [Out.orLeave]
    cases b <;> try (exact Or.inr ⟨_, rfl⟩)
    simp only
    split
    · exact Or.inr ⟨_, rfl⟩
    · rename_i fxs fxhs _
      generalize (List.mapM _ (List.range fxs.length) : Out EvalError (List (List (Value F)))) = m
      cases m <;> first | exact Or.inl rfl | exact Or.inr ⟨_, rfl⟩

/-! ## The variant of the solver -/

theorem newtonCall_some (cfg : Cfg) (n : Nat) (e : AST F) (x : Str) (s : F) (fx : Value F) (ctx : Context F) :
    newtonDerivativeCall cfg n e x (.scalar s) (some fx) ctx =
      (eval cfg n e (setVar ctx x (FArith.add s (stepH F cfg)))).orLeave (setVar ctx x (FArith.add s (stepH F cfg))) fun r =>
        (Out.unwrap r[0]?).orLeave (setVar ctx x (FArith.add s (stepH F cfg))) fun fxh =>
          (eval cfg n (differenceQuotient cfg fxh fx) (setVar ctx x (FArith.add s (stepH F cfg)))).orLeave
              (setVar ctx x (FArith.add s (stepH F cfg))) fun r =>
            (Out.unwrap r[0]?).orLeave (setVar ctx x (FArith.add s (stepH F cfg))) fun res => (.ok res, ctx.removeVar x) := by
  unfold newtonDerivativeCall
  have h1 := addVar_removeVar ctx ⟨x, [.scalar (FArith.add s (stepH F cfg))]⟩
  have h3 := removeVar_addVar ctx ⟨x, [.scalar (FArith.add s (stepH F cfg))]⟩
  simp only at h1 h3
  unfold stepH at h1 h3
  simp only [dropVar_eq, h1, h3]
  rfl

theorem newtonCall_none (cfg : Cfg) (n : Nat) (e : AST F) (x : Str) (s : F) (ctx : Context F) :
    newtonDerivativeCall cfg n e x (.scalar s) none ctx =
      (eval cfg n e (setVar ctx x s)).orLeave (setVar ctx x s) fun r =>
        (Out.unwrap r[0]?).orLeave (setVar ctx x s) fun fx => newtonDerivativeCall cfg n e x (.scalar s) (some fx) ctx := by
  simp only [newtonCall_some]
  unfold newtonDerivativeCall
  have h0 := addVar_removeVar ctx ⟨x, [.scalar s]⟩
  have h1 := again_addVar ctx x [.scalar s] [.scalar (FArith.add s (stepH F cfg))]
  have h3 := removeVar_addVar ctx ⟨x, [.scalar (FArith.add s (stepH F cfg))]⟩
  simp only at h0 h3
  unfold stepH at h1 h3
  simp only [dropVar_eq, h0, h1, h3]
  rfl

/-- C94: `calculate_derivative_newton` with a given value `f(x)`: it is used without looking at the expression at the point; only the value
at the point plus the step is computed. -/
theorem C94_newton_given (cfg : Cfg) (e : AST F) (x : Str) (s : F) (fx fxh : Value F) (rest : List (Value F)) (ctx : Context F) (v : Value F)
    (hfxh : Finishes (fun n => eval cfg n e (setVar ctx x (FArith.add s (stepH F cfg)))) (.ok (fxh :: rest)))
    (hv : diffQuotient (stepH F cfg) fx fxh = .ok v) :
    Finishes (fun n => (newtonDerivativeCall cfg n e x (.scalar s) (some fx) ctx).1) (.ok v) := by
  obtain ⟨n, hn⟩ := eval_mono hfxh
  refine ⟨by simp, n + 4, ?_⟩
  beta_reduce
  have hq : eval cfg (n + 4) (differenceQuotient cfg fxh fx) (setVar ctx x (FArith.add s (stepH F cfg))) = .ok [v] := by
    unfold eval
    rw [diffQuotient_eval, hv]
    rfl
  rw [newtonCall_some, hn _ (by omega)]
  simp only [Out.orLeave, List.getElem?_cons_zero, Out.unwrap, hq]

theorem dq_single {cfg : Cfg} {n : Nat} {fxh fx : Value F} {ctx : Context F} {ws : List (Value F)}
    (h : eval cfg n (differenceQuotient cfg fxh fx) ctx = .ok ws) : ∃ w, ws = [w] := by
  obtain ⟨m, hm⟩ := eval_mono (⟨by simp, n, h⟩ : Finishes (fun n => eval cfg n (differenceQuotient cfg fxh fx) ctx) (.ok ws))
  have h4 := hm (m + 4) (by omega)
  unfold eval at h4
  rw [diffQuotient_eval] at h4
  cases hq : liftMath (diffQuotient (stepH F cfg) fx fxh) with
  | ok w => rw [hq] at h4; cases h4; exact ⟨w, rfl⟩
  | err e => rw [hq] at h4; cases h4
  | panic => rw [hq] at h4; cases h4
  | timeout => rw [hq] at h4; cases h4

/-- C94: without a given value it computes the first value of the derivative, whenever `calculate_derivative` succeeds with at least one
value (already with the same budget). -/
theorem C94_newton_first (cfg : Cfg) (n : Nat) (e : AST F) (x : Str) (at_ : Value F) (ctx : Context F) (v : Value F) (vs : List (Value F))
    (h : (derivativeCall cfg n e x at_ ctx).1 = .ok (v :: vs)) :
    newtonDerivativeCall cfg n e x at_ none ctx = (.ok v, ctx.removeVar x) := by
  cases at_ with
  | vector w => cases h
  | matrix w => cases h
  | scalar s =>
    rw [derivativeCall_scalar] at h
    rw [newtonCall_none]
    generalize ha : eval cfg n e (setVar ctx x s) = a at h ⊢
    cases a with
    | err er => cases h
    | panic => cases h
    | timeout => cases h
    | ok fxs =>
      simp only [newtonCall_some]
      generalize hb : eval cfg n e (setVar ctx x (FArith.add s (stepH F cfg))) = b at h ⊢
      cases b with
      | err er => cases h
      | panic => cases h
      | timeout => cases h
      | ok fxhs =>
        simp only [Out.orLeave] at h ⊢
        split at h
        · cases h
        · rename_i hlen
          have hlen : fxs.length = fxhs.length := by simpa using hlen
          cases fxs with
          | nil =>
            simp only [List.length_nil, List.range_zero] at h
            cases h
          | cons fx fxs =>
            cases fxhs with
            | nil => simp at hlen
            | cons fxh fxhs =>
              rw [List.length_cons, List.range_succ_eq_map, List.mapM_cons] at h
              simp only [idx, List.getElem?_cons_zero, Out.unwrap, ok_bind] at h ⊢
              generalize hd : eval cfg n (differenceQuotient cfg fxh fx) (setVar ctx x (FArith.add s (stepH F cfg))) = d at h ⊢
              cases d with
              | err er => cases h
              | panic => cases h
              | timeout => cases h
              | ok ws =>
                obtain ⟨w, rfl⟩ := dq_single hd
                simp only [ok_bind, List.getElem?_cons_zero] at h ⊢
                generalize (List.mapM _ _ : Out EvalError (List (List (Value F)))) = m at h
                cases m with
                | ok res =>
                  simp only [ok_bind] at h
                  cases h
                  rfl
                | err er => cases h
                | panic => cases h
                | timeout => cases h

/-- C94: but it panics if the expression has no value at the point, where `calculate_derivative` has an empty result (or fails). -/
theorem C94_newton_empty (cfg : Cfg) (e : AST F) (x : Str) (s : F) (ctx : Context F)
    (h : Finishes (fun n => eval cfg n e (setVar ctx x s)) (.ok [])) :
    Finishes (fun n => (newtonDerivativeCall cfg n e x (.scalar s) none ctx).1) .panic ∧
      (Finishes (fun n => eval cfg n e (setVar ctx x (FArith.add s (stepH F cfg)))) (.ok []) →
        Finishes (fun n => (derivativeCall cfg n e x (.scalar s) ctx).1) (.ok [])) := by
  obtain ⟨n, hn⟩ := eval_mono h
  refine ⟨⟨by simp, n, ?_⟩, fun h' => ?_⟩
  · beta_reduce
    rw [newtonCall_none, hn n (by omega)]
    rfl
  · obtain ⟨m, hm⟩ := eval_mono h'
    refine ⟨by simp, max n m, ?_⟩
    beta_reduce
    rw [derivativeCall_scalar, hn _ (by omega), hm _ (by omega)]
    rfl

/-- C94: whatever happens, the context afterwards is the caller's with the variable removed or set to the point or the point plus the step;
after a success it is removed. -/
theorem C94_newton_context (cfg : Cfg) (n : Nat) (e : AST F) (x : Str) (s : F) (fx : Option (Value F)) (ctx : Context F) :
    (∃ v, newtonDerivativeCall cfg n e x (.scalar s) fx ctx = (.ok v, ctx.removeVar x)) ∨
      ((∀ v, (newtonDerivativeCall cfg n e x (.scalar s) fx ctx).1 ≠ .ok v) ∧
        ((newtonDerivativeCall cfg n e x (.scalar s) fx ctx).2 = setVar ctx x s ∨
          (newtonDerivativeCall cfg n e x (.scalar s) fx ctx).2 = setVar ctx x (FArith.add s (stepH F cfg)))) := by
  have key : ∀ fx : Value F, (∃ v, newtonDerivativeCall cfg n e x (.scalar s) (some fx) ctx = (.ok v, ctx.removeVar x)) ∨
      ((∀ v, (newtonDerivativeCall cfg n e x (.scalar s) (some fx) ctx).1 ≠ .ok v) ∧
        (newtonDerivativeCall cfg n e x (.scalar s) (some fx) ctx).2 = setVar ctx x (FArith.add s (stepH F cfg))) := by
    intro fx
    rw [newtonCall_some]
    generalize eval cfg n e (setVar ctx x (FArith.add s (stepH F cfg))) = b
    cases b with
    | err er => exact Or.inr ⟨fun v hv => by contradiction, rfl⟩
    | panic => exact Or.inr ⟨fun v hv => by contradiction, rfl⟩
    | timeout => exact Or.inr ⟨fun v hv => by contradiction, rfl⟩
    | ok r =>
      cases r with
      | nil => exact Or.inr ⟨fun v hv => by contradiction, rfl⟩
      | cons fxh r =>
        simp only [Out.orLeave, List.getElem?_cons_zero, Out.unwrap]
        generalize hd : eval cfg n (differenceQuotient cfg fxh fx) (setVar ctx x (FArith.add s (stepH F cfg))) = d
        cases d with
        | err er => exact Or.inr ⟨fun v hv => by contradiction, rfl⟩
        | panic => exact Or.inr ⟨fun v hv => by contradiction, rfl⟩
        | timeout => exact Or.inr ⟨fun v hv => by contradiction, rfl⟩
        | ok ws =>
          obtain ⟨w, rfl⟩ := dq_single hd
          exact Or.inl ⟨w, rfl⟩
  cases fx with
  | some fx =>
    rcases key fx with h | h
    · exact Or.inl h
    · exact Or.inr ⟨h.1, Or.inr h.2⟩
  | none =>
    rw [newtonCall_none]
    generalize eval cfg n e (setVar ctx x s) = a
    cases a with
    | err er => exact Or.inr ⟨fun v hv => by contradiction, Or.inl rfl⟩
    | panic => exact Or.inr ⟨fun v hv => by contradiction, Or.inl rfl⟩
    | timeout => exact Or.inr ⟨fun v hv => by contradiction, Or.inl rfl⟩
    | ok r =>
      cases r with
      | nil => exact Or.inr ⟨fun v hv => by contradiction, Or.inl rfl⟩
      | cons fx r =>
        rcases key fx with h | h
        · exact Or.inl h
        · exact Or.inr ⟨h.1, Or.inr h.2⟩

/-! ## Integrals -/

/-- C94: `calculate_integral(e, x, lower, upper, context)` has the outcome of evaluating `I(e, x, lower, upper)`. -/
theorem C94_integral (cfg : Cfg) (e : AST F) (x : Str) (lower upper : Value F) (ctx : Context F) (r : Out EvalError (List (Value F))) :
    Finishes (fun n => integralCall cfg n e x lower upper ctx) r ↔
      Finishes (fun n => eval cfg n (.integral e x (AST.fromValue lower) (AST.fromValue upper)) ctx) r := by
  obtain ⟨N, hN⟩ := integral_single (e := e) (x := x) (cfg := cfg) (ctx := ctx) (lo := AST.fromValue lower) (hi := AST.fromValue upper)
    ⟨by simp, 2, C28_from_value cfg lower ctx 0⟩ ⟨by simp, 2, C28_from_value cfg upper ctx 0⟩
  constructor
  · rintro ⟨hr, n, hn⟩
    refine ⟨hr, max n N + 1, ?_⟩
    beta_reduce at hn ⊢
    rw [hN _ (by omega)]
    rcases calculateIntegral_le cfg (ev := fun a c => evalRec cfg n a c []) (ev' := fun a c => evalRec cfg (max n N) a c [])
      (fun a c => evalRec_le cfg (by omega) a c []) (Nat.le_max_left n N) e x lower upper ctx with h | h
    · exact absurd (hn.symm.trans h) hr
    · rw [← h]; exact hn
  · intro h
    obtain ⟨n, hn⟩ := eval_mono h
    refine ⟨h.1, max n N, ?_⟩
    beta_reduce
    have := hn (max n N + 1) (by omega)
    rw [hN _ (by omega)] at this
    exact this

theorem integralLoop_congr {ev ev' : Evaluator F} {e e' : AST F} {x x' : Str} {vars vars' : List (Variable F)} {funs funs' : List (Function F)}
    (h : ∀ p : F, ev e ⟨vars ++ [⟨x, [.scalar p]⟩], funs⟩ = ev' e' ⟨vars' ++ [⟨x', [.scalar p]⟩], funs'⟩) (ub dx : F) (n : Nat) (b : F)
    (sums : List (Value F)) : integralLoop ev e x vars funs ub dx n b sums = integralLoop ev' e' x' vars' funs' ub dx n b sums := by
  induction n generalizing b sums with
  | zero => rfl
  | succ n ih =>
    simp only [integralLoop, h, ih]

/-- C94: if the context has two variables with the name of the integration variable (`Context::new` does not prevent it), only the first
is replaced: the integrand sees the second one instead of the points of the interval. So `I(x,x,a,b)` is the integral of a constant. -/
theorem C94_integral_shadowed (cfg : Cfg) (x : Str) (before mid after : List (Variable F)) (us : List (Value F)) (w l u : F)
    (funs : List (Function F)) (hb : ∀ v ∈ before, v.name ≠ x) (hm : ∀ v ∈ mid, v.name ≠ x) (r : Out EvalError (List (Value F))) :
    Finishes (fun n => eval cfg n (.integral (.variable x) x (.scalar l) (.scalar u))
        (Context.new (before ++ ⟨x, us⟩ :: (mid ++ ⟨x, [.scalar w]⟩ :: after)) funs)) r ↔
      Finishes (fun n => eval cfg n (.integral (.scalar w) x (.scalar l) (.scalar u)) Context.empty) r := by
  have key : ∀ n, eval cfg (n + 3) (.integral (.variable x) x (.scalar l) (.scalar u))
        (Context.new (before ++ ⟨x, us⟩ :: (mid ++ ⟨x, [.scalar w]⟩ :: after)) funs) =
      eval cfg (n + 3) (.integral (.scalar w) x (.scalar l) (.scalar u)) Context.empty := by
    intro n
    have herase : eraseFirstVar (before ++ ⟨x, us⟩ :: (mid ++ ⟨x, [.scalar w]⟩ :: after)) x = before ++ (mid ++ ⟨x, [.scalar w]⟩ :: after) := by
      unfold eraseFirstVar
      rw [List.eraseP_append_right _ fun v hv => by simpa using hb v hv, List.eraseP_cons_of_pos (by simp)]
    have hloop := integralLoop_congr (ev := fun a c => evalRec cfg (n + 2) a c []) (ev' := fun a c => evalRec cfg (n + 2) a c [])
      (e := .variable x) (e' := .scalar w) (x := x) (x' := x) (vars := before ++ (mid ++ ⟨x, [.scalar w]⟩ :: after)) (vars' := []) (funs := funs)
      (funs' := []) (fun p => by
        have : (Context.findVar (⟨before ++ (mid ++ ⟨x, [.scalar w]⟩ :: after) ++ [⟨x, [.scalar p]⟩], funs⟩ : Context F) x) = some [.scalar w] := by
          unfold Context.findVar
          have h1 : ∀ v ∈ before, (v.name == x) = false := fun v hv => by simpa using hb v hv
          have h2 : ∀ v ∈ mid, (v.name == x) = false := fun v hv => by simpa using hm v hv
          have hf1 : before.find? (fun w => w.name == x) = none := List.find?_eq_none.2 fun v hv => by simp [h1 v hv]
          have hf2 : mid.find? (fun w => w.name == x) = none := List.find?_eq_none.2 fun v hv => by simp [h2 v hv]
          simp only [List.append_assoc, List.find?_append, hf1, hf2, List.cons_append, Option.none_or]
          rw [List.find?_cons_of_pos (by simp)]
          rfl
        rw [evalRec.eq_def]
        simp only [this]
        rfl)
    unfold eval
    rw [evalRec.eq_def]
    conv_rhs => rw [evalRec.eq_def]
    have hs : ∀ (c : Context F) (a : F), evalRec cfg (n + 2) (.scalar a) c [] = .ok [.scalar a] := fun _ _ => rfl
    simp only [hs, ok_bind, mapM_single, calculateIntegral, Context.new, Context.empty, herase, hloop]
    rfl
  constructor
  · intro h
    obtain ⟨n, hn⟩ := eval_mono h
    exact ⟨h.1, n + 3, by beta_reduce; rw [← key, hn _ (by omega)]⟩
  · intro h
    obtain ⟨n, hn⟩ := eval_mono h
    exact ⟨h.1, n + 3, by beta_reduce; rw [key, hn _ (by omega)]⟩

/-- C94, an example: `calculate_derivative(x*x, x, s, context)` succeeds, and a variable `x` of the context is gone afterwards. -/
theorem C94_forgets (cfg : Cfg) (v : Value F) (s : F) :
    let after := derivativeCall cfg 5 (.simple .mult (.variable ['x']) (.variable ['x'])) ['x'] (.scalar s) ⟨[⟨['x'], [v]⟩], []⟩
    (∃ q : F, after.1 = .ok [.scalar q]) ∧ eval cfg 1 (.variable ['x']) after.2 = .err (.noVariable ['x']) :=
  ⟨⟨_, rfl⟩, rfl⟩

/-- and an example of a failure at the point: `f(x)` where `f` does not exist. -/
example (cfg : Cfg) (v : Value F) (s : F) :
    derivativeCall cfg 5 (.function ['f'] [.variable ['x']]) ['x'] (.scalar s) ⟨[⟨['x'], [v]⟩], []⟩ =
      (.err (.noFunction ['f']), ⟨[⟨['x'], [.scalar s]⟩], []⟩) := C94_context_first cfg 5 _ _ s _ _ rfl

/-- A success of the variant of the solver: the derivative of `[x, a]`. -/
example (cfg : Cfg) (s a : F) :
    ∃ v, (newtonDerivativeCall cfg 5 (.vector [.variable ['x'], .scalar a]) ['x'] (.scalar s) none ⟨[], []⟩) = (.ok v, ⟨[], []⟩) :=
  ⟨_, rfl⟩

end

/-- A failure at the point plus the step: `[1,2]?x` at 0. The context is left with `x = 10^-8`. -/
example : let e : AST Q := .simple .get (.vector [.scalar (.fin 1), .scalar (.fin 2)]) (.variable ['x'])
    (∃ er, (derivativeCall .default 6 e ['x'] (.scalar (.fin 0)) ⟨[], []⟩).1 = .err er) ∧
      (derivativeCall .default 6 e ['x'] (.scalar (.fin 0)) ⟨[], []⟩).2.findVar ['x'] = some [.scalar (.fin (1 / 10 ^ 8))] := by
  intro e
  have h1 : (match eval .default 6 e (setVar ⟨[], []⟩ ['x'] (.fin 0)) with | .ok _ => true | _ => false) = true := by decide +kernel
  have h2 : (match (derivativeCall .default 6 e ['x'] (.scalar (.fin 0)) ⟨[], []⟩).1 with | .err _ => true | _ => false) = true := by
    decide +kernel
  have hval : FArith.add (.fin 0 : Q) (stepH Q .default) = .fin (1 / 10 ^ 8) := by decide +kernel
  split at h1
  · rename_i fxs hfx
    split at h2
    · rename_i er her
      refine ⟨⟨er, her⟩, ?_⟩
      rw [C94_context_later .default 6 e ['x'] (.fin 0) ⟨[], []⟩ fxs er hfx her, setVar, findVar_addVar, if_pos rfl, hval]
    · cases h2
  · cases h1

section
variable {F : Type} [FNum F] {K : Type} [Field K] [LinearOrder K] [IsStrictOrderedRing K] [FloorRing K] [Exact F K]

/-- C94: with exact arithmetic: in a context made of `x = u` and again `x = w`, `I(x, x, a, b)` is `w * |b-a|` instead of the integral of
the identity (C41). -/
theorem C94_shadowed_value (cfg : Cfg) (hprec : 3 ≤ cfg.prec) (x : Str) (us : List (Value F)) (w l u : F) {c a b : K} (hw : Exact.val w = some c)
    (hl : Exact.val l = some a) (hu : Exact.val u = some b) :
    ∃ v, Finishes (fun n => eval cfg n (.integral (.variable x) x (.scalar l) (.scalar u))
        (Context.new [⟨x, us⟩, ⟨x, [.scalar w]⟩] [])) (.ok [v]) ∧ IsScalar v (c * |b - a|) := by
  have hs : ∀ (c : Context F) (a : F), Finishes (fun n => eval cfg n (.scalar a) c) (.ok [.scalar a]) := fun _ _ => ⟨by simp, 1, rfl⟩
  obtain ⟨v, hv, hv'⟩ := C41_constant cfg hprec (Context.empty : Context F) (by simp [NoDupVars, Context.empty]) x (.scalar w) (.scalar l) (.scalar u)
    c (fun p t _ _ => ⟨[.scalar w], hs _ _, List.Forall₂.cons ⟨w, rfl, hw⟩ .nil⟩) (hs _ _) ⟨l, rfl, hl⟩ (hs _ _) ⟨u, rfl, hu⟩
  exact ⟨v, (C94_integral_shadowed cfg x [] [] [] us w l u [] nofun nofun _).2 hv, hv'⟩

end

end MUL
