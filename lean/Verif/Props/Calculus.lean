import Verif.Proofs.Calculus
import Verif.Num.Rat
import Mathlib.Algebra.BigOperators.Intervals
import Mathlib.Tactic.Linarith
/-!
# C41-C44: integrals and derivatives
-/

namespace MUL
open Out Spec

set_option linter.unusedSectionVars false

section
variable {F : Type} [FArith F] {K : Type} [Field K] [LinearOrder K] [IsStrictOrderedRing K] [FloorRing K] [Exact F K]

/-- C43: with exact arithmetic and finite bounds the loop makes exactly `10^(PREC-3)` steps: the running point stays
below the upper bound that often and then no more. -/
theorem C43_steps (cfg : Cfg) (hprec : 3 ≤ cfg.prec) {lb ub : F} {a b : K} (hlb : Exact.val lb = some a)
    (hub : Exact.val ub = some b) (hab : a < b) (i : Nat) :
    FArith.lt (stepFrom lb (FArith.div (FArith.sub ub lb) (FArith.powi (FArith.ofInt 10) ((cfg.prec : Int) - 3))) i) ub =
      decide (i < 10 ^ (cfg.prec - 3)) := by
  refine steps_exact (by positivity) hlb hub hab ?_ i
  exact Exact.val_div (Exact.val_sub hub hlb) (val_step_count cfg hprec) (by positivity)

end

section
variable {F : Type} [FNum F]

/-! ## Any number type -/

/-- Bounds with several values: one integral for each pair of bounds, the lower bound varying slowest. -/
theorem integral_finishes {cfg : Cfg} {e : AST F} {x : Str} {lo hi : AST F} {ctx : Context F} {ls us : List (Value F)}
    (hlo : Finishes (fun n => eval cfg n lo ctx) (.ok ls)) (hhi : Finishes (fun n => eval cfg n hi ctx) (.ok us)) :
    ∃ n, ∀ k ≥ n, eval cfg (k + 1) (.integral e x lo hi) ctx =
      ((ls.mapM fun i => do
        let r ← us.mapM fun j => calculateIntegral cfg (fun a c => evalRec cfg k a c []) k e x i j ctx
        .ok r.flatten) >>= fun r => .ok r.flatten) := by
  obtain ⟨n, hn⟩ := eval_mono hlo
  obtain ⟨m, hm⟩ := eval_mono hhi
  refine ⟨max n m, fun k hk => ?_⟩
  have h1 := hn k (by omega)
  have h2 := hm k (by omega)
  unfold eval at h1 h2 ⊢
  rw [evalRec.eq_def]
  simp only
  rw [h1, ok_bind, h2, ok_bind]

theorem mapM_single {ε α β : Type} (a : α) (f : α → Out ε β) : ([a].mapM f) = (f a >>= fun b => .ok [b]) := by
  rw [List.mapM_cons, List.mapM_nil]
  rfl

theorem integral_single {cfg : Cfg} {e : AST F} {x : Str} {lo hi : AST F} {ctx : Context F} {l u : Value F}
    (hlo : Finishes (fun n => eval cfg n lo ctx) (.ok [l])) (hhi : Finishes (fun n => eval cfg n hi ctx) (.ok [u])) :
    ∃ n, ∀ k ≥ n, eval cfg (k + 1) (.integral e x lo hi) ctx =
      calculateIntegral cfg (fun a c => evalRec cfg k a c []) k e x l u ctx := by
  obtain ⟨n, hn⟩ := integral_finishes (e := e) (x := x) hlo hhi
  refine ⟨n, fun k hk => ?_⟩
  rw [hn k hk, mapM_single, mapM_single]
  cases calculateIntegral cfg (fun a c => evalRec cfg k a c []) k e x l u ctx <;> simp

theorem eval_integral_le (cfg : Cfg) {n m : Nat} (h : n ≤ m) (b : AST F) (ctx : Context F) :
    Le (eval cfg n b ctx) (eval cfg m b ctx) := evalRec_le cfg h b ctx []

/-- A bound that is a vector or a matrix is an error. -/
theorem C41_bound_error (cfg : Cfg) (ctx : Context F) (x : Str) (e lo hi : AST F) (l u : Value F)
    (hlo : Finishes (fun n => eval cfg n lo ctx) (.ok [l])) (hhi : Finishes (fun n => eval cfg n hi ctx) (.ok [u]))
    (h : kind l ≠ .scalar ∨ kind u ≠ .scalar) :
    ∃ msg, Finishes (fun n => eval cfg n (.integral e x lo hi) ctx) (.err (.mathError msg)) := by
  obtain ⟨n, hn⟩ := integral_single (e := e) (x := x) hlo hhi
  refine ⟨"Only scalar bounds are allowed!", by simp, n + 1, ?_⟩
  beta_reduce
  rw [hn n (Nat.le_refl _)]
  cases l <;> cases u <;> first | rfl | simp [kind] at h

/-- C41: integrating over an interval whose bounds are equal (`==`) gives 0, whatever the integrand is: it is not even
evaluated. -/
theorem C41_equal_bounds (cfg : Cfg) (ctx : Context F) (x : Str) (e lo hi : AST F) (l u : F)
    (hlo : Finishes (fun n => eval cfg n lo ctx) (.ok [.scalar l]))
    (hhi : Finishes (fun n => eval cfg n hi ctx) (.ok [.scalar u])) (h : FArith.beq l u = true) :
    Finishes (fun n => eval cfg n (.integral e x lo hi) ctx) (.ok [.scalar (FArith.ofInt 0)]) := by
  obtain ⟨n, hn⟩ := integral_single (e := e) (x := x) hlo hhi
  refine ⟨by simp, n + 1, ?_⟩
  simp only [hn n (Nat.le_refl _), calculateIntegral, h, if_true]

/-- C41: bounds that cannot be compared (a NaN) give an empty result. -/
theorem C41_incomparable_bounds (cfg : Cfg) (ctx : Context F) (x : Str) (e lo hi : AST F) (l u : F)
    (hlo : Finishes (fun n => eval cfg n lo ctx) (.ok [.scalar l]))
    (hhi : Finishes (fun n => eval cfg n hi ctx) (.ok [.scalar u])) (h : FArith.beq l u = false)
    (h1 : FArith.lt l u = false) (h2 : FArith.lt u l = false) :
    Finishes (fun n => eval cfg n (.integral e x lo hi) ctx) (.ok []) := by
  obtain ⟨n, hn⟩ := integral_single (e := e) (x := x) hlo hhi
  refine ⟨by simp, n + 1, ?_⟩
  simp only [hn n (Nat.le_refl _), calculateIntegral, h, h2]
  cases n <;> simp [integralLoop, h1] <;> rfl

/-- C41: bounds with several values. If the integral between each value of the lower and each value of the upper
bound finishes, so does the whole, with all the results in order. -/
theorem C41_several_bounds (cfg : Cfg) (ctx : Context F) (x : Str) (e lo hi : AST F) (ls us : List (Value F))
    (hlo : Finishes (fun n => eval cfg n lo ctx) (.ok ls)) (hhi : Finishes (fun n => eval cfg n hi ctx) (.ok us))
    (res : Value F × Value F → List (Value F))
    (h : ∀ p ∈ pairs ls us, Finishes (fun n => eval cfg n (.integral e x (AST.fromValue p.1) (AST.fromValue p.2)) ctx)
      (.ok (res p))) :
    Finishes (fun n => eval cfg n (.integral e x lo hi) ctx) (.ok ((pairs ls us).flatMap res)) := by
  obtain ⟨n, hn⟩ := integral_finishes (e := e) (x := x) hlo hhi
  have hall : ∃ n, ∀ k ≥ n, ∀ p ∈ pairs ls us,
      calculateIntegral cfg (fun a c => evalRec cfg k a c []) k e x p.1 p.2 ctx = .ok (res p) := by
    have hone : ∀ p ∈ pairs ls us, ∃ n, ∀ k ≥ n,
        calculateIntegral cfg (fun a c => evalRec cfg k a c []) k e x p.1 p.2 ctx = .ok (res p) := by
      intro p hp
      obtain ⟨n', hn'⟩ := integral_single (e := e) (x := x) (ctx := ctx) (cfg := cfg) (l := p.1) (u := p.2)
        (lo := AST.fromValue p.1) (hi := AST.fromValue p.2)
        ⟨by simp, 2, C28_from_value cfg p.1 ctx 0⟩ ⟨by simp, 2, C28_from_value cfg p.2 ctx 0⟩
      obtain ⟨m, hm⟩ := eval_mono (h p hp)
      exact ⟨max n' m, fun k hk => by rw [← hn' k (by omega)]; exact hm _ (by omega)⟩
    generalize pairs ls us = l at hone
    clear h
    induction l with
    | nil => exact ⟨0, by simp⟩
    | cons p l ih =>
      obtain ⟨n1, h1⟩ := hone p (by simp)
      obtain ⟨n2, h2⟩ := ih fun q hq => hone q (by simp [hq])
      refine ⟨max n1 n2, fun k hk q hq => ?_⟩
      rcases List.mem_cons.1 hq with rfl | hq
      · exact h1 k (by omega)
      · exact h2 k (by omega) q hq
  obtain ⟨n2, hn2⟩ := hall
  refine ⟨by simp, max n n2 + 1, ?_⟩
  beta_reduce
  rw [hn _ (by omega)]
  have hrow : ∀ i ∈ ls, (do
      let r ← us.mapM fun j => calculateIntegral cfg (fun a c => evalRec cfg (max n n2) a c []) (max n n2) e x i j ctx
      (.ok r.flatten : Out EvalError (List (Value F)))) = .ok (us.flatMap fun j => res (i, j)) := by
    intro i hi
    rw [mapM_ok_of_forall (g := fun j => res (i, j))]
    · rw [ok_bind, List.flatMap_def]
    · intro j hj
      exact hn2 _ (by omega) (i, j) (by simp only [pairs, List.mem_flatMap, List.mem_map]; exact ⟨i, hi, j, hj, rfl⟩)
  rw [mapM_ok_of_forall hrow, ok_bind]
  congr 1
  rw [← List.flatMap_def]
  simp only [pairs, List.flatMap_assoc, List.flatMap_map]

theorem integralLoop_sum {ev : Evaluator F} {e : AST F} {x : Str} {vars : List (Variable F)} {funs : List (Function F)} {lb ub dx : F} {K : Nat}
    (hlt : ∀ i < K, FArith.lt (stepFrom lb dx i) ub = true) (hend : FArith.lt (stepFrom lb dx K) ub = false) (y : Nat → F)
    (hev : ∀ i < K, ev e ⟨vars ++ [⟨x, [.scalar (slicePoint lb dx i)]⟩], funs⟩ = .ok [.scalar (y i)])
    (fuel j i : Nat) (hij : i + 1 + j = K) (hfuel : j ≤ fuel) :
    integralLoop ev e x vars funs ub dx fuel (stepFrom lb dx (i + 1)) [.scalar (sumUp y i)] = .ok [.scalar (sumUp y (K - 1))] := by
  induction j generalizing fuel i with
  | zero =>
    obtain rfl : K = i + 1 := by omega
    cases fuel <;> simp [integralLoop, hend]
  | succ j ih =>
    obtain ⟨fuel, rfl⟩ : ∃ k, fuel = k + 1 := ⟨fuel - 1, by omega⟩
    have h1 := hev (i + 1) (by omega)
    unfold slicePoint at h1
    rw [integralLoop, if_pos (hlt (i + 1) (by omega)), h1, ok_bind]
    exact ih fuel (i + 1) (by omega) (by omega)

/-- C41, for any arithmetic: if the points `l, l+dx, (l+dx)+dx, …` are below the upper bound `K` times, and the integrand is the number `y i`
at the `i`-th slice, then the integral is `(y 0 + … + y (K-1)) * dx`. -/
theorem C41_loop (cfg : Cfg) (ctx : Context F) (hd : NoDupVars ctx) (x : Str) (e lo hi : AST F) (l u : F)
    (hlo : Finishes (fun n => eval cfg n lo ctx) (.ok [.scalar l])) (hhi : Finishes (fun n => eval cfg n hi ctx) (.ok [.scalar u]))
    (hne : FArith.beq l u = false) (hle : FArith.lt u l = false) (K : Nat)
    (hlt : ∀ i ≤ K, FArith.lt (stepFrom l (sliceWidth cfg l u) i) u = true)
    (hend : FArith.lt (stepFrom l (sliceWidth cfg l u) (K + 1)) u = false) (y : Nat → F)
    (he : ∀ i ≤ K, Finishes (fun n => eval cfg n e (setVar ctx x (slicePoint l (sliceWidth cfg l u) i))) (.ok [.scalar (y i)])) :
    Finishes (fun n => eval cfg n (.integral e x lo hi) ctx) (.ok [.scalar (FArith.mul (sumUp y K) (sliceWidth cfg l u))]) := by
  obtain ⟨n, hn⟩ := integral_single (e := e) (x := x) hlo hhi
  obtain ⟨n', hn'⟩ := common_budget (N := K + 1) (α := Nat) (fun i q => q = i)
    (fun i k => eval cfg k e (setVar ctx x (slicePoint l (sliceWidth cfg l u) i)) = .ok [.scalar (y i)])
    (fun i hi => ⟨i, rfl, eval_mono (he i (by omega))⟩)
  refine ⟨by simp, max n (max n' (K + 1)) + 1, ?_⟩
  beta_reduce
  rw [hn _ (by omega)]
  generalize hk : max n (max n' (K + 1)) = k
  have hloop : integralLoop (fun a c => evalRec cfg k a c []) e x (eraseFirstVar ctx.vars x) ctx.funs u (sliceWidth cfg l u) k l [] =
      .ok [.scalar (sumUp y K)] := by
    obtain ⟨k', rfl⟩ : ∃ k', k = k' + 1 := ⟨k - 1, by omega⟩
    have hev : ∀ i < K + 1, evalRec cfg (k' + 1) e ⟨eraseFirstVar ctx.vars x ++ [⟨x, [.scalar (slicePoint l (sliceWidth cfg l u) i)]⟩], ctx.funs⟩ [] =
        .ok [.scalar (y i)] := by
      intro i hi
      obtain ⟨_, rfl, h⟩ := hn' i hi
      rw [sample_eval cfg _ e hd]
      exact h _ (by omega)
    have h0 := hev 0 (by omega)
    unfold slicePoint at h0
    rw [stepFrom] at h0
    have h1 : FArith.lt l u = true := hlt 0 (by omega)
    rw [integralLoop, if_pos h1, h0, ok_bind, accumulate_nil, ok_bind]
    exact integralLoop_sum (ev := fun a c => evalRec cfg (k' + 1) a c []) (fun i hi => hlt i (by omega)) hend y hev k' K 0 (by omega) (by omega)
  unfold calculateIntegral
  simp only [hne, hle, Bool.false_eq_true, if_false]
  unfold sliceWidth at hloop ⊢
  rw [hloop, ok_bind, mapM_single]
  rfl

theorem accumulate_scalars (sums es : List (Value F)) (h : ∀ v ∈ sums, ∃ s, v = .scalar s) (h' : ∀ v ∈ es, ∃ s, v = .scalar s) :
    ∃ r, accumulate sums es = .ok r ∧ ∀ v ∈ r, ∃ s, v = .scalar s := by
  induction es generalizing sums with
  | nil => exact ⟨sums, by cases sums <;> rfl, h⟩
  | cons e es ih =>
    cases sums with
    | nil => exact ⟨e :: es, accumulate_nil _, h'⟩
    | cons s ss =>
      obtain ⟨a, rfl⟩ := h s (by simp)
      obtain ⟨b, rfl⟩ := h' e (by simp)
      obtain ⟨r, hr, hr'⟩ := ih ss (fun v hv => h v (by simp [hv])) (fun v hv => h' v (by simp [hv]))
      refine ⟨.scalar (FArith.add a b) :: r, ?_, ?_⟩
      · rw [accumulate, hr]; rfl
      · intro v hv
        rcases List.mem_cons.1 hv with rfl | hv
        · exact ⟨_, rfl⟩
        · exact hr' v hv

/-- C43: if the points `l, l+dx, (l+dx)+dx, …` never reach the upper bound and the integrand is defined, the integration never returns. -/
theorem C43_never (cfg : Cfg) (ctx : Context F) (hd : NoDupVars ctx) (x : Str) (e lo hi : AST F) (l u : F)
    (hlo : Finishes (fun n => eval cfg n lo ctx) (.ok [.scalar l])) (hhi : Finishes (fun n => eval cfg n hi ctx) (.ok [.scalar u]))
    (hne : FArith.beq l u = false) (hle : FArith.lt u l = false)
    (hlt : ∀ i, FArith.lt (stepFrom l (sliceWidth cfg l u) i) u = true)
    (he : ∀ i, ∃ vs : List F, Finishes (fun n => eval cfg n e (setVar ctx x (slicePoint l (sliceWidth cfg l u) i))) (.ok (vs.map .scalar))) :
    Diverges (fun n => eval cfg n (.integral e x lo hi) ctx) := by
  obtain ⟨N, hN⟩ := integral_single (e := e) (x := x) hlo hhi
  suffices h : ∀ k ≥ N, eval cfg (k + 1) (.integral e x lo hi) ctx = .timeout by
    intro n
    beta_reduce
    rcases eval_integral_le cfg (show n ≤ max n N + 1 by omega) (.integral e x lo hi) ctx with h0 | h0
    · exact h0
    · rw [h0]
      exact h _ (by omega)
  intro n hn
  rw [hN n hn]
  simp only [calculateIntegral, hne, hle, Bool.false_eq_true, if_false]
  suffices h : ∀ (k i : Nat) (sums : List (Value F)), (∀ v ∈ sums, ∃ s, v = .scalar s) →
      integralLoop (fun a c => evalRec cfg n a c []) e x (eraseFirstVar ctx.vars x) ctx.funs u (sliceWidth cfg l u) k
        (stepFrom l (sliceWidth cfg l u) i) sums = .timeout by
    have := h n 0 [] (by simp)
    unfold sliceWidth at this
    rw [stepFrom] at this
    rw [this]
    rfl
  intro k
  induction k with
  | zero => intro i sums _; simp [integralLoop, hlt]
  | succ k ih =>
    intro i sums hsums
    rw [integralLoop, if_pos (hlt i)]
    obtain ⟨vs, hev⟩ := he i
    obtain ⟨n', hn'⟩ := eval_mono hev
    have hle2 := evalRec_le cfg (Nat.le_max_left n n') e
      ⟨eraseFirstVar ctx.vars x ++ [⟨x, [.scalar (slicePoint l (sliceWidth cfg l u) i)]⟩], ctx.funs⟩ []
    have hr := hn' _ (Nat.le_max_right n n')
    rw [← sample_eval cfg _ e hd] at hr
    rcases hle2 with h0 | h0
    · unfold slicePoint at h0
      rw [h0]; rfl
    · rw [hr] at h0
      unfold slicePoint at h0
      rw [h0, ok_bind]
      obtain ⟨r, hr1, hr2⟩ := accumulate_scalars sums (vs.map .scalar) hsums (by simp)
      rw [hr1, ok_bind]
      exact ih (i + 1) r hr2

theorem stepFrom_stuck {l dx : F} (h : FArith.add l dx = l) (i : Nat) : stepFrom l dx i = l := by
  induction i with
  | zero => rfl
  | succ i ih => rw [stepFrom, ih, h]

/-- C43: integration never returns when a step does not get ahead, i.e. `a < b` but `a + dx` rounds to `a`. Floats:
`a = 10^16`, `b = 10^16 + 2` (`F64_integral_stuck` in Props/Float.lean). -/
theorem C43_diverges (cfg : Cfg) (ctx : Context F) (hd : NoDupVars ctx) (x : Str) (e : AST F) (l u : F)
    (hlt : FArith.lt l u = true) (hne : FArith.beq l u = false) (hle : FArith.lt u l = false)
    (hstuck : FArith.add l (FArith.div (FArith.sub u l) (FArith.powi (FArith.ofInt 10) ((cfg.prec : Int) - 3))) = l)
    (he : ∀ p : F, ∃ vs : List F, Finishes (fun n => eval cfg n e (setVar ctx x p)) (.ok (vs.map .scalar))) :
    Diverges (fun n => eval cfg n (.integral e x (.scalar l) (.scalar u)) ctx) :=
  C43_never cfg ctx hd x e (.scalar l) (.scalar u) l u ⟨by simp, 1, rfl⟩ ⟨by simp, 1, rfl⟩ hne hle
    (fun i => by rw [stepFrom_stuck (dx := sliceWidth cfg l u) hstuck]; exact hlt) (fun i => he _)

/-! ### Derivatives -/

theorem applyAll_single (op : SimpleOp) (a b : Value F) : applyAll op [a] [b] = applyOp op a b := by
  unfold applyAll
  rw [mapM_single, mapM_single]
  cases applyOp op a b <;> simp

theorem diffQuotient_eval (cfg : Cfg) (n : Nat) (fxh fx : Value F) (ctx : Context F) :
    evalRec cfg (n + 4) (differenceQuotient cfg fxh fx) ctx [] =
      (liftMath (diffQuotient (stepH F cfg) fx fxh) >>= fun v => .ok [v]) := by
  have hfv : ∀ (m : Nat) (v : Value F), evalRec cfg (m + 2) (AST.fromValue v) ctx [] = .ok [v] :=
    fun m v => C28_from_value cfg v ctx m
  have hsub : evalRec cfg (n + 3) (.simple .sub (AST.fromValue fxh) (AST.fromValue fx)) ctx [] =
      (liftMath (vSub fxh fx) >>= fun v => .ok [v]) := by
    rw [evalRec.eq_def]
    simp only
    rw [hfv n, hfv n, ok_bind, ok_bind, applyAll_single]
    rfl
  unfold differenceQuotient
  rw [evalRec.eq_def]
  simp only
  rw [hsub, hfv (n + 1)]
  unfold diffQuotient liftMath stepH
  cases h : vSub fxh fx with
  | ok d =>
    simp only [mapErr_ok, ok_bind, applyAll_single]
    rfl
  | err e => rfl
  | panic => rfl
  | timeout => rfl

/-- What `D(e, x, at)` computes, once the values of the point and of the expression are known. -/
theorem derivative_eval (cfg : Cfg) (ctx : Context F) (x : Str) (e at_ : AST F) (s : F) (fxs fxhs : List (Value F))
    (hat : Finishes (fun n => eval cfg n at_ ctx) (.ok [.scalar s]))
    (hfx : Finishes (fun n => eval cfg n e (setVar ctx x s)) (.ok fxs))
    (hfxh : Finishes (fun n => eval cfg n e (setVar ctx x (FArith.add s (stepH F cfg)))) (.ok fxhs)) :
    ∃ n, eval cfg n (.derivative e x at_) ctx =
      if fxs.length ≠ fxhs.length then .err (.mathError "Amount of solutions for f(x) and f(x+h) are different!")
      else (fxs.zip fxhs).mapM fun p => liftMath (diffQuotient (stepH F cfg) p.1 p.2) := by
  obtain ⟨n1, h1⟩ := eval_mono hat
  obtain ⟨n2, h2⟩ := eval_mono hfx
  obtain ⟨n3, h3⟩ := eval_mono hfxh
  obtain ⟨n, hn⟩ : ∃ n, n = max n1 (max n2 n3) := ⟨_, rfl⟩
  refine ⟨n + 4 + 1, ?_⟩
  have hc1 : (dropVar ctx x).addVar ⟨x, [.scalar s]⟩ = setVar ctx x s := by
    rw [dropVar_eq]
    simp [setVar, Context.addVar, Context.removeVar, List.filter_filter]
  have hc2 : ∀ q : F, ((setVar ctx x s).removeVar x).addVar ⟨x, [.scalar q]⟩ = setVar ctx x q := by
    intro q
    simp [setVar, Context.addVar, Context.removeVar, List.filter_filter]
  have h1' := h1 (n + 4) (by omega)
  have h2' := h2 (n + 4) (by omega)
  have h3' := h3 (n + 4) (by omega)
  unfold eval at h1' h2' h3' ⊢
  rw [evalRec.eq_def]
  simp only
  rw [h1', ok_bind, mapM_single]
  simp only [calculateDerivative, hc1, hc2]
  rw [h2', ok_bind]
  rw [show FArith.powi (FArith.ofInt 10) (-(cfg.prec : Int)) = stepH F cfg from rfl, h3', ok_bind]
  by_cases hlen : fxs.length = fxhs.length
  · rw [if_neg (by simpa using hlen), if_neg (by simpa using hlen)]
    have hmap : ((List.range fxs.length).mapM fun i => do
        let fxh ← idx fxhs i
        let fx ← idx fxs i
        evalRec cfg (n + 4) (differenceQuotient cfg fxh fx) (setVar ctx x (FArith.add s (stepH F cfg))) []) =
        (fxs.zip fxhs).mapM fun p => liftMath (diffQuotient (stepH F cfg) p.1 p.2) >>= fun v => .ok [v] := by
      have hz : fxs.zip fxhs = (List.range fxs.length).pmap
          (fun i (hi : i < fxs.length) => (fxs[i], fxhs[i]'(hlen ▸ hi))) (fun i hi => List.mem_range.1 hi) := by
        apply List.ext_getElem
        · simp [hlen]
        · intro i h1 h2
          simp
      rw [hz]
      have : ∀ (r : List Nat) (hmem : ∀ i ∈ r, i < fxs.length), (r.mapM fun i => do
          let fxh ← idx fxhs i
          let fx ← idx fxs i
          evalRec cfg (n + 4) (differenceQuotient cfg fxh fx) (setVar ctx x (FArith.add s (stepH F cfg))) []) =
          (r.pmap (fun i (hi : i < fxs.length) => (fxs[i], fxhs[i]'(hlen ▸ hi))) hmem).mapM fun p =>
            liftMath (diffQuotient (stepH F cfg) p.1 p.2) >>= fun v => .ok [v] := by
        intro r
        induction r with
        | nil => intro _; rfl
        | cons i r ih =>
          intro hm
          have hi := hm i (by simp)
          rw [List.pmap, List.mapM_cons, List.mapM_cons, ih fun j hj => hm j (by simp [hj]), idx_lt (hlen ▸ hi), ok_bind,
            idx_lt hi, ok_bind, diffQuotient_eval]
      exact this _ _
    rw [hmap]
    generalize fxs.zip fxhs = l
    have : ∀ l : List (Value F × Value F), ((l.mapM fun p => liftMath (diffQuotient (stepH F cfg) p.1 p.2) >>= fun v =>
        (.ok [v] : Out EvalError (List (Value F)))) >>= fun r => .ok r.flatten) =
        l.mapM fun p => liftMath (diffQuotient (stepH F cfg) p.1 p.2) := by
      intro l
      induction l with
      | nil => rfl
      | cons p l ih =>
        rw [List.mapM_cons, List.mapM_cons, ← ih]
        cases liftMath (diffQuotient (stepH F cfg) p.1 p.2) with
        | ok v =>
          simp only [ok_bind]
          cases (l.mapM fun p => liftMath (diffQuotient (stepH F cfg) p.1 p.2) >>= fun v =>
            (.ok [v] : Out EvalError (List (Value F)))) <;> simp
        | err e => rfl
        | panic => rfl
        | timeout => rfl
    rw [this]
    cases (l.mapM fun p => liftMath (diffQuotient (stepH F cfg) p.1 p.2)) <;> simp
  · rw [if_pos (by simpa using hlen), if_pos (by simpa using hlen)]
    rfl

/-- C44: `D(e,x,at)` for a scalar point `s`: the values are the difference quotients of the `i`-th values of `e` at
`s+h` and at `s`, with `h = 10^-PREC`. In both evaluations `x` is set and everything else is as in `ctx`. -/
theorem C44_derivative (cfg : Cfg) (ctx : Context F) (x : Str) (e at_ : AST F) (s : F) (fxs fxhs vs : List (Value F))
    (hat : Finishes (fun n => eval cfg n at_ ctx) (.ok [.scalar s]))
    (hfx : Finishes (fun n => eval cfg n e (setVar ctx x s)) (.ok fxs))
    (hfxh : Finishes (fun n => eval cfg n e (setVar ctx x (FArith.add s (stepH F cfg)))) (.ok fxhs))
    (hlen : fxs.length = fxhs.length)
    (hvs : List.Forall₂ (fun p v => diffQuotient (stepH F cfg) p.1 p.2 = .ok v) (fxs.zip fxhs) vs) :
    Finishes (fun n => eval cfg n (.derivative e x at_) ctx) (.ok vs) := by
  obtain ⟨n, hn⟩ := derivative_eval cfg ctx x e at_ s fxs fxhs hat hfx hfxh
  refine ⟨by simp, n, ?_⟩
  beta_reduce
  rw [hn, if_neg (by simpa using hlen), mapM_eq_ok]
  refine hvs.imp fun p v h => ?_
  rw [h]
  rfl

/-- C44: a difference quotient that does not exist is an error. -/
theorem C44_value_error (cfg : Cfg) (ctx : Context F) (x : Str) (e at_ : AST F) (s : F) (fxs fxhs : List (Value F))
    (hat : Finishes (fun n => eval cfg n at_ ctx) (.ok [.scalar s]))
    (hfx : Finishes (fun n => eval cfg n e (setVar ctx x s)) (.ok fxs))
    (hfxh : Finishes (fun n => eval cfg n e (setVar ctx x (FArith.add s (stepH F cfg)))) (.ok fxhs))
    (hlen : fxs.length = fxhs.length) (before after : List (Value F × Value F)) (p : Value F × Value F) (msg : String)
    (hsplit : fxs.zip fxhs = before ++ p :: after)
    (hbefore : ∀ q ∈ before, ∃ v, diffQuotient (stepH F cfg) q.1 q.2 = .ok v)
    (hp : diffQuotient (stepH F cfg) p.1 p.2 = .err msg) :
    Finishes (fun n => eval cfg n (.derivative e x at_) ctx) (.err (.mathError msg)) := by
  obtain ⟨n, hn⟩ := derivative_eval cfg ctx x e at_ s fxs fxhs hat hfx hfxh
  refine ⟨by simp, n, ?_⟩
  beta_reduce
  rw [hn, if_neg (by simpa using hlen), hsplit]
  clear hsplit
  induction before with
  | nil =>
    rw [List.nil_append, List.mapM_cons, hp]
    rfl
  | cons q before ih =>
    obtain ⟨v, hv⟩ := hbefore q (by simp)
    rw [List.cons_append, List.mapM_cons, hv, ih fun r hr => hbefore r (by simp [hr])]
    rfl

/-- C44: if the expression does not have the same number of values at both points, that is an error. -/
theorem C44_count_error (cfg : Cfg) (ctx : Context F) (x : Str) (e at_ : AST F) (s : F) (fxs fxhs : List (Value F))
    (hat : Finishes (fun n => eval cfg n at_ ctx) (.ok [.scalar s]))
    (hfx : Finishes (fun n => eval cfg n e (setVar ctx x s)) (.ok fxs))
    (hfxh : Finishes (fun n => eval cfg n e (setVar ctx x (FArith.add s (stepH F cfg)))) (.ok fxhs))
    (hlen : fxs.length ≠ fxhs.length) :
    ∃ msg, Finishes (fun n => eval cfg n (.derivative e x at_) ctx) (.err (.mathError msg)) := by
  obtain ⟨n, hn⟩ := derivative_eval cfg ctx x e at_ s fxs fxhs hat hfx hfxh
  refine ⟨"Amount of solutions for f(x) and f(x+h) are different!", by simp, n, ?_⟩
  beta_reduce
  rw [hn, if_pos hlen]

/-- C44: a point that is not a scalar is an error. -/
theorem C44_point_error (cfg : Cfg) (ctx : Context F) (x : Str) (e at_ : AST F) (v : Value F)
    (hat : Finishes (fun n => eval cfg n at_ ctx) (.ok [v])) (h : kind v ≠ .scalar) :
    ∃ msg, Finishes (fun n => eval cfg n (.derivative e x at_) ctx) (.err (.mathError msg)) := by
  obtain ⟨n1, h1⟩ := eval_mono hat
  refine ⟨"Only scalar values are allowed!", by simp, n1 + 1, ?_⟩
  have h1' := h1 n1 (Nat.le_refl _)
  unfold eval at h1' ⊢
  beta_reduce
  rw [evalRec.eq_def]
  simp only
  rw [h1', ok_bind, mapM_single]
  cases v <;> first | rfl | simp [kind] at h

/-! ## Exact arithmetic -/

variable {K : Type} [Field K] [LinearOrder K] [IsStrictOrderedRing K] [FloorRing K] [Exact F K]

theorem Spec.Computes.on {M : Type} {R : Value F → M → Prop} {cfg : Cfg} {ctx : Context F} {x : Str} {e : AST F} {m : Nat}
    {f : Fin m → K → M} (h : Computes R cfg ctx x e f) (S : K → Prop) : ComputesOn S R cfg ctx x e f :=
  fun p t hp _ => h p t hp

theorem integral_exact {M : Type} [AddCommMonoid M] [SMul K M] {R : Value F → M → Prop} (hR : Linear (K := K) R)
    (cfg : Cfg) (hprec : 3 ≤ cfg.prec) (ctx : Context F)
    (hd : NoDupVars ctx) (x : Str) (e lo hi : AST F) {m : Nat} (f : Fin m → K → M) {l u : Value F} {a b : K}
    (he : ComputesOn (SamplePoint (10 ^ (cfg.prec - 3)) (min a b) (max a b)) R cfg ctx x e f)
    (hlo : Finishes (fun n => eval cfg n lo ctx) (.ok [l])) (hl : IsScalar l a)
    (hhi : Finishes (fun n => eval cfg n hi ctx) (.ok [u])) (hu : IsScalar u b) (hab : a ≠ b) :
    ∃ vs, Finishes (fun n => eval cfg n (.integral e x lo hi) ctx) (.ok vs) ∧
      ListIs R vs fun i => riemann (10 ^ (cfg.prec - 3)) (f i) (min a b) (max a b) := by
  obtain ⟨l, rfl, hl⟩ := hl
  obtain ⟨u, rfl, hu⟩ := hu
  obtain ⟨n, hn⟩ := integral_single (e := e) (x := x) hlo hhi
  obtain ⟨r, n', hr, hr'⟩ := calculateIntegral_exact hR cfg hprec hd he hl hu hab
  refine ⟨r, ⟨by simp, max n n' + 1, ?_⟩, hr'⟩
  beta_reduce
  rw [hn _ (by omega), hr _ (by omega)]

/-- C41: the integral of an expression with `m` scalar values is, for each of them, the Riemann sum of
`10^(PREC-3)` points over the interval between the bounds. -/
theorem C41_integral (cfg : Cfg) (hprec : 3 ≤ cfg.prec) (ctx : Context F)
    (hd : NoDupVars ctx) (x : Str) (e lo hi : AST F) {m : Nat} (f : Fin m → K → K) {l u : Value F} {a b : K}
    (he : ComputesOn (SamplePoint (10 ^ (cfg.prec - 3)) (min a b) (max a b)) IsScalar cfg ctx x e f)
    (hlo : Finishes (fun n => eval cfg n lo ctx) (.ok [l])) (hl : IsScalar l a)
    (hhi : Finishes (fun n => eval cfg n hi ctx) (.ok [u])) (hu : IsScalar u b) (hab : a ≠ b) :
    ∃ vs, Finishes (fun n => eval cfg n (.integral e x lo hi) ctx) (.ok vs) ∧
      ListIs IsScalar vs fun i => riemann (10 ^ (cfg.prec - 3)) (f i) (min a b) (max a b) :=
  integral_exact linear_scalar cfg hprec ctx hd x e lo hi f he hlo hl hhi hu hab

/-- C41 for vector-valued integrands. -/
theorem C41_integral_vector (cfg : Cfg) (hprec : 3 ≤ cfg.prec) (ctx : Context F)
    (hd : NoDupVars ctx) (x : Str) (e lo hi : AST F) {m k : Nat} (f : Fin m → K → Fin k → K)
    {l u : Value F} {a b : K}
    (he : ComputesOn (SamplePoint (10 ^ (cfg.prec - 3)) (min a b) (max a b)) IsVector cfg ctx x e f)
    (hlo : Finishes (fun n => eval cfg n lo ctx) (.ok [l])) (hl : IsScalar l a)
    (hhi : Finishes (fun n => eval cfg n hi ctx) (.ok [u])) (hu : IsScalar u b) (hab : a ≠ b) :
    ∃ vs, Finishes (fun n => eval cfg n (.integral e x lo hi) ctx) (.ok vs) ∧
      ListIs IsVector vs fun i => riemann (10 ^ (cfg.prec - 3)) (f i) (min a b) (max a b) :=
  integral_exact linear_vector cfg hprec ctx hd x e lo hi f he hlo hl hhi hu hab

/-- C41 for matrix-valued integrands. -/
theorem C41_integral_matrix (cfg : Cfg) (hprec : 3 ≤ cfg.prec) (ctx : Context F)
    (hd : NoDupVars ctx) (x : Str) (e lo hi : AST F) {m r c : Nat} (f : Fin m → K → Matrix (Fin (r + 1)) (Fin c) K)
    {l u : Value F} {a b : K}
    (he : ComputesOn (SamplePoint (10 ^ (cfg.prec - 3)) (min a b) (max a b)) IsMatrix cfg ctx x e f)
    (hlo : Finishes (fun n => eval cfg n lo ctx) (.ok [l])) (hl : IsScalar l a)
    (hhi : Finishes (fun n => eval cfg n hi ctx) (.ok [u])) (hu : IsScalar u b) (hab : a ≠ b) :
    ∃ vs, Finishes (fun n => eval cfg n (.integral e x lo hi) ctx) (.ok vs) ∧
      ListIs IsMatrix vs fun i => riemann (10 ^ (cfg.prec - 3)) (f i) (min a b) (max a b) :=
  integral_exact linear_matrix cfg hprec ctx hd x e lo hi f he hlo hl hhi hu hab

theorem listIs_one {M : Type} {R : Value F → M → Prop} {vs : List (Value F)} {S : Fin 1 → M} (h : ListIs R vs S) :
    ∃ v, vs = [v] ∧ R v (S 0) := by
  unfold ListIs at h
  simp only [List.ofFn_succ, List.ofFn_zero] at h
  cases h with
  | cons h1 h2 =>
    cases h2
    exact ⟨_, rfl, h1⟩

theorem riemann_const (N : Nat) (hN : 0 < N) (c a b : K) : riemann N (fun _ => c) a b = c * (b - a) := by
  have hNK : (N : K) ≠ 0 := by exact_mod_cast hN.ne'
  simp only [riemann, List.map_const', List.length_range, List.sum_replicate, smul_eq_mul, nsmul_eq_mul]
  field_simp

theorem riemann_id (N : Nat) (hN : 0 < N) (a b : K) :
    riemann N (fun t => t) a b = (b ^ 2 - a ^ 2) / 2 - (b - a) / N * (b - a) := by
  have hNK : (N : K) ≠ 0 := by exact_mod_cast hN.ne'
  have hsum : ∀ (d : K) (n : Nat), ((List.range n).map fun (i : Nat) => a + ((i : K) - 1 / 2) * d).sum =
      n * a + d * ((n : K) ^ 2 / 2 - n) := by
    intro d n
    induction n with
    | zero => simp
    | succ n ih =>
      rw [List.range_succ, List.map_append, List.sum_append, ih]
      simp only [List.map_cons, List.map_nil, List.sum_cons, List.sum_nil, add_zero]
      push_cast
      ring
  unfold riemann
  rw [hsum, smul_eq_mul]
  field_simp
  ring

/-- C41: constants are integrated exactly: the result is `c * |b-a|`. -/
theorem C41_constant (cfg : Cfg) (hprec : 3 ≤ cfg.prec) (ctx : Context F) (hd : NoDupVars ctx) (x : Str) (e lo hi : AST F)
    (c : K) {l u : Value F} {a b : K}
    (he : ComputesOn (SamplePoint (10 ^ (cfg.prec - 3)) (min a b) (max a b)) IsScalar cfg ctx x e (fun (_ : Fin 1) _ => c))
    (hlo : Finishes (fun n => eval cfg n lo ctx) (.ok [l])) (hl : IsScalar l a)
    (hhi : Finishes (fun n => eval cfg n hi ctx) (.ok [u])) (hu : IsScalar u b) :
    ∃ v, Finishes (fun n => eval cfg n (.integral e x lo hi) ctx) (.ok [v]) ∧ IsScalar v (c * |b - a|) := by
  by_cases hab : a = b
  · obtain ⟨l, rfl, hl⟩ := hl
    obtain ⟨u, rfl, hu⟩ := hu
    refine ⟨_, C41_equal_bounds cfg ctx x e lo hi l u hlo hhi (by rw [Exact.beq_val hl hu]; simpa using hab), _, rfl, ?_⟩
    rw [val_zero, hab]
    simp
  · obtain ⟨vs, h1, h2⟩ := C41_integral cfg hprec ctx hd x e lo hi _ he hlo hl hhi hu hab
    obtain ⟨v, rfl, hv⟩ := listIs_one h2
    refine ⟨v, h1, ?_⟩
    rw [riemann_const _ (by positivity), max_sub_min_eq_abs] at hv
    exact hv

/-- C41: the result is not exact for `f(x) = x`: it is too small by `dx * (b-a)`, because the sample points are shifted
by one step (the first one lies below the lower bound). -/
theorem C41_identity (cfg : Cfg) (hprec : 3 ≤ cfg.prec) (ctx : Context F) (hd : NoDupVars ctx) (x : Str) (lo hi : AST F)
    {l u : Value F} {a b : K} (hlo : Finishes (fun n => eval cfg n lo ctx) (.ok [l])) (hl : IsScalar l a)
    (hhi : Finishes (fun n => eval cfg n hi ctx) (.ok [u])) (hu : IsScalar u b) (hab : a < b) :
    ∃ v, Finishes (fun n => eval cfg n (.integral (.variable x) x lo hi) ctx) (.ok [v]) ∧
      IsScalar v ((b ^ 2 - a ^ 2) / 2 - (b - a) / (10 ^ (cfg.prec - 3)) * (b - a)) := by
  have he : Computes (F := F) (K := K) IsScalar cfg ctx x (.variable x) (fun (_ : Fin 1) t => t) := by
    intro p t hp
    refine ⟨[.scalar p], ⟨by simp, 1, ?_⟩, ?_⟩
    · have : (setVar ctx x p).findVar x = some [.scalar p] := by
        have hnone : ctx.vars.find? (fun _ => false) = none := by simp [List.find?_eq_none]
        simp [setVar, Context.addVar, Context.findVar, List.find?_append, hnone]
      simp only [eval, evalRec, this]
    · simp only [ListIs, List.ofFn_succ, List.ofFn_zero]
      exact .cons ⟨p, rfl, hp⟩ .nil
  obtain ⟨vs, h1, h2⟩ := C41_integral cfg hprec ctx hd x _ lo hi _ (he.on _) hlo hl hhi hu hab.ne
  obtain ⟨v, rfl, hv⟩ := listIs_one h2
  refine ⟨v, h1, ?_⟩
  rw [min_eq_left hab.le, max_eq_right hab.le, riemann_id _ (by positivity)] at hv
  exact_mod_cast hv

/-- C42: swapping the bounds does not change anything: same outcome, no change of sign. -/
theorem C42_symmetric (cfg : Cfg) (ctx : Context F) (x : Str) (e lo hi : AST F)
    {l u : Value F} {a b : K} (hlo : Finishes (fun n => eval cfg n lo ctx) (.ok [l])) (hl : IsScalar l a)
    (hhi : Finishes (fun n => eval cfg n hi ctx) (.ok [u])) (hu : IsScalar u b) (r : Out EvalError (List (Value F))) :
    Finishes (fun n => eval cfg n (.integral e x lo hi) ctx) r ↔ Finishes (fun n => eval cfg n (.integral e x hi lo) ctx) r := by
  obtain ⟨l, rfl, hl⟩ := hl
  obtain ⟨u, rfl, hu⟩ := hu
  obtain ⟨n, hn⟩ := integral_single (e := e) (x := x) hlo hhi
  obtain ⟨m, hm⟩ := integral_single (e := e) (x := x) hhi hlo
  have hsame : ∀ (k : Nat), calculateIntegral cfg (fun a c => evalRec cfg k a c []) k e x (.scalar l) (.scalar u) ctx =
      calculateIntegral cfg (fun a c => evalRec cfg k a c []) k e x (.scalar u) (.scalar l) ctx := by
    intro k
    unfold calculateIntegral
    simp only [Exact.beq_val hl hu, Exact.beq_val hu hl, Exact.lt_val hl hu, Exact.lt_val hu hl]
    rcases lt_trichotomy a b with h | h | h
    · simp [h, h.ne, h.ne', not_lt.2 h.le]
    · simp [h]
    · simp [h, h.ne, h.ne', not_lt.2 h.le]
  constructor
  · intro h
    obtain ⟨k, hk⟩ := eval_mono h
    refine ⟨h.1, max k (max n m) + 1, ?_⟩
    beta_reduce
    rw [hm _ (by omega), ← hsame, ← hn _ (by omega)]
    exact hk _ (by omega)
  · intro h
    obtain ⟨k, hk⟩ := eval_mono h
    refine ⟨h.1, max k (max n m) + 1, ?_⟩
    beta_reduce
    rw [hn _ (by omega), hsame, ← hm _ (by omega)]
    exact hk _ (by omega)

theorem val_stepH (cfg : Cfg) : Exact.val (stepH F cfg) = some ((10 : K) ^ (-(cfg.prec : Int))) := by
  have h10 : Exact.val (FArith.ofInt 10 : F) = some (10 : K) := by simpa using Exact.val_ofInt (F := F) (K := K) 10
  exact Exact.val_powi h10 (Or.inr (by norm_num))

/-- C44: with exact arithmetic, each value of the derivative of an expression computing `f` is
`(f(a+h) - f(a)) / h`. -/
theorem C44_exact (cfg : Cfg) (ctx : Context F) (x : Str) (e at_ : AST F) {m : Nat} (f : Fin m → K → K) {p : Value F} {a : K}
    (he : ComputesOn (fun t => t = a ∨ t = a + (10 : K) ^ (-(cfg.prec : Int))) IsScalar cfg ctx x e f)
    (hat : Finishes (fun n => eval cfg n at_ ctx) (.ok [p])) (hp : IsScalar p a) :
    ∃ vs, Finishes (fun n => eval cfg n (.derivative e x at_) ctx) (.ok vs) ∧
      ListIs IsScalar vs fun i => (f i (a + (10 : K) ^ (-(cfg.prec : Int))) - f i a) / (10 : K) ^ (-(cfg.prec : Int)) := by
  obtain ⟨s, rfl, hs⟩ := hp
  obtain ⟨fxs, h1, h1'⟩ := he s a hs (Or.inl rfl)
  obtain ⟨fxhs, h2, h2'⟩ := he _ _ (Exact.val_add hs (val_stepH cfg)) (Or.inr rfl)
  have hpos : (10 : K) ^ (-(cfg.prec : Int)) ≠ 0 := zpow_ne_zero _ (by norm_num)
  have hlen : fxs.length = fxhs.length := by
    have e1 := h1'.length_eq
    have e2 := h2'.length_eq
    simp only [List.length_ofFn] at e1 e2
    omega
  have key : ∀ (A B : List K) (l r : List (Value F)), List.Forall₂ IsScalar l A → List.Forall₂ IsScalar r B →
      ∃ vs, List.Forall₂ (fun p v => diffQuotient (stepH F cfg) p.1 p.2 = .ok v) (l.zip r) vs ∧
        List.Forall₂ IsScalar vs (List.zipWith (fun x y => (y - x) / (10 : K) ^ (-(cfg.prec : Int))) A B) := by
    intro A B l r hA
    induction hA generalizing r B with
    | nil => intro _; exact ⟨[], by simp, by simp⟩
    | @cons u A0 l A hu hA ih =>
      intro hB
      cases hB with
      | nil => exact ⟨[], by simp, by simp⟩
      | @cons w B0 r B hw hB =>
        obtain ⟨vs, hv1, hv2⟩ := ih B r hB
        obtain ⟨d, hd, hd'⟩ := C30_difference.1 _ _ hw hu
        obtain ⟨q, hq, hq'⟩ := (C32_divide (a := d) (s := .scalar (stepH F cfg)) ⟨_, rfl, val_stepH cfg⟩ hpos).1 _ hd'
        refine ⟨q :: vs, ?_, ?_⟩
        · rw [List.zip_cons_cons]
          refine .cons ?_ hv1
          simp only [diffQuotient, hd, ok_bind, hq]
        · rw [List.zipWith_cons_cons]
          exact .cons hq' hv2
  obtain ⟨vs, hv1, hv2⟩ := key _ _ _ _ h1' h2'
  refine ⟨vs, C44_derivative cfg ctx x e at_ s fxs fxhs vs hat h1 h2 hlen hv1, ?_⟩
  unfold ListIs
  convert hv2 using 1
  apply List.ext_getElem <;> simp

/-- C44: affine functions are differentiated exactly. -/
theorem C44_affine (cfg : Cfg) (ctx : Context F) (x : Str) (e at_ : AST F) (c d : K)
    {p : Value F} {a : K}
    (he : ComputesOn (fun t => t = a ∨ t = a + (10 : K) ^ (-(cfg.prec : Int))) IsScalar cfg ctx x e
      (fun (_ : Fin 1) t => c * t + d))
    (hat : Finishes (fun n => eval cfg n at_ ctx) (.ok [p])) (hp : IsScalar p a) :
    ∃ v, Finishes (fun n => eval cfg n (.derivative e x at_) ctx) (.ok [v]) ∧ IsScalar v c := by
  obtain ⟨vs, h1, h2⟩ := C44_exact cfg ctx x e at_ _ he hat hp
  obtain ⟨v, rfl, hv⟩ := listIs_one h2
  refine ⟨v, h1, ?_⟩
  have hpos : (10 : K) ^ (-(cfg.prec : Int)) ≠ 0 := zpow_ne_zero _ (by norm_num)
  convert hv using 1
  field_simp
  ring

/-- C44: the derivative of a quadratic function is too large by `c * h`. -/
theorem C44_quadratic (cfg : Cfg) (ctx : Context F) (x : Str) (e at_ : AST F) (c : K)
    {p : Value F} {a : K}
    (he : ComputesOn (fun t => t = a ∨ t = a + (10 : K) ^ (-(cfg.prec : Int))) IsScalar cfg ctx x e
      (fun (_ : Fin 1) t => c * t ^ 2))
    (hat : Finishes (fun n => eval cfg n at_ ctx) (.ok [p])) (hp : IsScalar p a) :
    ∃ v, Finishes (fun n => eval cfg n (.derivative e x at_) ctx) (.ok [v]) ∧
      IsScalar v (2 * c * a + c * (10 : K) ^ (-(cfg.prec : Int))) := by
  obtain ⟨vs, h1, h2⟩ := C44_exact cfg ctx x e at_ _ he hat hp
  obtain ⟨v, rfl, hv⟩ := listIs_one h2
  refine ⟨v, h1, ?_⟩
  have hpos : (10 : K) ^ (-(cfg.prec : Int)) ≠ 0 := zpow_ne_zero _ (by norm_num)
  convert hv using 1
  field_simp
  ring

theorem scalar_finishes (cfg : Cfg) (ctx : Context F) (s : F) :
    Finishes (fun n => eval cfg n (.scalar s) ctx) (.ok [.scalar s]) := ⟨by simp, 1, rfl⟩

theorem computes_const (cfg : Cfg) (ctx : Context F) (x : Str) {s : F} {c : K} (hs : Exact.val s = some c) :
    Computes (F := F) (K := K) IsScalar cfg ctx x (.scalar s) (fun (_ : Fin 1) _ => c) := by
  intro p t _
  refine ⟨[.scalar s], scalar_finishes cfg _ s, ?_⟩
  simp only [ListIs, List.ofFn_succ, List.ofFn_zero]
  exact .cons ⟨s, rfl, hs⟩ .nil

/-- C42: in particular `I(1,x,1,0)` is 1, not -1: the usual rule is false of the code, for every precision. -/
theorem C42_negation_false (cfg : Cfg) (hprec : 3 ≤ cfg.prec) (x : Str) :
    ∃ v, Finishes (fun n => eval cfg n (.integral (.scalar (FArith.ofInt 1)) x (.scalar (FArith.ofInt 1)) (.scalar (FArith.ofInt 0)))
      (Context.empty : Context F)) (.ok [v]) ∧ IsScalar v (1 : K) := by
  have := C41_constant (K := K) cfg hprec (Context.empty : Context F) (by simp [NoDupVars, Context.empty]) x
    (.scalar (FArith.ofInt 1)) (.scalar (FArith.ofInt 1)) (.scalar (FArith.ofInt 0)) 1 ((computes_const cfg _ x val_one).on _)
    (scalar_finishes cfg _ _) ⟨_, rfl, val_one⟩ (scalar_finishes cfg _ _) ⟨_, rfl, val_zero⟩
  simpa using this

/-- The hypotheses are met by a function with two values, `x±1`, in a context that already has an `x`. -/
example (cfg : Cfg) : Computes (F := F) (K := K) IsScalar cfg ⟨[⟨['x'], [.vector []]⟩], []⟩ ['x']
    (.simple .addSub (.variable ['x']) (.scalar (FArith.ofInt 1))) (fun (i : Fin 2) t => if i = 0 then t + 1 else t - 1) := by
  intro p t hp
  refine ⟨[.scalar (FArith.add p (FArith.ofInt 1)), .scalar (FArith.add p (FArith.mul (FArith.ofInt 1) (FArith.ofInt (-1))))],
    ⟨by simp, 2, ?_⟩, ?_⟩
  · rfl
  · simp only [ListIs, List.ofFn_succ, List.ofFn_zero]
    refine .cons ⟨_, rfl, Exact.val_add hp val_one⟩ (.cons ⟨_, rfl, ?_⟩ .nil)
    rw [Exact.val_add hp (Exact.val_mul val_one val_minus_one)]
    simp [sub_eq_add_neg]

/-- C44 applies to `D(x*x, x, 3)`: the result is `6 + h`. -/
example (cfg : Cfg) (ctx : Context F) :
    ∃ v, Finishes (fun n => eval cfg n (.derivative (.simple .mult (.variable ['x']) (.variable ['x'])) ['x'] (.scalar (FArith.ofInt 3)))
      ctx) (.ok [v]) ∧ IsScalar v (2 * 1 * (3 : K) + 1 * (10 : K) ^ (-(cfg.prec : Int))) := by
  refine C44_quadratic cfg ctx ['x'] _ _ 1 ?_ (scalar_finishes cfg _ _) ⟨_, rfl, by simpa using Exact.val_ofInt (F := F) (K := K) 3⟩
  intro p t hp _
  refine ⟨[.scalar (FArith.mul p p)], ⟨by simp, 2, ?_⟩, ?_⟩
  · have : (setVar ctx ['x'] p).findVar ['x'] = some [.scalar p] := by
      have hnone : ctx.vars.find? (fun _ => false) = none := by simp [List.find?_eq_none]
      simp [setVar, Context.addVar, Context.findVar, List.find?_append, hnone]
    simp only [eval, evalRec, this, ok_bind, applyAll_single]
    rfl
  · simp only [ListIs, List.ofFn_succ, List.ofFn_zero]
    refine .cons ⟨_, rfl, ?_⟩ .nil
    rw [Exact.val_mul hp hp]
    congr 1
    ring

end

section
variable {K : Type} [Field K] [LinearOrder K] [IsStrictOrderedRing K] [FloorRing K]

/-- C43: in exact arithmetic (with infinities and NaN) the loop arrives after at most `10^(PREC-3)` steps, for all
bounds, the infinite ones included. -/
theorem C43_arrives (cfg : Cfg) (hprec : 3 ≤ cfg.prec) : StepsArrive (Ext K) cfg (10 ^ (cfg.prec - 3)) := by
  intro lb ub hlt
  have hN : 1 ≤ 10 ^ (cfg.prec - 3) := Nat.one_le_pow _ _ (by norm_num)
  have hpow : ∃ c : K, 0 < c ∧ FArith.powi (FArith.ofInt 10 : Ext K) ((cfg.prec : Int) - 3) = .fin c := by
    refine ⟨(10 : K) ^ ((cfg.prec : Int) - 3), zpow_pos (by norm_num) _, ?_⟩
    simp [FArith.powi, FArith.ofInt, Ext.powi, Ext.value, Ext.mk, Ext.signNeg]
  obtain ⟨c, hc, hpow⟩ := hpow
  have hdiv : FArith.div (.inf false : Ext K) (.fin c) = .inf false := by
    simp [FArith.div, Ext.div, Ext.signNeg, hc.le]
  cases hl : Ext.value lb with
  | some a =>
    cases hu : Ext.value ub with
    | some b =>
      have hl' : Exact.val lb = some a := hl
      have hu' : Exact.val ub = some b := hu
      have hab : a < b := by
        rw [Exact.lt_val hl' hu'] at hlt
        simpa using hlt
      refine ⟨_, Nat.le_refl _, ?_⟩
      rw [C43_steps cfg hprec hl' hu' hab]
      simp
    | none =>
      refine ⟨1, hN, ?_⟩
      cases ub with
      | fin x => simp [Ext.value] at hu
      | negZero => simp [Ext.value] at hu
      | nan => cases lb <;> simp [FArith.lt, Ext.lt] at hlt
      | inf s =>
        cases s with
        | true => cases lb <;> simp [FArith.lt, Ext.lt, Ext.value] at hlt hl
        | false =>
          have hsub : FArith.sub (.inf false) lb = (.inf false : Ext K) := by
            cases lb with
            | fin x => simp only [FArith.sub, Ext.sub, Ext.neg, Ext.mk]; split <;> rfl
            | negZero => rfl
            | inf b => simp [Ext.value] at hl
            | nan => simp [Ext.value] at hl
          have hadd : FArith.add lb (.inf false) = (.inf false : Ext K) := by
            cases lb with
            | fin x => rfl
            | negZero => rfl
            | inf b => simp [Ext.value] at hl
            | nan => simp [Ext.value] at hl
          simp only [stepFrom, hpow, hsub, hdiv, hadd]
          rfl
  | none =>
    refine ⟨1, hN, ?_⟩
    cases lb with
    | fin x => simp [Ext.value] at hl
    | negZero => simp [Ext.value] at hl
    | nan => simp [FArith.lt, Ext.lt] at hlt
    | inf s =>
      cases s with
      | false => cases ub <;> simp [FArith.lt, Ext.lt] at hlt
      | true =>
        have hsub : FArith.sub ub (.inf true) = (.inf false : Ext K) := by
          cases ub with
          | fin x => rfl
          | negZero => rfl
          | inf b => cases b <;> simp [FArith.lt, Ext.lt] at hlt <;> rfl
          | nan => simp [FArith.lt, Ext.lt] at hlt
        simp only [stepFrom, hpow, hsub, hdiv]
        cases ub <;> rfl

/-- C43, C24: in exact arithmetic every tree in a context whose functions are not cyclic finishes, however many
integrals, derivatives and equations it contains. -/
theorem C43_terminates [FElem (Ext K)] [FText (Ext K)] (cfg : Cfg) (hprec : 3 ≤ cfg.prec) :
    letI : FNum (Ext K) := {}
    ∀ (ctx : Context (Ext K)) (rank : Str → Nat), Acyclic True ctx.funs rank → ∀ (r : Nat) (b : AST (Ext K)),
      Ranked rank True r b → ∃ n, eval cfg n b ctx ≠ .timeout := by
  intro ctx rank hf r b hb
  letI : FNum (Ext K) := {}
  exact C24_terminates cfg True _ (fun _ => C43_arrives cfg hprec) ctx rank hf r b hb

end
end MUL
