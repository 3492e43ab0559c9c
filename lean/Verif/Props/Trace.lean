import Verif.Proofs.TraceFuel
import Verif.Proofs.ParserBuild
import Verif.Proofs.ParserFuel
import Verif.Props.ParserBasics
import Verif.Props.CalculusRules
import Verif.Num.RatText
/-!
# C91: what an evaluation prints
-/

set_option linter.unusedSectionVars false

namespace MUL
open Out Spec

/-- C91: the model with the printed lines computes the same as the model without them, for every budget. -/
theorem C91_same_results {F : Type} [FNum F] [UTable] (cfg : Cfg) (n : Nat) (b : AST F) (ctx : Context F) (text : Str) :
    (evalT cfg n b ctx).res = eval cfg n b ctx ∧ (quickEvalT cfg n text ctx).res = quickEval cfg n text ctx := by
  refine ⟨evalRecT_res cfg n b ctx [], ?_⟩
  unfold quickEvalT quickEval
  rw [Tr.res_bind]
  refine _root_.bind_congr fun b => ?_
  show (evalT cfg n b ctx).res.mapErr _ = _
  rw [evalT, evalRecT_res]
  rfl

theorem prints_from {F : Type} [FNum F] {cfg : Cfg} {b : AST F} {ctx : Context F} {o : List (Line F)} {r : Out EvalError (List (Value F))}
    (h : Prints (fun n => evalT cfg n b ctx) o r) : ∃ n, ∀ m ≥ n, evalT cfg m b ctx = ⟨o, r⟩ := by
  obtain ⟨hr, n, hn⟩ := h
  refine ⟨n, fun m hm => ?_⟩
  have hn' : evalRecT cfg n b ctx [] = ⟨o, r⟩ := hn
  rcases evalRecT_le cfg hm b ctx [] with h | h
  · rw [hn'] at h; exact absurd h hr
  · show evalRecT cfg m b ctx [] = _
    rw [← h, hn']

theorem finishes_of_prints {F : Type} [FNum F] {cfg : Cfg} {b : AST F} {ctx : Context F} {o : List (Line F)}
    {r : Out EvalError (List (Value F))} (h : Prints (fun n => evalT cfg n b ctx) o r) : Finishes (fun n => eval cfg n b ctx) r := by
  obtain ⟨hr, n, hn⟩ := h
  refine ⟨hr, n, ?_⟩
  have := evalRecT_res cfg n b ctx []
  have hn : evalRecT cfg n b ctx [] = _ := hn
  rw [hn] at this
  exact this.symm

/-- C91: every evaluation that finishes prints certain lines, and only those: they do not depend on the budget. -/
theorem C91_determined {F : Type} [FNum F] (cfg : Cfg) (b : AST F) (ctx : Context F) (r : Out EvalError (List (Value F)))
    (h : Finishes (fun n => eval cfg n b ctx) r) : ∃! o, Prints (fun n => evalT cfg n b ctx) o r := by
  obtain ⟨hr, n, hn⟩ := h
  have hn : eval cfg n b ctx = r := hn
  refine ⟨(evalT cfg n b ctx).out, ⟨hr, n, ?_⟩, fun o ho => ?_⟩
  · have := (evalRecT_res cfg n b ctx [])
    beta_reduce
    rw [← hn, eval, ← this]
    rfl
  · obtain ⟨m, hm⟩ := prints_from ho
    have h1 := hm (max n m) (by omega)
    have h2 : evalT cfg (max n m) b ctx = evalT cfg n b ctx := by
      rcases evalRecT_le cfg (Nat.le_max_left n m) b ctx [] with h | h
      · rw [evalRecT_res] at h; exact absurd (hn.symm.trans h) hr
      · exact h.symm
    rw [← h2, h1]

/-- C91: without integrals, in the expression and in the functions of the context, nothing is printed, whatever happens. -/
theorem C91_silent {F : Type} [FNum F] (cfg : Cfg) (n : Nat) (b : AST F) (ctx : Context F) (h : NoIntegral b)
    (hf : ∀ f ∈ ctx.funs, NoIntegral f.ast) : (evalT cfg n b ctx).out = [] :=
  evalRecT_quiet cfg hf n h ctx.vars []

theorem builds_noIntegral (F : Type) : Builds (NoIntegral (F := F)) NoIntegral False where
  scalar := .scalar
  name := .variable
  vector := .vector
  matrix := .matrix
  list := .list
  function := .function
  simple := .simple
  prefixOp op l s h := .simple op l _ h (.scalar s)
  emptyLeft op s r h := .simple op _ r (.scalar s) h
  integral h := h.elim
  derivative := .derivative
  equation := .equation
  row v h := by cases h with | vector _ h => exact h

/-- A text without the letter `I` is read as an expression without integrals. -/
theorem C91_no_letter {F : Type} [FArith F] [UTable] (cfg : Cfg) (text : Str) (h : 'I' ∉ text) (b : AST F) (hb : parse cfg text = .ok b) :
    NoIntegral b := by
  have key : Out.Post False NoIntegral (parse cfg text : Out ParserError (AST F)) := by
    unfold parse
    refine parseInner_ind cfg (fun s => 'I' ∉ s) (fun s t hs ht hI => hs (ht hI)) (Out.Post False NoIntegral) (.err .emptyExpr)
      trivial (fun rec hrec s hs => built_step (builds_noIntegral F) (fun hI => ?_) hrec) _ (fun hI => h (mem_stripBlanks hI))
    obtain ⟨t, ht⟩ := List.isPrefixOf_iff_prefix.1 hI
    apply hs
    rw [← ht]
    simp
  rw [hb] at key
  exact key

/-- C91: `quick_eval` of a text without the letter `I`, in a context whose functions have no integrals, prints nothing. -/
theorem C91_silent_text {F : Type} [FNum F] [UTable] (cfg : Cfg) (n : Nat) (text : Str) (ctx : Context F) (h : 'I' ∉ text)
    (hf : ∀ f ∈ ctx.funs, NoIntegral f.ast) : (quickEvalT cfg n text ctx).out = [] := by
  unfold quickEvalT
  refine Tr.Quiet.bind (Tr.Quiet.lift _) fun b hb => ?_
  rw [Tr.res_lift] at hb
  have hb' : parse cfg text = .ok b := by
    revert hb
    cases (parse cfg text : Out ParserError (AST F)) <;> simp [Out.mapErr]
  exact C91_silent cfg n b ctx (C91_no_letter cfg text h b hb') hf

section
variable {F : Type} [FNum F]

theorem out_mapM {L ε α β : Type} {f : α → Tr L ε β} {l : List α} {r : List β} (h : (Tr.mapM f l).res = .ok r) :
    (Tr.mapM f l).out = l.flatMap fun a => (f a).out := by
  induction l generalizing r with
  | nil => rfl
  | cons a l ih =>
    have hb : Tr.mapM f (a :: l) = f a >>= fun b => Tr.mapM f l >>= fun bs => ⟨[], .ok (b :: bs)⟩ := rfl
    rw [hb] at h ⊢
    rw [Tr.res_bind, bind_eq_ok] at h
    obtain ⟨b, h1, h2⟩ := h
    rw [Tr.res_bind, bind_eq_ok] at h2
    obtain ⟨bs, h3, h4⟩ := h2
    rw [Tr.bind_ok h1, Tr.bind_ok h3, ih h3, List.flatMap_cons, List.append_nil]

theorem integralLoopT_quiet {ev : EvaluatorT F} {e : AST F} {funs : List (Function F)} (h : ∀ vars, Tr.Quiet (ev e ⟨vars, funs⟩)) (x : Str)
    (vars : List (Variable F)) (ub dx : F) (n : Nat) (b : F) (sums : List (Value F)) :
    Tr.Quiet (integralLoopT ev e x vars funs ub dx n b sums) := by
  induction n generalizing b sums with
  | zero => exact Tr.Quiet.lift _
  | succ n ih =>
    unfold integralLoopT
    split
    · exact Tr.Quiet.bind (h _) fun _ _ => Tr.Quiet.bind (Tr.Quiet.lift _) fun _ _ => ih _ _
    · exact Tr.Quiet.lift _

/-- What one pair of bounds prints. -/
theorem calculateIntegralT_out (cfg : Cfg) {ev : EvaluatorT F} {n : Nat} {e : AST F} {x : Str} {l u : Value F} {ctx : Context F}
    {vs : List (Value F)} (h : (calculateIntegralT cfg ev n e x l u ctx).res = .ok vs) :
    ∃ a b, l = .scalar a ∧ u = .scalar b ∧
      (FArith.beq a b = true → (calculateIntegralT cfg ev n e x l u ctx).out = [] ∧ vs = [.scalar (FArith.ofInt 0)]) ∧
      (FArith.beq a b = false → ∃ pre sums, (calculateIntegralT cfg ev n e x l u ctx).out = pre ++ [sums] ∧ scaled cfg a b sums = .ok vs ∧
        ((∀ vars, Tr.Quiet (ev e ⟨vars, ctx.funs⟩)) → pre = [])) := by
  cases l with
  | scalar a =>
    cases u with
    | scalar b =>
      refine ⟨a, b, rfl, rfl, fun hab => ?_, fun hab => ?_⟩
      · simp only [calculateIntegralT, hab, if_true, Tr.res_lift, Tr.out_lift] at h ⊢
        cases h
        exact ⟨trivial, rfl⟩
      · simp only [calculateIntegralT, hab, Bool.false_eq_true, if_false] at h ⊢
        rw [Tr.res_bind, bind_eq_ok] at h
        obtain ⟨sums, h1, h2⟩ := h
        rw [Tr.bind_ok h1]
        exact ⟨_, sums, rfl, h2, fun hq => integralLoopT_quiet hq _ _ _ _ _ _ _⟩
    | vector v => cases h
    | matrix v => cases h
  | vector v => cases h
  | matrix v => cases h

/-- The budgets of the bounds and of the integral put together. -/
theorem integral_budget {cfg : Cfg} {ctx : Context F} {x : Str} {e lo hi : AST F} {ls us vs : List (Value F)} {o1 o2 : List (Line F)}
    (hlo : Prints (fun n => evalT cfg n lo ctx) o1 (.ok ls)) (hhi : Prints (fun n => evalT cfg n hi ctx) o2 (.ok us))
    (h : Finishes (fun n => eval cfg n (.integral e x lo hi) ctx) (.ok vs)) :
    ∃ n, evalRecT cfg n lo ctx [] = ⟨o1, .ok ls⟩ ∧ evalRecT cfg n hi ctx [] = ⟨o2, .ok us⟩ ∧
      (evalRecT cfg (n + 1) (.integral e x lo hi) ctx []).res = .ok vs := by
  obtain ⟨n1, h1⟩ := prints_from hlo
  obtain ⟨n2, h2⟩ := prints_from hhi
  obtain ⟨n3, h3⟩ := eval_mono h
  refine ⟨n1 + n2 + n3, h1 _ (by omega), h2 _ (by omega), ?_⟩
  rw [evalRecT_res]
  exact h3 _ (by omega)

theorem bind_eta {L ε α β : Type} {x : Tr L ε α} {o : List L} {a : α} (h : x = ⟨o, .ok a⟩) (f : α → Tr L ε β) :
    (x >>= f).res = (f a).res ∧ (x >>= f).out = o ++ (f a).out := by
  subst h
  exact ⟨rfl, rfl⟩

theorem integral_out {cfg : Cfg} {ctx : Context F} {x : Str} {e lo hi : AST F} {ls us vs : List (Value F)} {o1 o2 : List (Line F)} {n : Nat}
    (h1 : evalRecT cfg n lo ctx [] = ⟨o1, .ok ls⟩) (h2 : evalRecT cfg n hi ctx [] = ⟨o2, .ok us⟩)
    (h3 : (evalRecT cfg (n + 1) (.integral e x lo hi) ctx []).res = .ok vs) :
    (∀ p ∈ pairs ls us, ∃ r, (calculateIntegralT cfg (fun a c => evalRecT cfg n a c []) n e x p.1 p.2 ctx).res = .ok r ∧
      (ls.length = 1 → us.length = 1 → vs = r)) ∧
    (evalRecT cfg (n + 1) (.integral e x lo hi) ctx []).out = o1 ++ (o2 ++ (pairs ls us).flatMap fun p =>
        (calculateIntegralT cfg (fun a c => evalRecT cfg n a c []) n e x p.1 p.2 ctx).out) := by
  rw [evalRecT] at h3 ⊢
  rw [(bind_eta h1 _).1, (bind_eta h2 _).1, Tr.res_bind, bind_eq_ok] at h3
  obtain ⟨rs, h4, h5⟩ := h3
  have h5 : .ok rs.flatten = Out.ok (ε := EvalError) vs := h5
  rw [(bind_eta h1 _).2, (bind_eta h2 _).2, Tr.bind_ok h4, out_mapM h4, Tr.out_lift, List.append_nil]
  rw [Tr.res_mapM, mapM_eq_ok] at h4
  have h6 : ∀ l ∈ ls, ∃ r, ((Tr.mapM (fun j => calculateIntegralT cfg (fun a c => evalRecT cfg n a c []) n e x l j ctx) us) >>= fun r =>
      (Tr.lift (.ok r.flatten) : Tr (Line F) EvalError (List (Value F)))).res = .ok r ∧ (ls.length = 1 → vs = r) := by
    intro l hl
    obtain ⟨i, hi, rfl⟩ := List.getElem_of_mem hl
    have hlen := h4.length_eq
    refine ⟨rs[i]'(by omega), List.forall₂_iff_get.1 h4 |>.2 i hi (by omega), fun h => ?_⟩
    obtain ⟨r, rfl⟩ : ∃ r, rs = [r] := List.length_eq_one_iff.1 (by omega)
    have : i = 0 := by omega
    subst this
    simpa using h5.symm
  have h7 : ∀ l ∈ ls, ∃ rr, (Tr.mapM (fun j => calculateIntegralT cfg (fun a c => evalRecT cfg n a c []) n e x l j ctx) us).res = .ok rr ∧
      (ls.length = 1 → vs = rr.flatten) := by
    intro l hl
    obtain ⟨r, hr, hv⟩ := h6 l hl
    rw [Tr.res_bind, bind_eq_ok] at hr
    obtain ⟨rr, h8, h9⟩ := hr
    have h9 : Out.ok (ε := EvalError) rr.flatten = .ok r := h9
    cases h9
    exact ⟨rr, h8, hv⟩
  refine ⟨fun p hp => ?_, ?_⟩
  · obtain ⟨l, hl, hp⟩ := List.mem_flatMap.1 hp
    obtain ⟨u, hu, rfl⟩ := List.mem_map.1 hp
    obtain ⟨rr, h8, hv⟩ := h7 l hl
    rw [Tr.res_mapM, mapM_eq_ok] at h8
    have hlen := h8.length_eq
    obtain ⟨i, hi, rfl⟩ := List.getElem_of_mem hu
    refine ⟨rr[i]'(by omega), List.forall₂_iff_get.1 h8 |>.2 i hi (by omega), fun h h' => ?_⟩
    obtain ⟨r, rfl⟩ : ∃ r, rr = [r] := List.length_eq_one_iff.1 (by omega)
    have : i = 0 := by omega
    subst this
    simpa using hv h
  · rw [pairs, List.flatMap_assoc]
    congr 2
    refine List.flatMap_congr fun l hl => ?_
    obtain ⟨rr, h8, -⟩ := h7 l hl
    rw [Tr.bind_ok h8, out_mapM h8, List.flatMap_map, Tr.out_lift, List.append_nil]

/-- C91: an integral prints one line for every pair of values of its bounds that are not equal, after what the evaluation of the bounds
prints, if the integrand prints nothing. -/
theorem C91_lines (cfg : Cfg) (ctx : Context F) (x : Str) (e lo hi : AST F) (ls us vs : List (Value F)) (o1 o2 : List (Line F))
    (he : NoIntegral e) (hf : ∀ f ∈ ctx.funs, NoIntegral f.ast)
    (hlo : Prints (fun n => evalT cfg n lo ctx) o1 (.ok ls)) (hhi : Prints (fun n => evalT cfg n hi ctx) o2 (.ok us))
    (h : Finishes (fun n => eval cfg n (.integral e x lo hi) ctx) (.ok vs)) :
    ∃ lines, Prints (fun n => evalT cfg n (.integral e x lo hi) ctx) (o1 ++ o2 ++ lines) (.ok vs) ∧
      lines.length = ((pairs ls us).filter fun p => !sameBounds p).length := by
  obtain ⟨n, h1, h2, h3⟩ := integral_budget hlo hhi h
  obtain ⟨h4, h5⟩ := integral_out h1 h2 h3
  refine ⟨(pairs ls us).flatMap fun p => (calculateIntegralT cfg (fun a c => evalRecT cfg n a c []) n e x p.1 p.2 ctx).out,
    ⟨by simp, n + 1, ?_⟩, ?_⟩
  · show evalRecT cfg (n + 1) _ ctx [] = _
    rw [List.append_assoc, ← h5, ← h3]
  · clear h5
    generalize pairs ls us = ps at h4
    induction ps with
    | nil => rfl
    | cons p ps ih =>
      rw [List.flatMap_cons, List.length_append, ih fun q hq => h4 q (by simp [hq]), List.filter_cons]
      obtain ⟨r, hr, -⟩ := h4 p (by simp)
      obtain ⟨a, b, ha, hb, hsame, hdiff⟩ := calculateIntegralT_out cfg hr
      have hp : sameBounds p = FArith.beq a b := by
        rw [show p = (p.1, p.2) from rfl, ha, hb]
        rfl
      rw [hp]
      cases hab : FArith.beq a b with
      | true =>
        rw [(hsame hab).1]
        simp
      | false =>
        obtain ⟨pre, sums, ho, -, hpre⟩ := hdiff hab
        rw [ho, hpre fun vars => evalRecT_quiet cfg hf n he vars []]
        simp [Nat.add_comm]

/-- C91: an integral between two numbers that are not equal prints, as its last line, the sums that are multiplied with the width of a
slice to give its result. -/
theorem C91_sums (cfg : Cfg) (ctx : Context F) (x : Str) (e lo hi : AST F) (a b : F) (vs : List (Value F)) (o1 o2 : List (Line F))
    (hlo : Prints (fun n => evalT cfg n lo ctx) o1 (.ok [.scalar a])) (hhi : Prints (fun n => evalT cfg n hi ctx) o2 (.ok [.scalar b]))
    (hab : FArith.beq a b = false) (h : Finishes (fun n => eval cfg n (.integral e x lo hi) ctx) (.ok vs)) :
    ∃ pre sums, Prints (fun n => evalT cfg n (.integral e x lo hi) ctx) (o1 ++ o2 ++ pre ++ [sums]) (.ok vs) ∧ scaled cfg a b sums = .ok vs ∧
      (NoIntegral e → (∀ f ∈ ctx.funs, NoIntegral f.ast) → pre = []) := by
  obtain ⟨n, h1, h2, h3⟩ := integral_budget hlo hhi h
  obtain ⟨h4, h5⟩ := integral_out h1 h2 h3
  obtain ⟨r, hr, hv⟩ := h4 (.scalar a, .scalar b) (by simp [pairs])
  obtain ⟨a', b', ha, hb, -, hdiff⟩ := calculateIntegralT_out cfg hr
  cases ha; cases hb
  obtain ⟨pre, sums, ho, hs, hpre⟩ := hdiff hab
  have hv := hv rfl rfl
  subst hv
  refine ⟨pre, sums, ⟨by simp, n + 1, ?_⟩, hs, fun he hf => hpre fun vars => evalRecT_quiet cfg hf n he vars []⟩
  show evalRecT cfg (n + 1) _ ctx [] = _
  have ho' : (evalRecT cfg (n + 1) (.integral e x lo hi) ctx []).out = o1 ++ o2 ++ pre ++ [sums] := by
    rw [h5]
    simp [pairs, ho]
  rw [← ho', ← h3]

/-- C91: an integral whose bounds are equal prints nothing itself. -/
theorem C91_equal_bounds (cfg : Cfg) (ctx : Context F) (x : Str) (e lo hi : AST F) (a b : F) (o1 o2 : List (Line F))
    (hlo : Prints (fun n => evalT cfg n lo ctx) o1 (.ok [.scalar a])) (hhi : Prints (fun n => evalT cfg n hi ctx) o2 (.ok [.scalar b]))
    (hab : FArith.beq a b = true) :
    Prints (fun n => evalT cfg n (.integral e x lo hi) ctx) (o1 ++ o2) (.ok [.scalar (FArith.ofInt 0)]) := by
  obtain ⟨n, h1, h2, h3⟩ := integral_budget hlo hhi (C41_equal_bounds cfg ctx x e lo hi a b (finishes_of_prints hlo)
    (finishes_of_prints hhi) hab)
  obtain ⟨h4, h5⟩ := integral_out h1 h2 h3
  obtain ⟨r, hr, hv⟩ := h4 (.scalar a, .scalar b) (by simp [pairs])
  obtain ⟨a', b', ha, hb, hsame, -⟩ := calculateIntegralT_out cfg hr
  cases ha; cases hb
  refine ⟨by simp, n + 1, ?_⟩
  show evalRecT cfg (n + 1) _ ctx [] = _
  have ho' : (evalRecT cfg (n + 1) (.integral e x lo hi) ctx []).out = o1 ++ o2 := by
    rw [h5]
    simp [pairs, (hsame hab).1]
  rw [← ho', ← h3]

/-- C91: a derivative prints what its expression prints at the point and at the point plus the step. -/
theorem C91_derivative (cfg : Cfg) (ctx : Context F) (x : Str) (e at_ : AST F) (s : F) (fxs fxhs vs : List (Value F)) (o1 o2 o3 : List (Line F))
    (hat : Prints (fun n => evalT cfg n at_ ctx) o1 (.ok [.scalar s]))
    (hfx : Prints (fun n => evalT cfg n e (setVar ctx x s)) o2 (.ok fxs))
    (hfxh : Prints (fun n => evalT cfg n e (setVar ctx x (FArith.add s (stepH F cfg)))) o3 (.ok fxhs))
    (h : Finishes (fun n => eval cfg n (.derivative e x at_) ctx) (.ok vs)) :
    Prints (fun n => evalT cfg n (.derivative e x at_) ctx) (o1 ++ o2 ++ o3) (.ok vs) := by
  obtain ⟨n1, h1⟩ := prints_from hat
  obtain ⟨n2, h2⟩ := prints_from hfx
  obtain ⟨n3, h3⟩ := prints_from hfxh
  obtain ⟨n4, h4⟩ := eval_mono h
  obtain ⟨n, hn⟩ : ∃ n, n = n1 + n2 + n3 + n4 := ⟨_, rfl⟩
  have h1 : evalRecT cfg n at_ ctx [] = _ := h1 n (by omega)
  have h2 : evalRecT cfg n e (setVar ctx x s) [] = _ := h2 n (by omega)
  have h3 : evalRecT cfg n e (setVar ctx x (FArith.add s (stepH F cfg))) [] = _ := h3 n (by omega)
  have h4 : eval cfg (n + 1) (.derivative e x at_) ctx = _ := h4 (n + 1) (by omega)
  have h4' : (evalRecT cfg (n + 1) (.derivative e x at_) ctx []).res = .ok vs := by rw [evalRecT_res]; exact h4
  have hc1 : (dropVar ctx x).addVar ⟨x, [.scalar s]⟩ = setVar ctx x s := by
    rw [dropVar_eq]
    simp [setVar, Context.addVar, Context.removeVar, List.filter_filter]
  have hc2 : ∀ q : F, ((setVar ctx x s).removeVar x).addVar ⟨x, [.scalar q]⟩ = setVar ctx x q := by
    intro q
    simp [setVar, Context.addVar, Context.removeVar, List.filter_filter]
  have ho : (evalRecT cfg (n + 1) (.derivative e x at_) ctx []).out = o1 ++ o2 ++ o3 := by
    rw [evalRecT] at h4' ⊢
    rw [(bind_eta h1 _).1, Tr.res_bind, bind_eq_ok] at h4'
    obtain ⟨rs, h5, -⟩ := h4'
    rw [(bind_eta h1 _).2, Tr.bind_ok h5, out_mapM h5, Tr.out_lift, List.append_nil, List.flatMap_cons, List.flatMap_nil, List.append_nil,
      List.append_assoc]
    simp only [calculateDerivativeT, hc1, hc2]
    rw [show FArith.powi (FArith.ofInt 10) (-(cfg.prec : Int)) = stepH F cfg from rfl, (bind_eta h2 _).2, (bind_eta h3 _).2]
    have hq : ∀ t : Tr (Line F) EvalError (List (Value F)), Tr.Quiet t → o1 ++ (o2 ++ (o3 ++ t.out)) = o1 ++ (o2 ++ o3) := by
      intro t ht
      rw [show t.out = [] from ht, List.append_nil]
    apply hq
    split
    · exact Tr.Quiet.lift _
    · exact Tr.Quiet.bind (Tr.Quiet.mapM _ fun i _ => Tr.Quiet.bind (Tr.Quiet.lift _) fun _ _ => Tr.Quiet.bind (Tr.Quiet.lift _) fun _ _ =>
        dq_quiet cfg _ _ n _ []) fun _ _ => Tr.Quiet.lift _
  refine ⟨by simp, n + 1, ?_⟩
  show evalRecT cfg (n + 1) _ ctx [] = _
  rw [← ho, ← h4']

end

/-! ## concrete cases, on exact rational numbers -/

attribute [local instance] UTable.ascii

/-- `I(x, x, 0, 1)` in the empty context prints exactly one line. -/
example : ∃ sums vs, Prints (fun n => evalT Cfg.default n
      (.integral (.variable ['x']) ['x'] (.scalar (FArith.ofInt 0)) (.scalar (FArith.ofInt 1)) : AST Q) Context.empty) [sums] (.ok vs) ∧
    scaled Cfg.default (FArith.ofInt 0 : Q) (FArith.ofInt 1) sums = .ok vs := by
  have hx : Gives (fun _ => True) Cfg.default (Context.empty : Context Q) ['x'] (.variable ['x']) (fun t : ℚ => t) := by
    rw [gives_iff]
    intro p t hp _
    exact ⟨.scalar p, ⟨by simp, 1, rfl⟩, p, rfl, hp⟩
  have hlo : Number Cfg.default (Context.empty : Context Q) (.scalar (FArith.ofInt 0)) (0 : ℚ) :=
    ⟨_, ⟨by simp, 1, rfl⟩, _, rfl, by simpa using Exact.val_ofInt (F := Q) (K := ℚ) 0⟩
  have hhi : Number Cfg.default (Context.empty : Context Q) (.scalar (FArith.ofInt 1)) (1 : ℚ) :=
    ⟨_, ⟨by simp, 1, rfl⟩, _, rfl, by simpa using Exact.val_ofInt (F := Q) (K := ℚ) 1⟩
  obtain ⟨w, hw, -⟩ := number_integral Cfg.default (by decide) (Context.empty : Context Q) (by simp [NoDupVars, Context.empty]) ['x']
    (.variable ['x']) _ _ (fun t : ℚ => t) (fun p t hp _ => hx p t hp trivial) hlo hhi
  obtain ⟨pre, sums, hp, hs, hpre⟩ := C91_sums Cfg.default (Context.empty : Context Q) ['x'] (.variable ['x']) _ _ (FArith.ofInt 0)
    (FArith.ofInt 1) _ [] [] ⟨by simp, 1, rfl⟩ ⟨by simp, 1, rfl⟩ (by decide +kernel) hw
  rw [hpre (.variable _) nofun] at hp
  exact ⟨sums, _, hp, hs⟩

/-- `I(x, x, 2, 2)` prints nothing. -/
example : Prints (fun n => evalT Cfg.default n
      (.integral (.variable ['x']) ['x'] (.scalar (FArith.ofInt 2)) (.scalar (FArith.ofInt 2)) : AST Q) Context.empty) []
      (.ok [.scalar (FArith.ofInt 0)]) :=
  C91_equal_bounds Cfg.default Context.empty ['x'] _ _ _ (FArith.ofInt 2) (FArith.ofInt 2) [] [] ⟨by simp, 1, rfl⟩ ⟨by simp, 1, rfl⟩
    (by decide +kernel)

/-- `D(x^2, x, 3) + det(A)` is quiet with every budget. -/
example (n : Nat) (ctx : Context Q) (hf : ctx.funs = []) : (quickEvalT Cfg.default n "D(x^2, x, 3)+det(A)".toList ctx).out = [] :=
  C91_silent_text _ _ _ _ (by decide) (by rw [hf]; nofun)

end MUL
