import Verif.Model.Trace
import Verif.Spec.Eval
import Verif.Spec.Trace
import Verif.Proofs.EvalTerm
/-!
# The evaluation with its output
-/

set_option linter.unusedSectionVars false

namespace MUL
open Out Spec

namespace Tr
variable {L ε α β : Type}

@[simp] theorem res_lift (x : Out ε α) : (Tr.lift x : Tr L ε α).res = x := rfl
@[simp] theorem out_lift (x : Out ε α) : (Tr.lift x : Tr L ε α).out = [] := rfl

@[simp] theorem res_bind (x : Tr L ε α) (f : α → Tr L ε β) : (x >>= f).res = x.res >>= fun a => (f a).res := by
  show (Tr.bind x f).res = _
  unfold Tr.bind
  cases x.res <;> rfl

theorem bind_ok {x : Tr L ε α} {f : α → Tr L ε β} {a : α} (h : x.res = .ok a) : (x >>= f).out = x.out ++ (f a).out := by
  show (Tr.bind x f).out = _
  unfold Tr.bind
  rw [h]

theorem bind_stop {x : Tr L ε α} {f : α → Tr L ε β} (h : ∀ a, x.res ≠ .ok a) : (x >>= f).out = x.out := by
  show (Tr.bind x f).out = _
  unfold Tr.bind
  cases hx : x.res with
  | ok a => exact absurd hx (h a)
  | err e => rfl
  | panic => rfl
  | timeout => rfl

@[simp] theorem res_mapM (f : α → Tr L ε β) (l : List α) : (Tr.mapM f l).res = l.mapM fun a => (f a).res := by
  induction l with
  | nil => rfl
  | cons a l ih =>
    rw [List.mapM_cons]
    show (f a >>= fun b => Tr.mapM f l >>= fun bs => (⟨[], .ok (b :: bs)⟩ : Tr L ε (List β))).res = _
    rw [res_bind]
    simp only [res_bind, ih]
    rfl

/-- The call prints nothing. -/
def Quiet (x : Tr L ε α) : Prop := x.out = []

theorem Quiet.lift (x : Out ε α) : Quiet (Tr.lift x : Tr L ε α) := rfl

theorem Quiet.bind {x : Tr L ε α} {f : α → Tr L ε β} (h : Quiet x) (hf : ∀ a, x.res = .ok a → Quiet (f a)) : Quiet (x >>= f) := by
  unfold Quiet at *
  cases hx : x.res with
  | ok a => rw [bind_ok hx, h, hf a hx]; rfl
  | err e => rw [bind_stop (by simp [hx]), h]
  | panic => rw [bind_stop (by simp [hx]), h]
  | timeout => rw [bind_stop (by simp [hx]), h]

theorem Quiet.mapM {f : α → Tr L ε β} (l : List α) (h : ∀ a ∈ l, Quiet (f a)) : Quiet (Tr.mapM f l) := by
  induction l with
  | nil => rfl
  | cons a l ih =>
    exact Quiet.bind (h a (by simp)) fun _ _ => Quiet.bind (ih fun b hb => h b (by simp [hb])) fun _ _ => rfl

end Tr

section
variable {F : Type} [FNum F]

/-! ## the results are the same -/

/-- The evaluator without the output. -/
abbrev quietly (ev : EvaluatorT F) : Evaluator F := fun a c => (ev a c).res

theorem integralLoopT_res (ev : EvaluatorT F) (e : AST F) (x : Str) (vars : List (Variable F)) (funs : List (Function F)) (ub dx : F)
    (n : Nat) (b : F) (sums : List (Value F)) :
    (integralLoopT ev e x vars funs ub dx n b sums).res = integralLoop (quietly ev) e x vars funs ub dx n b sums := by
  induction n generalizing b sums with
  | zero => rfl
  | succ n ih =>
    simp only [integralLoopT, integralLoop]
    split
    · simp only [Tr.res_bind, Tr.res_lift, ih]
    · rfl

theorem calculateIntegralT_res (cfg : Cfg) (ev : EvaluatorT F) (n : Nat) (e : AST F) (x : Str) (l u : Value F) (ctx : Context F) :
    (calculateIntegralT cfg ev n e x l u ctx).res = calculateIntegral cfg (quietly ev) n e x l u ctx := by
  cases l <;> cases u <;> try rfl
  simp only [calculateIntegralT, calculateIntegral]
  split
  · rfl
  · simp only [Tr.res_bind, Tr.res_lift, integralLoopT_res, Tr.print, Out.ok_bind]

theorem calculateDerivativeT_res (cfg : Cfg) (ev : EvaluatorT F) (e : AST F) (x : Str) (a : Value F) (ctx : Context F) :
    (calculateDerivativeT cfg ev e x a ctx).res = calculateDerivative cfg (quietly ev) e x a ctx := by
  cases a <;> try rfl
  simp only [calculateDerivativeT, calculateDerivative, Tr.res_bind]
  congr 1; funext fxs
  congr 1; funext fxhs
  split
  · rfl
  · simp only [Tr.res_bind, Tr.res_mapM, Tr.res_lift]

theorem calculateDerivativeNewtonT_res (cfg : Cfg) (ev : EvaluatorT F) (e : AST F) (x : Str) (a : Value F) (fx : Option (Value F)) (ctx : Context F) :
    (calculateDerivativeNewtonT cfg ev e x a fx ctx).res = calculateDerivativeNewton cfg (quietly ev) e x a fx ctx := by
  cases a <;> try rfl
  cases fx <;> simp only [calculateDerivativeNewtonT, calculateDerivativeNewton, Tr.res_bind, Tr.res_lift]

theorem jacobiAndGaussT_res (cfg : Cfg) (ev : EvaluatorT F) (es : List (AST F)) (x : List (Variable F)) (ctx : Context F) (fx : List F) :
    (jacobiAndGaussT cfg ev es x ctx fx).res = jacobiAndGauss cfg (quietly ev) es x ctx fx := by
  simp only [jacobiAndGaussT, jacobiAndGauss, Tr.res_bind, Tr.res_lift, Tr.res_mapM, calculateDerivativeNewtonT_res]

theorem evalScalarsT_res (ev : EvaluatorT F) (es : List (AST F)) (ctx : Context F) :
    (evalScalarsT ev es ctx).res = evalScalars (quietly ev) es ctx := by
  simp only [evalScalarsT, evalScalars, Tr.res_bind, Tr.res_lift, Tr.res_mapM]

theorem newtonT_res (cfg : Cfg) (ev : EvaluatorT F) (ss cs : List (AST F)) (x : List (Variable F)) (ctx : Context F) :
    (newtonT cfg ev ss cs x ctx).1.res = (newton cfg (quietly ev) ss cs x ctx).1 ∧
      (newtonT cfg ev ss cs x ctx).2 = (newton cfg (quietly ev) ss cs x ctx).2 := by
  simp only [newtonT, newton, evalScalarsT_res, jacobiAndGaussT_res]
  cases evalScalars (quietly ev) ss (addVars ctx x) with
  | ok fx =>
    dsimp only
    split
    · cases evalScalars (quietly ev) cs (addVars (removeVars (addVars ctx x) x) x) with
      | ok r =>
        dsimp only
        split
        · exact ⟨rfl, rfl⟩
        · split <;> exact ⟨rfl, rfl⟩
      | _ => exact ⟨rfl, rfl⟩
    · cases jacobiAndGauss cfg (quietly ev) ss x (removeVars (addVars ctx x) x) fx with
      | ok r =>
        dsimp only
        cases r.mapM (fun i => (Out.unwrap i.values[0]? : Out EvalError (Value F))) with
        | ok vs =>
          dsimp only
          split <;> exact ⟨rfl, rfl⟩
        | _ => exact ⟨rfl, rfl⟩
      | _ => exact ⟨rfl, rfl⟩
  | _ => exact ⟨rfl, rfl⟩

theorem newT_res (ev : EvaluatorT F) (es : List (AST F)) (ctx : Context F) (names : List Str) :
    (RootFinder.newT ev es ctx names).res = RootFinder.new (quietly ev) es ctx names := by
  unfold RootFinder.newT RootFinder.new
  split
  · rfl
  split
  · rfl
  split
  · rfl
  split
  · rfl
  simp only [Tr.res_bind, Tr.res_lift]
  congr 1; funext e0
  congr 1; funext r
  congr 1; funext v
  cases v <;> rfl

theorem solveLoop1T_res (cfg : Cfg) (ev : EvaluatorT F) (ss cs : List (AST F)) (n : Nat) (x : List (Variable F)) (ctx : Context F) :
    (solveLoop1T cfg ev ss cs n x ctx).res = solveLoop1 cfg (quietly ev) ss cs n x ctx := by
  induction n generalizing x ctx with
  | zero => rfl
  | succ n ih =>
    obtain ⟨h1, h2⟩ := newtonT_res cfg ev ss cs x ctx
    simp only [solveLoop1T, solveLoop1, h1, h2]
    rcases newton cfg (quietly ev) ss cs x ctx with ⟨a, b⟩
    cases a with
    | ok r =>
      cases r with
      | nextX x' => exact ih x' b
      | finishedX x' => rfl
    | err e => cases e <;> rfl
    | panic => rfl
    | timeout => rfl

theorem solveLoop0T_res (cfg : Cfg) (ev : EvaluatorT F) (ss cs : List (AST F)) (names : List Str) (js : List Int) (ctx : Context F)
    (res : List (Value F)) : (solveLoop0T cfg ev ss cs names js ctx res).res = solveLoop0 cfg (quietly ev) ss cs names js ctx res := by
  induction js generalizing ctx res with
  | nil => rfl
  | cons j js ih =>
    simp only [solveLoop0T, solveLoop0, Tr.res_bind, solveLoop1T_res]
    congr 1; funext r
    split
    · rfl
    · exact ih _ _

theorem findRootsLoopT_res (cfg : Cfg) (ev : EvaluatorT F) (rf : RootFinder F) (l : List (List Nat)) :
    (findRootsLoopT cfg ev rf l).res = findRootsLoop cfg (quietly ev) rf l := by
  induction l with
  | nil => rfl
  | cons i l ih =>
    unfold findRootsLoopT findRootsLoop
    generalize startValues = js
    simp only [Tr.res_bind, Tr.res_lift, solveLoop0T_res]
    refine _root_.bind_congr fun p => _root_.bind_congr fun r => _root_.bind_congr fun c => ?_
    split
    · rfl
    · exact ih

theorem solveEquationsT_res (cfg : Cfg) (ev : EvaluatorT F) (eqs : List (AST F × AST F)) (ctx : Context F) (names : List Str) :
    (solveEquationsT cfg ev eqs ctx names).res = solveEquations cfg (quietly ev) eqs ctx names := by
  simp only [solveEquationsT, solveEquations, RootFinder.findRoots, Tr.res_bind, newT_res, findRootsLoopT_res]

theorem evalRecT_res (cfg : Cfg) (n : Nat) (b : AST F) (ctx : Context F) (w : Str) :
    (evalRecT cfg n b ctx w).res = evalRec cfg n b ctx w := by
  induction n generalizing b ctx w with
  | zero => rfl
  | succ n ih =>
    have hev : quietly (fun a c => evalRecT (F := F) cfg n a c []) = fun a c => evalRec cfg n a c [] := by
      funext a c; exact ih a c []
    cases b with
    | scalar s => rfl
    | vector v => simp only [evalRecT, evalRec, Tr.res_bind, Tr.res_mapM, Tr.res_lift, ih]
    | matrix m => simp only [evalRecT, evalRec, Tr.res_bind, Tr.res_mapM, Tr.res_lift, ih]
    | list l => simp only [evalRecT, evalRec, Tr.res_bind, Tr.res_mapM, Tr.res_lift, ih]
    | «variable» v =>
      simp only [evalRecT, evalRec]
      cases ctx.findVar v <;> rfl
    | function f args =>
      simp only [evalRecT, evalRec]
      split
      · rfl
      cases ctx.findFun f with
      | none => rfl
      | some g =>
        dsimp only
        split
        · rfl
        simp only [Tr.res_bind, Tr.res_mapM, Tr.res_lift, ih]
    | simple op l r => simp only [evalRecT, evalRec, Tr.res_bind, Tr.res_lift, ih]
    | integral e x l u =>
      simp only [evalRecT, evalRec, Tr.res_bind, Tr.res_mapM, Tr.res_lift, ih, calculateIntegralT_res, hev]
    | derivative e x a =>
      simp only [evalRecT, evalRec, Tr.res_bind, Tr.res_mapM, Tr.res_lift, ih, calculateDerivativeT_res, hev]
    | equation eqs names => simp only [evalRecT, evalRec, solveEquationsT_res, hev]

/-! ## silence -/

open Tr

/-- `ev` prints nothing for `a`, whatever the variables are. -/
def QuietOn (funs : List (Function F)) (ev : EvaluatorT F) (a : AST F) : Prop := ∀ vars, Quiet (ev a ⟨vars, funs⟩)

theorem quietOn_ctx {funs : List (Function F)} {ev : EvaluatorT F} {a : AST F} (h : QuietOn funs ev a) {c : Context F}
    (hc : c.funs = funs) : Quiet (ev a c) := by
  have := h c.vars
  rw [← hc] at this
  exact this

/-- `ev` prints nothing for difference quotients. -/
def DQQuiet (cfg : Cfg) (ev : EvaluatorT F) : Prop := ∀ a b c, Quiet (ev (differenceQuotient cfg a b) c)

theorem calculateDerivativeT_quiet (cfg : Cfg) {ev : EvaluatorT F} {e : AST F} (c : Context F) (hdq : DQQuiet cfg ev)
    (h : QuietOn c.funs ev e) (x : Str) (a : Value F) : Quiet (calculateDerivativeT cfg ev e x a c) := by
  unfold calculateDerivativeT
  cases a <;> try exact Quiet.lift _
  rw [dropVar_eq]
  refine Quiet.bind (quietOn_ctx h rfl) fun _ _ => Quiet.bind (quietOn_ctx h rfl) fun _ _ => ?_
  split
  · exact Quiet.lift _
  · exact Quiet.bind (Quiet.mapM _ fun _ _ => Quiet.bind (Quiet.lift _) fun _ _ => Quiet.bind (Quiet.lift _) fun _ _ => hdq _ _ _)
      fun _ _ => Quiet.lift _

theorem calculateDerivativeNewtonT_quiet (cfg : Cfg) {ev : EvaluatorT F} {e : AST F} (c : Context F) (hdq : DQQuiet cfg ev)
    (h : QuietOn c.funs ev e) (x : Str) (a : Value F) (fx : Option (Value F)) : Quiet (calculateDerivativeNewtonT cfg ev e x a fx c) := by
  unfold calculateDerivativeNewtonT
  cases a <;> try exact Quiet.lift _
  rw [dropVar_eq]
  refine Quiet.bind ?_ fun p hp => ?_
  · cases fx with
    | some fx => exact Quiet.lift _
    | none => exact Quiet.bind (quietOn_ctx h rfl) fun _ _ => Quiet.bind (Quiet.lift _) fun _ _ => Quiet.lift _
  · have hfuns : p.2.funs = c.funs := by
      cases fx with
      | some fx => cases hp; rfl
      | none =>
        simp only [Tr.res_bind, Tr.res_lift] at hp
        obtain ⟨r, _, hp⟩ := bind_eq_ok.1 hp
        obtain ⟨v, _, hp⟩ := bind_eq_ok.1 hp
        cases hp
        rfl
    refine Quiet.bind (quietOn_ctx h hfuns) fun _ _ => Quiet.bind (Quiet.lift _) fun _ _ => Quiet.bind (hdq _ _ _) fun _ _ => Quiet.lift _

theorem jacobiT_quiet (cfg : Cfg) {ev : EvaluatorT F} (hdq : DQQuiet cfg ev) {es : List (AST F)} (c : Context F)
    (h : ∀ e ∈ es, QuietOn c.funs ev e) (x : List (Variable F)) (fx : List F) : Quiet (jacobiAndGaussT cfg ev es x c fx) := by
  unfold jacobiAndGaussT
  refine Quiet.bind (Quiet.mapM _ fun i _ => Quiet.mapM _ fun j _ => ?_) fun _ _ => Quiet.bind (Quiet.lift _) fun _ _ =>
    Quiet.bind (Quiet.lift _) fun _ _ => Quiet.lift _
  refine Quiet.bind (Quiet.lift _) fun e he => Quiet.bind (Quiet.lift _) fun _ _ => Quiet.bind (Quiet.lift _) fun _ _ =>
    Quiet.bind (Quiet.lift _) fun _ _ => Quiet.bind ?_ fun _ _ => Quiet.lift _
  refine calculateDerivativeNewtonT_quiet cfg _ hdq ?_ _ _ _
  exact h e (List.mem_of_getElem? (idx_eq_ok.1 he))

theorem evalScalarsT_quiet {ev : EvaluatorT F} {es : List (AST F)} {funs : List (Function F)}
    (h : ∀ e ∈ es, QuietOn funs ev e) {c : Context F} (hc : c.funs = funs) : Quiet (evalScalarsT ev es c) := by
  unfold evalScalarsT
  exact Quiet.mapM _ fun e he => Quiet.bind (quietOn_ctx (h e he) hc) fun _ _ => Quiet.lift _

theorem newtonT_quiet (cfg : Cfg) {ev : EvaluatorT F} (hdq : DQQuiet cfg ev) {ss cs : List (AST F)} (c : Context F)
    (hs : ∀ e ∈ ss, QuietOn c.funs ev e) (hcs : ∀ e ∈ cs, QuietOn c.funs ev e) (x : List (Variable F)) :
    Quiet (newtonT cfg ev ss cs x c).1 ∧ (newtonT cfg ev ss cs x c).2.funs = c.funs := by
  unfold newtonT
  dsimp only
  have f1 : (addVars c x).funs = c.funs := addVars_funs c x
  have f2 : (removeVars (addVars c x) x).funs = c.funs := by rw [removeVars_funs, f1]
  have f3 : (addVars (removeVars (addVars c x) x) x).funs = c.funs := by rw [addVars_funs, f2]
  have f4 : (removeVars (addVars (removeVars (addVars c x) x) x) x).funs = c.funs := by rw [removeVars_funs, f3]
  have t1 : (evalScalarsT ev ss (addVars c x)).out = [] := evalScalarsT_quiet hs f1
  have t2 : (evalScalarsT ev cs (addVars (removeVars (addVars c x) x) x)).out = [] := evalScalarsT_quiet hcs f3
  simp only [t1, t2, List.nil_append]
  split
  · exact ⟨rfl, f1⟩
  · exact ⟨rfl, f1⟩
  · exact ⟨rfl, f1⟩
  · rename_i fx _
    have t3 : (jacobiAndGaussT cfg ev ss x (removeVars (addVars c x) x) fx).out = [] :=
      jacobiT_quiet cfg hdq (es := ss) (removeVars (addVars c x) x) (by rw [f2]; exact hs) x fx
    simp only [t3]
    split
    · split
      · exact ⟨rfl, f3⟩
      · exact ⟨rfl, f3⟩
      · exact ⟨rfl, f3⟩
      · split
        · exact ⟨rfl, f4⟩
        · split
          · exact ⟨rfl, f4⟩
          · exact ⟨rfl, f4⟩
    · split
      · exact ⟨rfl, f2⟩
      · exact ⟨rfl, f2⟩
      · exact ⟨rfl, f2⟩
      · split
        · split
          · exact ⟨rfl, f2⟩
          · exact ⟨rfl, f2⟩
        · exact ⟨rfl, f2⟩
        · exact ⟨rfl, f2⟩
        · exact ⟨rfl, f2⟩

theorem solveLoop1T_quiet (cfg : Cfg) {ev : EvaluatorT F} (hdq : DQQuiet cfg ev) {ss cs : List (AST F)} (c : Context F)
    (hs : ∀ e ∈ ss, QuietOn c.funs ev e) (hcs : ∀ e ∈ cs, QuietOn c.funs ev e) (n : Nat) (x : List (Variable F)) :
    Quiet (solveLoop1T cfg ev ss cs n x c) ∧ ∀ r, (solveLoop1T cfg ev ss cs n x c).res = .ok r → r.ctx.funs = c.funs := by
  induction n generalizing x c with
  | zero => exact ⟨rfl, fun r h => by cases h; rfl⟩
  | succ n ih =>
    unfold solveLoop1T
    obtain ⟨h1, h2⟩ := newtonT_quiet cfg hdq c hs hcs x
    unfold Quiet at h1
    dsimp only
    simp only [h1, List.nil_append]
    split
    · rename_i x' _
      obtain ⟨i1, i2⟩ := ih (newtonT cfg ev ss cs x c).2 (by rw [h2]; exact hs) (by rw [h2]; exact hcs) x'
      exact ⟨i1, fun r h => (i2 r h).trans h2⟩
    · refine ⟨rfl, fun r h => ?_⟩
      obtain ⟨v, _, h⟩ := bind_eq_ok.1 h
      cases h
      exact h2
    · exact ⟨rfl, fun r h => by cases h; exact h2⟩
    · exact ⟨rfl, fun r h => by cases h; exact h2⟩
    · exact ⟨rfl, fun r h => by cases h; exact h2⟩
    · exact ⟨rfl, fun r h => by cases h⟩
    · exact ⟨rfl, fun r h => by cases h⟩
    · exact ⟨rfl, fun r h => by cases h⟩

theorem solveLoop0T_quiet (cfg : Cfg) {ev : EvaluatorT F} (hdq : DQQuiet cfg ev) {ss cs : List (AST F)} (c : Context F)
    (hs : ∀ e ∈ ss, QuietOn c.funs ev e) (hcs : ∀ e ∈ cs, QuietOn c.funs ev e) (names : List Str) (js : List Int)
    (res : List (Value F)) : Quiet (solveLoop0T cfg ev ss cs names js c res) := by
  induction js generalizing c res with
  | nil => exact Quiet.lift _
  | cons j js ih =>
    unfold solveLoop0T
    obtain ⟨h1, h2⟩ := solveLoop1T_quiet cfg hdq c hs hcs 1000
      (names.map fun k => (⟨k, [.scalar (FArith.ofInt j)]⟩ : Variable F))
    refine Quiet.bind h1 fun r hr => ?_
    dsimp only
    by_cases hst : r.stop = true
    · rw [if_pos hst]; exact Quiet.lift _
    · rw [if_neg hst]; exact ih r.ctx (by rw [h2 r hr]; exact hs) (by rw [h2 r hr]; exact hcs) _

theorem findRootsLoopT_quiet (cfg : Cfg) {ev : EvaluatorT F} (hdq : DQQuiet cfg ev) (rf : RootFinder F)
    (h : ∀ e ∈ rf.expressions, QuietOn rf.context.funs ev e) (l : List (List Nat)) : Quiet (findRootsLoopT cfg ev rf l) := by
  induction l with
  | nil => exact Quiet.lift _
  | cons i l ih =>
    unfold findRootsLoopT
    generalize startValues = js
    refine Quiet.bind (Quiet.lift _) fun p hp => ?_
    obtain ⟨s, c⟩ := p
    obtain ⟨h1, h2⟩ := splitExprs_mem hp
    refine Quiet.bind (solveLoop0T_quiet cfg hdq _ (fun e he => h e (by simpa using h1 he)) (fun e he => h e (h2 he)) _ _ _)
      fun _ _ => Quiet.bind (Quiet.lift _) fun _ _ => ?_
    split
    · exact Quiet.lift _
    · exact ih

theorem solveEquationsT_quiet (cfg : Cfg) {ev : EvaluatorT F} (hdq : DQQuiet cfg ev) (eqs : List (AST F × AST F)) (c : Context F)
    (h : ∀ e ∈ eqs, QuietOn c.funs ev (.simple .sub e.1 e.2)) (names : List Str) : Quiet (solveEquationsT cfg ev eqs c names) := by
  unfold solveEquationsT
  have hall : ∀ e ∈ eqs.map fun i => AST.simple .sub i.1 i.2, QuietOn c.funs ev e := by
    intro e he
    obtain ⟨p, hp, rfl⟩ := List.mem_map.1 he
    exact h p hp
  dsimp only
  generalize eqs.map (fun i => AST.simple .sub i.1 i.2) = es at hall
  refine Quiet.bind ?_ fun rf hrf => findRootsLoopT_quiet cfg hdq rf ?_ _
  · unfold RootFinder.newT
    split
    · exact Quiet.lift _
    split
    · exact Quiet.lift _
    split
    · exact Quiet.lift _
    split
    · exact Quiet.lift _
    refine Quiet.bind (Quiet.lift _) fun e0 he0 => Quiet.bind ?_ fun _ _ => Quiet.bind (Quiet.lift _) fun v _ => ?_
    · exact quietOn_ctx (hall e0 (List.mem_of_getElem? (idx_eq_ok.1 he0))) (foldAdd_funs _ _ _)
    · cases v <;> exact Quiet.lift _
  · rw [newT_res] at hrf
    unfold RootFinder.new at hrf
    split at hrf
    · cases hrf
    split at hrf
    · cases hrf
    split at hrf
    · cases hrf
    split at hrf
    · cases hrf
    obtain ⟨e0, _, hrf⟩ := bind_eq_ok.1 hrf
    obtain ⟨r, _, hrf⟩ := bind_eq_ok.1 hrf
    obtain ⟨v, _, hrf⟩ := bind_eq_ok.1 hrf
    cases v with
    | vector _ => cases hrf
    | matrix _ => cases hrf
    | scalar s =>
      cases hrf
      simp only
      rw [foldRemove_funs, foldAdd_funs]
      exact hall

theorem fromValue_quiet (cfg : Cfg) (v : Value F) (n : Nat) (ctx : Context F) (w : Str) : Quiet (evalRecT cfg n (AST.fromValue v) ctx w) := by
  have hs : ∀ n (s : F), Quiet (evalRecT cfg n (.scalar s) ctx w) := fun n s => by cases n <;> exact Quiet.lift _
  cases n with
  | zero => exact Quiet.lift _
  | succ n =>
  cases v with
  | scalar s => exact hs _ _
  | vector v =>
    rw [AST.fromValue, evalRecT.eq_def]
    refine Quiet.bind (Quiet.mapM _ fun a ha => Quiet.bind ?_ fun _ _ => Quiet.lift _) fun _ _ => Quiet.lift _
    obtain ⟨s, _, rfl⟩ := List.mem_map.1 ha
    exact hs _ _
  | matrix v =>
    rw [AST.fromValue, evalRecT.eq_def]
    refine Quiet.bind (Quiet.mapM _ fun r hr => Quiet.mapM _ fun a ha => Quiet.bind ?_ fun _ _ => Quiet.lift _) fun _ _ => Quiet.lift _
    obtain ⟨r, _, rfl⟩ := List.mem_map.1 hr
    obtain ⟨s, _, rfl⟩ := List.mem_map.1 ha
    exact hs _ _

theorem simple_quiet {cfg : Cfg} {n : Nat} {op : SimpleOp} {l r : AST F} {ctx : Context F} {w : Str}
    (hl : ∀ m < n, Quiet (evalRecT cfg m l ctx w)) (hr : ∀ m < n, Quiet (evalRecT cfg m r ctx w)) :
    Quiet (evalRecT cfg n (.simple op l r) ctx w) := by
  cases n with
  | zero => exact Quiet.lift _
  | succ n =>
    rw [evalRecT.eq_def]
    exact Quiet.bind (hl n (by omega)) fun _ _ => Quiet.bind (hr n (by omega)) fun _ _ => Quiet.lift _

theorem dq_quiet (cfg : Cfg) (a b : Value F) (n : Nat) (ctx : Context F) (w : Str) :
    Quiet (evalRecT cfg n (differenceQuotient cfg a b) ctx w) := by
  rw [differenceQuotient]
  exact simple_quiet (fun _ _ => simple_quiet (fun _ _ => fromValue_quiet _ _ _ _ _) fun _ _ => fromValue_quiet _ _ _ _ _)
    fun _ _ => fromValue_quiet _ _ _ _ _

theorem evalRecT_quiet (cfg : Cfg) {funs : List (Function F)} (hf : ∀ f ∈ funs, NoIntegral f.ast) (n : Nat) {b : AST F} (h : NoIntegral b)
    (vars : List (Variable F)) (w : Str) : Quiet (evalRecT cfg n b ⟨vars, funs⟩ w) := by
  induction n generalizing b vars w with
  | zero => exact Quiet.lift _
  | succ n ih =>
    cases h with
    | scalar s => exact Quiet.lift _
    | «variable» x =>
      simp only [evalRecT]
      split <;> exact Quiet.lift _
    | vector v h =>
      simp only [evalRecT]
      exact Quiet.bind (Quiet.mapM _ fun a ha => Quiet.bind (ih (h a ha) _ _) fun _ _ => Quiet.lift _) fun _ _ => Quiet.lift _
    | matrix v h =>
      simp only [evalRecT]
      exact Quiet.bind (Quiet.mapM _ fun r hr => Quiet.mapM _ fun a ha => Quiet.bind (ih (h r hr a ha) _ _) fun _ _ => Quiet.lift _)
        fun _ _ => Quiet.lift _
    | list v h =>
      simp only [evalRecT]
      exact Quiet.bind (Quiet.mapM _ fun a ha => ih (h a ha) _ _) fun _ _ => Quiet.lift _
    | function g args h =>
      simp only [evalRecT]
      split
      · exact Quiet.lift _
      · cases hfind : Context.findFun ⟨vars, funs⟩ g with
        | none => exact Quiet.lift _
        | some f =>
          dsimp only
          split
          · exact Quiet.lift _
          · exact Quiet.bind (Quiet.mapM _ fun a ha => ih (h a ha) _ _) fun _ _ =>
              Quiet.bind (Quiet.mapM _ fun p _ => ih (hf f (List.mem_of_find?_eq_some hfind)) _ _) fun _ _ => Quiet.lift _
    | simple op l r hl hr =>
      simp only [evalRecT]
      exact Quiet.bind (ih hl _ _) fun _ _ => Quiet.bind (ih hr _ _) fun _ _ => Quiet.lift _
    | derivative e x a he ha =>
      simp only [evalRecT]
      refine Quiet.bind (ih ha _ _) fun _ _ => Quiet.bind (Quiet.mapM _ fun _ _ => ?_) fun _ _ => Quiet.lift _
      exact calculateDerivativeT_quiet cfg _ (fun a b c => dq_quiet cfg a b n c []) (fun vars => ih he _ _) _ _
    | equation eqs names h1 h2 =>
      simp only [evalRecT]
      refine solveEquationsT_quiet cfg (fun a b c => dq_quiet cfg a b n c []) _ _ ?_ _
      exact fun e he vars => ih (.simple _ _ _ (h1 e he) (h2 e he)) vars []

end
end MUL
