import Verif.Spec.Eval
import Verif.Proofs.EvalFuel
import Verif.Proofs.EvalCtx
import Verif.Proofs.MathsTerm
/-!
# Evaluation finishes when the functions are not cyclic
-/

set_option linter.unusedSectionVars false

namespace MUL
open Out Spec

section
variable {F : Type} [FNum F]

/-- `ev` returns on `a` in every context with the functions `funs`. -/
def TermOn (funs : List (Function F)) (ev : Evaluator F) (a : AST F) : Prop :=
  ∀ vars, Term (ev a ⟨vars, funs⟩)

theorem termOn_ctx {funs : List (Function F)} {ev : Evaluator F} {a : AST F} (h : TermOn funs ev a)
    {c : Context F} (hc : c.funs = funs) : Term (ev a c) := by
  have := h c.vars
  rw [← hc] at this
  exact this

theorem integralLoop_term {funs : List (Function F)} {ev : Evaluator F} {expr : AST F} (h : TermOn funs ev expr)
    (x : Str) (vars : List (Variable F)) (ub dx : F) (n : Nat) (b : F) (sums : List (Value F))
    (hn : ∃ k ≤ n, FArith.lt (stepFrom b dx k) ub = false) :
    Term (integralLoop ev expr x vars funs ub dx n b sums) := by
  have shift : ∀ (b : F) k, stepFrom (FArith.add b dx) dx k = stepFrom b dx (k + 1) := by
    intro b k
    induction k with
    | zero => rfl
    | succ k ih =>
      show FArith.add (stepFrom (FArith.add b dx) dx k) dx = FArith.add (stepFrom b dx (k + 1)) dx
      rw [ih]
  induction n generalizing b sums with
  | zero =>
    obtain ⟨k, hk, h0⟩ := hn
    obtain rfl : k = 0 := by omega
    simp only [stepFrom] at h0
    simp only [integralLoop, h0]
    exact term_ok _
  | succ n ih =>
    unfold integralLoop
    split
    · rename_i hlt
      refine Term.bind (h _) fun _ _ => Term.bind (accumulate_term _ _) fun _ _ => ih _ _ ?_
      obtain ⟨k, hk, h0⟩ := hn
      cases k with
      | zero => simp only [stepFrom] at h0; rw [h0] at hlt; cases hlt
      | succ k => exact ⟨k, by omega, by rw [shift]; exact h0⟩
    · exact term_ok _

theorem calculateIntegral_term (cfg : Cfg) {N : Nat} (hN : StepsArrive F cfg N)
    {ev : Evaluator F} {expr : AST F} (c : Context F) (h : TermOn c.funs ev expr)
    (x : Str) (n : Nat) (hn : N ≤ n) (l u : Value F) : Term (calculateIntegral cfg ev n expr x l u c) := by
  unfold calculateIntegral
  cases l <;> cases u <;> try exact term_err _
  rename_i lb ub
  dsimp only
  refine Term.ite (term_ok _) (Term.bind (integralLoop_term h _ _ _ _ _ _ _ ?_) fun _ _ =>
    Term.mapM _ fun _ _ => (vMult_term _ _).mapErr _)
  by_cases hlt : FArith.lt ub lb = true
  · simp only [hlt, if_true]
    obtain ⟨k, hk, h0⟩ := hN ub lb hlt
    exact ⟨k, by omega, h0⟩
  · simp only [hlt]
    by_cases hlt2 : FArith.lt lb ub = true
    · obtain ⟨k, hk, h0⟩ := hN lb ub hlt2
      exact ⟨k, by omega, h0⟩
    · exact ⟨0, by omega, by simpa [stepFrom] using hlt2⟩

theorem fromValue_term (cfg : Cfg) (v : Value F) (n : Nat) (ctx : Context F) (w : Str) :
    Term (evalRec cfg (n + 2) (AST.fromValue v) ctx w) := by
  cases v with
  | scalar s => exact term_ok _
  | vector v =>
    rw [AST.fromValue, evalRec.eq_def]
    refine Term.bind (Term.mapM _ fun a ha => Term.bind ?_ fun _ _ => allScalars_term _ _) fun _ _ => term_ok _
    obtain ⟨s, _, rfl⟩ := List.mem_map.1 ha
    exact term_ok _
  | matrix v =>
    rw [AST.fromValue, evalRec.eq_def]
    refine Term.bind (Term.mapM _ fun r hr => Term.mapM _ fun a ha => Term.bind ?_ fun _ _ => allScalars_term _ _) fun _ _ => term_ok _
    obtain ⟨r, _, rfl⟩ := List.mem_map.1 hr
    obtain ⟨s, _, rfl⟩ := List.mem_map.1 ha
    exact term_ok _

theorem dq_term (cfg : Cfg) (a b : Value F) (n : Nat) (hn : 4 ≤ n) (ctx : Context F) (w : Str) :
    Term (evalRec cfg n (differenceQuotient cfg a b) ctx w) := by
  obtain ⟨n, rfl⟩ : ∃ k, n = k + 4 := ⟨n - 4, by omega⟩
  rw [differenceQuotient, evalRec.eq_def]
  refine Term.bind ?_ fun _ _ => Term.bind (fromValue_term _ _ _ _ _) fun _ _ => applyAll_term _ _ _
  rw [evalRec.eq_def]
  exact Term.bind (fromValue_term _ _ _ _ _) fun _ _ => Term.bind (fromValue_term _ _ _ _ _) fun _ _ => applyAll_term _ _ _

/-- `ev` returns on difference quotients. -/
def DQTerm (cfg : Cfg) (ev : Evaluator F) : Prop := ∀ a b c, Term (ev (differenceQuotient cfg a b) c)

theorem calculateDerivative_term (cfg : Cfg) {ev : Evaluator F} {expr : AST F} (c : Context F) (hdq : DQTerm cfg ev)
    (h : TermOn c.funs ev expr) (x : Str) (a : Value F) : Term (calculateDerivative cfg ev expr x a c) := by
  unfold calculateDerivative
  cases a <;> try exact term_err _
  rw [dropVar_eq]
  refine Term.bind (termOn_ctx h rfl) fun _ _ => Term.bind (termOn_ctx h rfl) fun _ _ => Term.ite (term_err _) ?_
  refine Term.bind (Term.mapM _ fun _ _ => Term.bind (idx_term _ _) fun _ _ => Term.bind (idx_term _ _) fun _ _ =>
    hdq _ _ _) fun _ _ => term_ok _

theorem calculateDerivativeNewton_term (cfg : Cfg) {ev : Evaluator F} {expr : AST F} (c : Context F) (hdq : DQTerm cfg ev)
    (h : TermOn c.funs ev expr) (x : Str) (a : Value F) (fx : Option (Value F)) :
    Term (calculateDerivativeNewton cfg ev expr x a fx c) := by
  unfold calculateDerivativeNewton
  cases a <;> try exact term_err _
  rw [dropVar_eq]
  cases fx with
  | some fx =>
    dsimp only
    simp only [ok_bind]
    exact Term.bind (termOn_ctx h rfl) fun _ _ => Term.bind (unwrap_term _) fun _ _ => Term.bind (hdq _ _ _) fun _ _ =>
      unwrap_term _
  | none =>
    dsimp only
    simp only [bind_assoc, ok_bind]
    exact Term.bind (termOn_ctx h rfl) fun _ _ => Term.bind (unwrap_term _) fun _ _ =>
      Term.bind (termOn_ctx h rfl) fun _ _ => Term.bind (unwrap_term _) fun _ _ => Term.bind (hdq _ _ _) fun _ _ =>
      unwrap_term _

theorem jacobi_term (cfg : Cfg) {ev : Evaluator F} (hdq : DQTerm cfg ev) {es : List (AST F)} (c : Context F)
    (h : ∀ e ∈ es, TermOn c.funs ev e) (x : List (Variable F)) (fx : List F) :
    Term (jacobiAndGauss cfg ev es x c fx) := by
  unfold jacobiAndGauss
  refine Term.bind (Term.mapM _ fun i _ => Term.mapM _ fun j _ => ?_) fun _ _ => ?_
  · refine Term.bind (idx_term _ _) fun e he => Term.bind (idx_term _ _) fun _ _ => Term.bind (unwrap_term _) fun _ _ =>
      Term.bind (idx_term _ _) fun _ _ => Term.bind ?_ fun _ _ => unwrap_term _
    refine calculateDerivativeNewton_term cfg _ hdq ?_ _ _ _
    exact h e (List.mem_of_getElem? (idx_eq_ok.1 he))
  · refine Term.bind (by term_tac) fun _ _ => Term.bind (gauss_term _) fun _ _ => ?_
    term_tac

theorem evalScalars_term {ev : Evaluator F} {es : List (AST F)} {funs : List (Function F)}
    (h : ∀ e ∈ es, TermOn funs ev e) {c : Context F} (hc : c.funs = funs) : Term (evalScalars ev es c) := by
  unfold evalScalars
  exact Term.mapM _ fun e he => Term.bind (termOn_ctx (h e he) hc) fun _ _ => firstScalar_term _

theorem newton_term (cfg : Cfg) {ev : Evaluator F} (hdq : DQTerm cfg ev) {ss cs : List (AST F)} (c : Context F)
    (hs : ∀ e ∈ ss, TermOn c.funs ev e) (hcs : ∀ e ∈ cs, TermOn c.funs ev e) (x : List (Variable F)) :
    Term (newton cfg ev ss cs x c).1 ∧ (newton cfg ev ss cs x c).2.funs = c.funs := by
  unfold newton
  dsimp only
  have f1 : (addVars c x).funs = c.funs := addVars_funs c x
  have f2 : (removeVars (addVars c x) x).funs = c.funs := by rw [removeVars_funs, f1]
  have f3 : (addVars (removeVars (addVars c x) x) x).funs = c.funs := by rw [addVars_funs, f2]
  have f4 : (removeVars (addVars (removeVars (addVars c x) x) x) x).funs = c.funs := by rw [removeVars_funs, f3]
  have t1 := evalScalars_term hs f1
  revert t1
  cases evalScalars ev ss (addVars c x) with
  | timeout => intro t1; exact absurd rfl t1
  | err e => exact fun _ => ⟨term_err _, f1⟩
  | panic => exact fun _ => ⟨term_panic, f1⟩
  | ok fx =>
    intro _
    dsimp only
    split
    · have t2 := evalScalars_term hcs f3
      revert t2
      cases evalScalars ev cs (addVars (removeVars (addVars c x) x) x) with
      | timeout => intro t1; exact absurd rfl t1
      | err e => exact fun _ => ⟨term_err _, f3⟩
      | panic => exact fun _ => ⟨term_panic, f3⟩
      | ok r =>
        intro _
        dsimp only
        split
        · exact ⟨term_ok _, f4⟩
        · split
          · exact ⟨term_ok _, f4⟩
          · exact ⟨term_err _, f4⟩
    · have t2 := jacobi_term cfg hdq (es := ss) (removeVars (addVars c x) x) (by rw [f2]; exact hs) x fx
      revert t2
      cases jacobiAndGauss cfg ev ss x (removeVars (addVars c x) x) fx with
      | timeout => intro t1; exact absurd rfl t1
      | err e => exact fun _ => ⟨term_err _, f2⟩
      | panic => exact fun _ => ⟨term_panic, f2⟩
      | ok r =>
        intro _
        dsimp only
        have t3 : Term (r.mapM (fun i => (Out.unwrap i.values[0]? : Out EvalError (Value F)))) :=
          Term.mapM _ fun _ _ => unwrap_term _
        revert t3
        cases r.mapM (fun i => (Out.unwrap i.values[0]? : Out EvalError (Value F))) with
        | timeout => intro t1; exact absurd rfl t1
        | err e => exact fun _ => ⟨term_err _, f2⟩
        | panic => exact fun _ => ⟨term_panic, f2⟩
        | ok vs =>
          intro _
          dsimp only
          split
          · exact ⟨term_err _, f2⟩
          · exact ⟨term_ok _, f2⟩

theorem solveLoop1_term (cfg : Cfg) {ev : Evaluator F} (hdq : DQTerm cfg ev) {ss cs : List (AST F)} (c : Context F)
    (hs : ∀ e ∈ ss, TermOn c.funs ev e) (hcs : ∀ e ∈ cs, TermOn c.funs ev e) (n : Nat) (x : List (Variable F)) :
    Term (solveLoop1 cfg ev ss cs n x c) ∧ ∀ r, solveLoop1 cfg ev ss cs n x c = .ok r → r.ctx.funs = c.funs := by
  induction n generalizing x c with
  | zero => exact ⟨term_ok _, fun r h => by cases h; rfl⟩
  | succ n ih =>
    unfold solveLoop1
    obtain ⟨h1, h2⟩ := newton_term cfg hdq c hs hcs x
    revert h1 h2
    cases newton cfg ev ss cs x c with
    | mk a b =>
      intro h1 h2
      simp only at h1 h2
      cases a with
      | ok r =>
        cases r with
        | nextX x' =>
          have := ih b (by rw [h2]; exact hs) (by rw [h2]; exact hcs) x'
          rw [h2] at this
          exact this
        | finishedX x' =>
          dsimp only
          have t3 : Term (resultValue x' : Out EvalError (Value F)) := by
            unfold resultValue
            refine Term.bind (Term.mapM _ fun _ _ => firstScalar_term _) fun _ _ => ?_
            split <;> exact term_ok _
          revert t3
          cases (resultValue x' : Out EvalError (Value F)) with
          | ok v => exact fun _ => ⟨term_ok _, fun r h => by cases h; exact h2⟩
          | err e => exact fun _ => ⟨term_err _, fun r h => by cases h⟩
          | panic => exact fun _ => ⟨term_panic, fun r h => by cases h⟩
          | timeout => exact fun h => absurd rfl h
      | err e =>
        cases e <;> first
          | exact ⟨term_err _, fun r h => by cases h⟩
          | exact ⟨term_ok _, fun r h => by cases h; exact h2⟩
      | panic => exact ⟨term_panic, fun r h => by cases h⟩
      | timeout => exact absurd rfl h1

theorem solveLoop0_term (cfg : Cfg) {ev : Evaluator F} (hdq : DQTerm cfg ev) {ss cs : List (AST F)} (c : Context F)
    (hs : ∀ e ∈ ss, TermOn c.funs ev e) (hcs : ∀ e ∈ cs, TermOn c.funs ev e) (names : List Str) (js : List Int)
    (res : List (Value F)) : Term (solveLoop0 cfg ev ss cs names js c res) := by
  induction js generalizing c res with
  | nil => exact term_ok _
  | cons j js ih =>
    unfold solveLoop0
    obtain ⟨h1, h2⟩ := solveLoop1_term cfg hdq c hs hcs 1000
      (names.map fun k => (⟨k, [.scalar (FArith.ofInt j)]⟩ : Variable F))
    refine Term.bind h1 fun r hr => Term.ite (term_ok _) ?_
    exact ih r.ctx (by rw [h2 r hr]; exact hs) (by rw [h2 r hr]; exact hcs) _

theorem findRootsLoop_term (cfg : Cfg) {ev : Evaluator F} (hdq : DQTerm cfg ev) (rf : RootFinder F)
    (h : ∀ e ∈ rf.expressions, TermOn rf.context.funs ev e) (l : List (List Nat)) :
    Term (findRootsLoop cfg ev rf l) := by
  induction l with
  | nil => exact term_ok _
  | cons i l ih =>
    unfold findRootsLoop
    refine Term.bind (splitExprs_term _ _ _ _) fun p hp => ?_
    obtain ⟨s, c⟩ := p
    obtain ⟨h1, h2⟩ := splitExprs_mem hp
    refine Term.bind (solveLoop0_term cfg hdq _ (fun e he => h e (by simpa using h1 he)) (fun e he => h e (h2 he)) _ _ _)
      fun _ _ => Term.bind (cleanResults_term _ _) fun _ _ => Term.ite (term_ok _) ih

theorem solveEquations_term (cfg : Cfg) {ev : Evaluator F} (hdq : DQTerm cfg ev) (eqs : List (AST F × AST F)) (c : Context F)
    (h : ∀ e ∈ eqs, TermOn c.funs ev (.simple .sub e.1 e.2)) (names : List Str) :
    Term (solveEquations cfg ev eqs c names) := by
  unfold solveEquations RootFinder.new
  have hall : ∀ e ∈ eqs.map fun i => AST.simple .sub i.1 i.2, TermOn c.funs ev e := by
    intro e he
    obtain ⟨p, hp, rfl⟩ := List.mem_map.1 he
    exact h p hp
  generalize eqs.map (fun i => AST.simple .sub i.1 i.2) = es at hall
  dsimp only
  split
  · exact term_err _
  · split
    · exact term_err _
    · split
      · exact term_err _
      · split
        · exact term_err _
        · simp only [bind_assoc]
          refine Term.bind (idx_term _ _) fun e0 he0 => Term.bind ?_ fun _ _ => Term.bind (unwrap_term _) fun v _ => ?_
          · exact termOn_ctx (hall e0 (List.mem_of_getElem? (idx_eq_ok.1 he0))) (foldAdd_funs _ _ _)
          · cases v with
            | vector _ => exact term_err _
            | matrix _ => exact term_err _
            | scalar s =>
              refine findRootsLoop_term cfg hdq _ ?_ _
              simp only
              rw [foldRemove_funs, foldAdd_funs]
              exact hall

/-- `b` can be evaluated with budget `n` whatever the variables are. -/
def Bounded (cfg : Cfg) (funs : List (Function F)) (n : Nat) (b : AST F) : Prop :=
  ∀ m ≥ n, ∀ vars w, Term (evalRec cfg m b ⟨vars, funs⟩ w)

theorem bounded_list {cfg : Cfg} {funs : List (Function F)} {l : List (AST F)}
    (h : ∀ a ∈ l, ∃ n, Bounded cfg funs n a) : ∃ n, ∀ a ∈ l, Bounded cfg funs n a := by
  induction l with
  | nil => exact ⟨0, by simp⟩
  | cons a l ih =>
    obtain ⟨n, hn⟩ := h a (by simp)
    obtain ⟨k, hk⟩ := ih fun b hb => h b (by simp [hb])
    refine ⟨max n k, fun b hb => ?_⟩
    rcases List.mem_cons.1 hb with rfl | hb
    · exact fun m hm => hn m (by omega)
    · exact fun m hm => hk b hb m (by omega)

theorem bounded_rows {cfg : Cfg} {funs : List (Function F)} {l : List (List (AST F))}
    (h : ∀ r ∈ l, ∀ a ∈ r, ∃ n, Bounded cfg funs n a) : ∃ n, ∀ r ∈ l, ∀ a ∈ r, Bounded cfg funs n a := by
  have : ∀ a ∈ l.flatten, ∃ n, Bounded cfg funs n a := by
    intro a ha
    obtain ⟨r, hr, ha⟩ := List.mem_flatten.1 ha
    exact h r hr a ha
  obtain ⟨n, hn⟩ := bounded_list this
  exact ⟨n, fun r hr a ha => hn a (List.mem_flatten.2 ⟨r, hr, ha⟩)⟩

theorem bounded_tree (cfg : Cfg) {ints : Prop} {N : Nat} (hN : ints → StepsArrive F cfg N)
    {funs : List (Function F)} {rank : Str → Nat} {r : Nat}
    (hf : ∀ f ∈ funs, rank f.name < r → ∃ n, Bounded cfg funs n f.ast)
    {b : AST F} (h : Ranked rank ints r b) : ∃ n, Bounded cfg funs n b := by
  induction h with
  | scalar s =>
    refine ⟨1, fun m hm vars w => ?_⟩
    obtain ⟨m, rfl⟩ : ∃ k, m = k + 1 := ⟨m - 1, by omega⟩
    exact term_ok _
  | «variable» x =>
    refine ⟨1, fun m hm vars w => ?_⟩
    obtain ⟨m, rfl⟩ : ∃ k, m = k + 1 := ⟨m - 1, by omega⟩
    simp only [evalRec]
    split
    · exact term_ok _
    · exact term_err _
  | vector v _ ih =>
    obtain ⟨n, hn⟩ := bounded_list ih
    refine ⟨n + 1, fun m hm vars w => ?_⟩
    obtain ⟨m, rfl⟩ : ∃ k, m = k + 1 := ⟨m - 1, by omega⟩
    simp only [evalRec]
    exact Term.bind (Term.mapM _ fun a ha => Term.bind (hn a ha m (by omega) _ _) fun _ _ => allScalars_term _ _)
      fun _ _ => term_ok _
  | matrix v _ ih =>
    obtain ⟨n, hn⟩ := bounded_rows ih
    refine ⟨n + 1, fun m hm vars w => ?_⟩
    obtain ⟨m, rfl⟩ : ∃ k, m = k + 1 := ⟨m - 1, by omega⟩
    simp only [evalRec]
    exact Term.bind (Term.mapM _ fun r hr => Term.mapM _ fun a ha => Term.bind (hn r hr a ha m (by omega) _ _)
      fun _ _ => allScalars_term _ _) fun _ _ => term_ok _
  | list v _ ih =>
    obtain ⟨n, hn⟩ := bounded_list ih
    refine ⟨n + 1, fun m hm vars w => ?_⟩
    obtain ⟨m, rfl⟩ : ∃ k, m = k + 1 := ⟨m - 1, by omega⟩
    simp only [evalRec]
    exact Term.bind (Term.mapM _ fun a ha => hn a ha m (by omega) _ _) fun _ _ => term_ok _
  | function g args hg _ ih =>
    obtain ⟨n, hn⟩ := bounded_list ih
    have : ∃ k, ∀ f ∈ funs, f.name = g → Bounded cfg funs k f.ast := by
      have h2 : ∀ a ∈ (funs.filter fun f => f.name == g).map (·.ast), ∃ n, Bounded cfg funs n a := by
        intro a ha
        obtain ⟨f, hf1, rfl⟩ := List.mem_map.1 ha
        obtain ⟨hf1, hf2⟩ := List.mem_filter.1 hf1
        exact hf f hf1 (by rw [beq_iff_eq.1 hf2]; exact hg)
      obtain ⟨k, hk⟩ := bounded_list h2
      exact ⟨k, fun f hf1 hf2 => hk _ (List.mem_map.2 ⟨f, List.mem_filter.2 ⟨hf1, by simpa using hf2⟩, rfl⟩)⟩
    obtain ⟨k, hk⟩ := this
    refine ⟨max n k + 1, fun m hm vars w => ?_⟩
    obtain ⟨m, rfl⟩ : ∃ k, m = k + 1 := ⟨m - 1, by omega⟩
    simp only [evalRec]
    refine Term.ite (term_err _) ?_
    cases hfind : Context.findFun ⟨vars, funs⟩ g with
    | none => exact term_err _
    | some f =>
      refine Term.ite (term_err _) ?_
      refine Term.bind (Term.mapM _ fun a ha => hn a ha m (by omega) _ _) fun _ _ =>
        Term.bind (Term.mapM _ fun p _ => ?_) fun _ _ => term_ok _
      have hmem : f ∈ funs := List.mem_of_find?_eq_some hfind
      have hname : f.name = g := by simpa using List.find?_some hfind
      exact hk f hmem hname m (by omega) _ _
  | simple op l r _ _ ihl ihr =>
    obtain ⟨n, hn⟩ := ihl
    obtain ⟨k, hk⟩ := ihr
    refine ⟨max n k + 1, fun m hm vars w => ?_⟩
    obtain ⟨m, rfl⟩ : ∃ k, m = k + 1 := ⟨m - 1, by omega⟩
    simp only [evalRec]
    exact Term.bind (hn m (by omega) _ _) fun _ _ => Term.bind (hk m (by omega) _ _) fun _ _ => applyAll_term _ _ _
  | integral e x lo hi hi' _ _ _ ihe ihl ihr =>
    obtain ⟨j, hj⟩ := ihe
    obtain ⟨n, hn⟩ := ihl
    obtain ⟨k, hk⟩ := ihr
    refine ⟨max (max n k) (max j N) + 1, fun m hm vars w => ?_⟩
    obtain ⟨m, rfl⟩ : ∃ k, m = k + 1 := ⟨m - 1, by omega⟩
    simp only [evalRec]
    refine Term.bind (hn m (by omega) _ _) fun _ _ => Term.bind (hk m (by omega) _ _) fun _ _ =>
      Term.bind (Term.mapM _ fun _ _ => Term.bind (Term.mapM _ fun _ _ => ?_) fun _ _ => term_ok _) fun _ _ => term_ok _
    exact calculateIntegral_term cfg (hN hi') _ (fun vars => hj m (by omega) _ _) _ _ (by omega) _ _
  | derivative e x a _ _ ihe iha =>
    obtain ⟨j, hj⟩ := ihe
    obtain ⟨n, hn⟩ := iha
    refine ⟨max (max n 4) j + 1, fun m hm vars w => ?_⟩
    obtain ⟨m, rfl⟩ : ∃ k, m = k + 1 := ⟨m - 1, by omega⟩
    simp only [evalRec]
    refine Term.bind (hn m (by omega) _ _) fun _ _ => Term.bind (Term.mapM _ fun _ _ => ?_) fun _ _ => term_ok _
    exact calculateDerivative_term cfg _ (fun a b c => dq_term cfg a b m (by omega) c [])
      (fun vars => hj m (by omega) _ _) _ _
  | equation eqs vars _ _ ih1 ih2 =>
    have h1 : ∀ a ∈ eqs.map Prod.fst ++ eqs.map Prod.snd, ∃ n, Bounded cfg funs n a := by
      intro a ha
      rcases List.mem_append.1 ha with ha | ha
      · obtain ⟨p, hp, rfl⟩ := List.mem_map.1 ha
        exact ih1 p hp
      · obtain ⟨p, hp, rfl⟩ := List.mem_map.1 ha
        exact ih2 p hp
    obtain ⟨n, hn⟩ := bounded_list h1
    refine ⟨max n 4 + 2, fun m hm vars w => ?_⟩
    obtain ⟨m, rfl⟩ : ∃ k, m = k + 2 := ⟨m - 2, by omega⟩
    rw [evalRec.eq_def]
    refine solveEquations_term cfg (fun a b c => dq_term cfg a b _ (by omega) c []) _ _ ?_ _
    intro e he vars
    show Term (evalRec cfg (m + 1) _ _ _)
    rw [evalRec.eq_def]
    exact Term.bind (hn _ (List.mem_append_left _ (List.mem_map_of_mem he)) m (by omega) _ _) fun _ _ =>
      Term.bind (hn _ (List.mem_append_right _ (List.mem_map_of_mem he)) m (by omega) _ _) fun _ _ => applyAll_term _ _ _

theorem bounded_funs (cfg : Cfg) {ints : Prop} {N : Nat} (hN : ints → StepsArrive F cfg N)
    {funs : List (Function F)} {rank : Str → Nat} (hacyc : Acyclic ints funs rank) (r : Nat) :
    ∀ f ∈ funs, rank f.name < r → ∃ n, Bounded cfg funs n f.ast := by
  induction r with
  | zero => intro f _ h; omega
  | succ r ih =>
    intro f hf hr
    refine bounded_tree cfg hN (r := rank f.name) ?_ (hacyc f hf)
    intro g hg hlt
    exact ih g hg (by omega)

end
end MUL
