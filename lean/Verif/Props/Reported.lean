import Verif.Proofs.Reported
import Verif.Props.ParserBasics
/-!
# C105: a reported error is about something in the request
-/

namespace MUL
open Out FArith FElem Spec
variable {F : Type} [FNum F]

omit [FNum F] in
private theorem scope_self (ctx : Context F) : Scope (HasVar ctx) ctx.funs ctx := ⟨fun _ h => h, rfl⟩

omit [FNum F] in
private theorem made_self (t : AST F) (ctx : Context F) : Made t ctx t := fun _ h _ => Or.inl h

/-- **C105.** An error of an evaluation is true: the variable or function that is reported as missing is used and missing, a number of arguments
reported as wrong is the number of arguments of a call of a function with another number of parameters, a function reported as recursive calls
itself, a vector or matrix with bad entries or an impossible request to solve equations is there; and the internal errors of the search are never
reported. Whatever the budget, i.e. also at the moment the call returns. -/
theorem C105_justified (cfg : Cfg) (n : Nat) (t : AST F) (ctx : Context F) (e : EvalError) (h : eval cfg n t ctx = .err e) : Justified t ctx e :=
  evalRec_reports cfg n t ctx [] (scope_self ctx) (made_self t ctx) (Or.inl rfl) e h

/-- **C105.** The same for the function `solve`. -/
theorem C105_solve (cfg : Cfg) (n : Nat) (eqs : List (AST F × AST F)) (names : List Str) (ctx : Context F) (e : EvalError)
    (h : solve cfg n eqs ctx names = .err e) : Justified (.equation eqs names) ctx e := by
  refine C105_justified cfg (n + 1) (.equation eqs names) ctx e ?_
  rw [eval, evalRec.eq_def]
  dsimp only
  unfold solveEquations
  unfold solve at h
  have hf : ∀ (l : List (AST F × AST F)) acc, l.foldl (fun fe i => fe ++ [AST.simple .sub i.1 i.2]) acc = acc ++ l.map fun i => AST.simple .sub i.1 i.2 := by
    intro l
    induction l with
    | nil => simp
    | cons a l ih => intro acc; simp [ih]
  rw [hf, List.nil_append] at h
  have he : (eval cfg n : Evaluator F) = fun a c => evalRec cfg n a c [] := by funext a c; rfl
  rw [he] at h
  dsimp only at h ⊢
  cases hr : RootFinder.new (fun a c => evalRec cfg n a c []) (eqs.map fun i => AST.simple .sub i.1 i.2) ctx names with
  | ok rf => rw [hr] at h; exact h
  | err e' => rw [hr] at h; exact h
  | panic => rw [hr] at h; cases h
  | timeout => rw [hr] at h; cases h

omit [FNum F] in
theorem wftree_part {V : Str → Prop} {s t : AST F} (h : PartOf s t) (ht : WFTree V t) : WFTree V s := by
  induction h with
  | whole => exact ht
  | child c t hc _ ih =>
    apply ih
    cases ht with
    | scalar => cases hc
    | vector v _ h => exact h c hc
    | matrix m n _ _ _ h =>
      obtain ⟨r, hr, hc⟩ := List.mem_flatten.1 hc
      exact h r hr c hc
    | list l _ h => exact h c hc
    | «variable» => cases hc
    | function n args _ _ h => exact h c hc
    | simple op l r hl hr =>
      rcases List.mem_cons.1 hc with rfl | hc
      · exact hl
      · rcases List.mem_cons.1 hc with rfl | hc
        · exact hr
        · cases hc
    | integral e x lo hi h1 h2 h3 =>
      simp only [children, List.mem_cons, List.not_mem_nil, or_false] at hc
      rcases hc with rfl | rfl | rfl <;> assumption
    | derivative e x a h1 h2 =>
      simp only [children, List.mem_cons, List.not_mem_nil, or_false] at hc
      rcases hc with rfl | rfl <;> assumption
    | equation eqs vars h1 h2 =>
      obtain ⟨p, hp, hc⟩ := List.mem_flatMap.1 hc
      simp only [List.mem_cons, List.not_mem_nil, or_false] at hc
      rcases hc with rfl | rfl
      · exact h1 p hp
      · exact h2 p hp

/-- **C105.** For texts, with functions whose bodies were read from texts: an error of `quick_eval` is a parser error of this text, or an error of
the evaluation that is justified by the text and the context; a function is reported as recursive only if a function of the context calls itself. -/
theorem C105_text [UTable] (cfg : Cfg) (n : Nat) (text : Str) (ctx : Context F) (hfuns : ∀ f ∈ ctx.funs, ∃ body, parse cfg body = .ok f.ast)
    (e : QuickEvalError) (h : quickEval cfg n text ctx = .err e) :
    (∃ p, (parse cfg text : Out ParserError (AST F)) = .err p ∧ e = .parserError p) ∨
    ∃ t x, parse cfg text = .ok t ∧ e = .evalError x ∧ Justified t ctx x ∧
      (x = .recursiveFunction → ∃ f ∈ ctx.funs, ∃ args, PartOf (.function f.name args) f.ast) := by
  unfold quickEval at h
  cases hp : (parse cfg text : Out ParserError (AST F)) with
  | err p =>
    rw [hp] at h
    cases h
    exact Or.inl ⟨p, rfl, rfl⟩
  | panic => rw [hp] at h; cases h
  | timeout => rw [hp] at h; cases h
  | ok t =>
    rw [hp] at h
    simp only [mapErr_ok, ok_bind] at h
    cases he : eval cfg n t ctx with
    | ok vs => rw [he] at h; cases h
    | panic => rw [he] at h; cases h
    | timeout => rw [he] at h; cases h
    | err x =>
      rw [he] at h
      cases h
      have hj := C105_justified cfg n t ctx x he
      refine Or.inr ⟨t, x, rfl, rfl, hj, ?_⟩
      rintro rfl
      rcases hj with hj | ⟨args, hj⟩
      · exact hj
      · exfalso
        have hw : WFTree ValidName (.function [] args : AST F) := by
          rcases hj with hj | ⟨f, hf, hj⟩
          · exact wftree_part hj (C11_wellformed cfg text t hp)
          · obtain ⟨body, hb⟩ := hfuns f hf
            exact wftree_part hj (C11_wellformed cfg body f.ast hb)
        cases hw with
        | function _ _ h _ _ =>
          obtain ⟨⟨c, r, h, _⟩, _⟩ := h
          cases h

/-- **C105.** Some errors are never reported: the three that only steer the search for solutions, by no evaluation, and the one about `e` and `pi`
by no `quick_eval`. -/
theorem C105_never [UTable] (cfg : Cfg) (n : Nat) (ctx : Context F) :
    (∀ t e, eval cfg n t ctx = .err e → e ≠ .infiniteSolutions ∧ e ≠ .naNOrInf ∧ e ≠ .expressionCheckFailed) ∧
    (∀ eqs names e, solve cfg n eqs ctx names = .err e → e ≠ .infiniteSolutions ∧ e ≠ .naNOrInf ∧ e ≠ .expressionCheckFailed) ∧
    ∀ text, quickEval cfg n text ctx ≠ .err .duplicateVars := by
  have key : ∀ (t : AST F) e, Justified t ctx e → e ≠ .infiniteSolutions ∧ e ≠ .naNOrInf ∧ e ≠ .expressionCheckFailed := by
    intro t e h
    refine ⟨?_, ?_, ?_⟩ <;> rintro rfl <;> exact h
  refine ⟨fun t e h => key t e (C105_justified cfg n t ctx e h), fun eqs names e h => key _ e (C105_solve cfg n eqs names ctx e h), fun text h => ?_⟩
  unfold quickEval at h
  cases hp : (parse cfg text : Out ParserError (AST F)) with
  | err p => rw [hp] at h; cases h
  | panic => rw [hp] at h; cases h
  | timeout => rw [hp] at h; cases h
  | ok t =>
    rw [hp] at h
    simp only [mapErr_ok, ok_bind] at h
    cases he : eval cfg n t ctx <;> rw [he] at h <;> cases h

/-- **C105.** Therefore: if every variable that occurs in the expression and in the functions is in the context, no variable is reported as missing,
at any depth of calls, integrals, derivatives and equations. -/
theorem C105_variables (cfg : Cfg) (n : Nat) (t : AST F) (ctx : Context F) (h : ∀ v, Somewhere t ctx (.variable v) → ∃ u ∈ ctx.vars, u.name = v)
    (v : Str) : eval cfg n t ctx ≠ .err (.noVariable v) := by
  intro he
  obtain ⟨h1, h2⟩ := C105_justified cfg n t ctx _ he
  obtain ⟨u, hu, hn⟩ := h v h2
  exact h1 u hu hn

/-- **C105.** And without equations in the expression and in the functions, none of the errors about equations is reported. -/
theorem C105_no_equations (cfg : Cfg) (n : Nat) (t : AST F) (ctx : Context F) (h : ∀ eqs names, ¬ Somewhere t ctx (.equation eqs names))
    (e : EvalError) (he : eval cfg n t ctx = .err e) :
    e ≠ .vectorInEq ∧ e ≠ .matrixInEq ∧ e ≠ .searchVarsInVars ∧ e ≠ .nothingToDoEq ∧ e ≠ .underdeterminedSystem := by
  have hj := C105_justified cfg n t ctx e he
  refine ⟨?_, ?_, ?_, ?_, ?_⟩ <;> rintro rfl
  · obtain ⟨_, _, _, hj⟩ := hj; exact h _ _ hj
  · obtain ⟨_, _, _, hj⟩ := hj; exact h _ _ hj
  · obtain ⟨_, _, _, hj⟩ := hj; exact h _ _ hj
  · obtain ⟨_, hj⟩ := hj; exact h _ _ hj
  · obtain ⟨_, _, _, hj⟩ := hj; exact h _ _ hj

end MUL
