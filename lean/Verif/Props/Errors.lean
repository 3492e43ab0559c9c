import Verif.Spec.Errors
import Verif.Props.Arith
import Verif.Props.Eval
import Verif.Props.EvalCtx
import Verif.Props.Grammar
/-!
# C61: error reports
-/

namespace MUL
open Spec Out

/-- **C61**: converting an error into a more general error type keeps its text, and an error made from a text
(`MathLibError::Other`, `EvalError::from`) has this text. -/
theorem C61_same_text (p : ParserError) (e : EvalError) (q : QuickEvalError) (l : LatexError) (s : String) (t : Str) :
    (p : QuickEvalError).getReason = p.getReason ∧ (p : MathLibError).getReason = p.getReason ∧
    (e : QuickEvalError).getReason = e.getReason ∧ (e : MathLibError).getReason = e.getReason ∧
    (q : MathLibError).getReason = q.getReason ∧ (l : MathLibError).getReason = l.getReason ∧
    (s : EvalError).getReason = s.toList ∧ (MathLibError.other t).getReason = t :=
  ⟨rfl, rfl, rfl, rfl, rfl, rfl, rfl, rfl⟩

theorem usizeText_digits (n : Nat) : ∀ c ∈ usizeText n, c.isDigit = true := by
  intro c hc
  exact Nat.isDigit_of_mem_toDigits (b := 10) (by decide) (by decide) hc

theorem usizeText_inj {a b : Nat} (h : usizeText a = usizeText b) : a = b := by
  have h1 := congrArg (fun s => Nat.ofDigitChars 10 s 0) h
  simp only [usizeText] at h1
  rwa [Nat.ofDigitChars_toDigits (by decide) (by decide), Nat.ofDigitChars_toDigits (by decide) (by decide)] at h1

/-- Digits followed by something else can be separated in one way. -/
theorem digits_split {a b : Str} {s t : Str} (ha : ∀ c ∈ a, c.isDigit = true) (hb : ∀ c ∈ b, c.isDigit = true)
    (h : a ++ ' ' :: s = b ++ ' ' :: t) : a = b ∧ s = t := by
  induction a generalizing b with
  | nil =>
    cases b with
    | nil => simpa using h
    | cons c b =>
      simp only [List.nil_append, List.cons_append, List.cons.injEq] at h
      have := hb c (by simp)
      rw [← h.1] at this
      exact absurd this (by decide)
  | cons x a ih =>
    cases b with
    | nil =>
      simp only [List.nil_append, List.cons_append, List.cons.injEq] at h
      have := ha x (by simp)
      rw [h.1] at this
      exact absurd this (by decide)
    | cons c b =>
      simp only [List.cons_append, List.cons.injEq] at h
      obtain ⟨h1, h2⟩ := ih (fun c hc => ha c (by simp [hc])) (fun c hc => hb c (by simp [hc])) h.2
      exact ⟨by rw [h.1, h1], h2⟩

theorem count_inj {a b c d : Nat}
    (h : (EvalError.wrongNumberOfArgs a b).getReason = (EvalError.wrongNumberOfArgs c d).getReason) :
    a = c ∧ b = d := by
  simp only [EvalError.getReason, List.append_assoc, List.cons_append, List.nil_append, List.cons.injEq, true_and] at h
  obtain ⟨h1, h2⟩ := digits_split (usizeText_digits a) (usizeText_digits c) h
  simp only [List.cons.injEq, true_and] at h2
  exact ⟨usizeText_inj h1, usizeText_inj (digits_split (usizeText_digits b) (usizeText_digits d) h2).1⟩

theorem parser_inj {p q : ParserError} (h : p.getReason = q.getReason) : p = q := by
  cases p <;> cases q <;>
    first
      | rfl
      | (simp [ParserError.getReason] at h; done)
      | (simp [ParserError.getReason] at h; simp [h]; done)
      | (simp only [ParserError.getReason, List.append_assoc, List.append_cancel_left_eq, List.append_cancel_right_eq] at h
         rw [String.toList_inj.1 h])

theorem eval_inj {p q : EvalError} (hp : ∀ s, p ≠ .mathError s) (hq : ∀ s, q ≠ .mathError s)
    (h : p.getReason = q.getReason) : p = q := by
  cases p <;> cases q <;>
    first
      | rfl
      | exact absurd rfl (hp _)
      | exact absurd rfl (hq _)
      | (obtain ⟨rfl, rfl⟩ := count_inj h; rfl)
      | (simp [EvalError.getReason] at h; done)
      | (simp [EvalError.getReason] at h; simp [h]; done)

theorem cross_inj {p : ParserError} {q : EvalError} (hq : ∀ s, q ≠ .mathError s)
    (h : p.getReason = q.getReason) : False := by
  cases p <;> cases q <;>
    first
      | exact absurd rfl (hq _)
      | (simp [ParserError.getReason, EvalError.getReason] at h; done)

/-- **C61**: the text identifies the error: two different errors never have the same text, except where the text
comes from a maths function. -/
theorem C61_distinct (p q : QuickEvalError) (hp : ¬ Foreign p) (hq : ¬ Foreign q)
    (h : p.getReason = q.getReason) : p = q := by
  have key : ∀ e : EvalError, ¬ Foreign (.evalError e) → ∀ s, e ≠ .mathError s := by
    rintro e he s rfl; exact he trivial
  cases p <;> cases q
  · rfl
  · rename_i e; cases e <;> simp [QuickEvalError.getReason, ParserError.getReason] at h
  · rename_i e
    have := key e hq
    cases e <;> first
      | exact absurd rfl (this _)
      | simp [QuickEvalError.getReason, EvalError.getReason] at h
  · rename_i e; cases e <;> simp [QuickEvalError.getReason, ParserError.getReason] at h
  · rw [parser_inj h]
  · exact (cross_inj (key _ hq) h).elim
  · rename_i e
    have := key e hp
    cases e <;> first
      | exact absurd rfl (this _)
      | simp [QuickEvalError.getReason, EvalError.getReason] at h
  · exact (cross_inj (key _ hp) h.symm).elim
  · rw [eval_inj (key _ hp) (key _ hq) h]

section
variable {F : Type} [FNum F]

/-- **C61**: an error of the LaTeX conversion says into what and why the conversion failed: two different errors have
different texts. -/
theorem C61_latex_distinct (p q : LatexError) (h : p.getReason = q.getReason) : p = q := by
  cases p <;> cases q <;> simp [LatexError.getReason] at h <;> simp [h]

/-- **C61**: the texts of the LaTeX conversion. -/
theorem C61_latex (s : Str) :
    (LatexError.latexToPdfError s).getReason = "Could not convert Latex to PDF: ".toList ++ s ++ "!".toList ∧
    (LatexError.latexToImageError s).getReason = "Could not convert Latex to Image: ".toList ++ s ++ "!".toList ∧
    (LatexError.latexToSvgError s).getReason = "Could not convert Latex to SVG: ".toList ++ s ++ "!".toList :=
  ⟨rfl, rfl, rfl⟩

/-- **C61**: the text of an error of `quick_eval` is the text of the error of the step that failed, reading or
evaluating. -/
theorem C61_quick [UTable] (cfg : Cfg) (s : Str) (ctx : Context F) (x : QuickEvalError)
    (h : Finishes (fun n => quickEval cfg n s ctx) (.err x)) :
    (∃ p : ParserError, (parse cfg s : Out ParserError (AST F)) = .err p ∧ x.getReason = p.getReason) ∨
    (∃ (b : AST F) (e : EvalError), parse cfg s = .ok b ∧ Finishes (fun n => eval cfg n b ctx) (.err e) ∧
      x.getReason = e.getReason) := by
  cases hp : (parse cfg s : Out ParserError (AST F)) with
  | err p =>
    left
    refine ⟨p, rfl, ?_⟩
    obtain ⟨-, n, hn⟩ := h
    have := C29_parse_error (F := F) cfg n s ctx hp
    simp only at hn
    rw [this] at hn
    cases hn
    rfl
  | ok b =>
    right
    obtain ⟨-, n, hn⟩ := h
    simp only [quickEval, hp, mapErr_ok, ok_bind] at hn
    cases he : eval cfg n b ctx with
    | ok v => rw [he] at hn; cases hn
    | panic => rw [he] at hn; cases hn
    | timeout => rw [he] at hn; cases hn
    | err e =>
      rw [he] at hn
      cases hn
      exact ⟨b, e, rfl, ⟨by simp, n, he⟩, rfl⟩
  | panic =>
    obtain ⟨-, n, hn⟩ := h
    simp only [quickEval, hp] at hn
    cases hn
  | timeout =>
    obtain ⟨-, n, hn⟩ := h
    simp only [quickEval, hp] at hn
    cases hn

/-- **C61**: an unknown variable is reported by its name. -/
theorem C61_unknown_variable [UTable] (cfg : Cfg) (v : Str) (hv : NameShape v) (ctx : Context F)
    (h : ∀ u ∈ ctx.vars, u.name ≠ v) :
    ∃ x, Finishes (fun n => quickEval cfg n v ctx) (.err x) ∧
      x.getReason = "Could not find variable ".toList ++ v ++ "!".toList := by
  have hp : (parse cfg v : Out ParserError (AST F)) = .ok (.variable v) := C09_parse_text (F := F) cfg (.var v) hv
  exact ⟨_, ((C29_eval cfg v ctx hp).2 _).1 ((C21_missing cfg ctx v []).2.2 h), rfl⟩

/-- **C61**: a call of an unknown function is reported by its name, a call with a wrong number of arguments by the
two numbers. -/
theorem C61_calls (cfg : Cfg) (ctx : Context F) (f : Str) (hname : f ≠ []) (args : List (AST F)) :
    ((∀ g ∈ ctx.funs, g.name ≠ f) → ∃ x, Finishes (fun n => eval cfg n (.function f args) ctx) (.err x) ∧
      x.getReason = "Could not find function ".toList ++ f ++ "!".toList) ∧
    (∀ before g after, ctx.funs = before ++ g :: after → (∀ u ∈ before, u.name ≠ f) → g.name = f →
      args.length ≠ g.inputs.length → ∃ x, Finishes (fun n => eval cfg n (.function f args) ctx) (.err x) ∧
      x.getReason = ("Wrong number of arguments! Expected " ++ toString g.inputs.length ++ " arguments, " ++
        toString args.length ++ " were given!").toList) := by
  refine ⟨fun h => ⟨_, ⟨by simp, 1, C22_no_function cfg 0 ctx f args hname h⟩, rfl⟩, ?_⟩
  intro before g after hc hb hg hl
  subst hg
  refine ⟨_, ⟨by simp, 1, C22_wrong_count cfg 0 ctx g args hname ?_ hl⟩, ?_⟩
  · simp only [Context.findFun, hc]
    rw [List.find?_append, List.find?_eq_none.2 (by simpa using hb), List.find?_cons_of_pos (by simp)]
    rfl
  · simp only [EvalError.getReason, usizeText, String.toList_append]
    have : ∀ n : Nat, (toString n).toList = Nat.toDigits 10 n := fun n => by
      simp [toString, Nat.repr]
    rw [this, this]
    rfl

/-- **C61**: operands of a kind the operation does not accept are reported by naming the operation and the kinds. -/
theorem C61_kinds {cfg : Cfg} {op : SimpleOp} {l r : AST F} {ctx : Context F} {a b : Value F}
    (hl : Finishes (fun n => eval cfg n l ctx) (.ok [a])) (hr : Finishes (fun n => eval cfg n r ctx) (.ok [b]))
    (h : accepts op (kind a) (kind b) = false) :
    ∃ x, Finishes (fun n => eval cfg n (.simple op l r) ctx) (.err x) ∧ x.getReason = (kindText op a b).toList := by
  have ht : opTable op a b = .err (kindText op a b) := by
    cases op <;> cases a <;> cases b <;> first
      | exact Bool.noConfusion h
      | rfl
  exact ⟨.mathError _, C19_first_error (op := op) hl hr (before := []) (after := []) (by simp [pairs]) (by simp) ht, rfl⟩

end

section Examples

/-- Different errors, different texts. -/
example : (EvalError.wrongNumberOfArgs 1 12).getReason ≠ (EvalError.wrongNumberOfArgs 11 2).getReason := by decide

example : (QuickEvalError.parserError (.wrongNumberOfArgs "root")).getReason =
    "Wrong number of arguments for root operation!".toList := by decide

/-- The same text when a maths function supplies it. -/
example : (EvalError.mathError "NaN or Inf").getReason = EvalError.naNOrInf.getReason := by decide

/-- `[1,2] + 3`: "Can't add scalar to vector!". -/
example : ∃ x, Finishes (fun n => eval Cfg.default n
      (.simple .add (.vector [.scalar (.fin 1), .scalar (.fin 2)]) (.scalar (.fin 3)) : AST Q) Context.empty) (.err x) ∧
    x.getReason = "Can't add scalar to vector!".toList := by
  obtain ⟨x, h1, h2⟩ := C61_kinds (F := Q) (cfg := Cfg.default) (op := .add) (ctx := Context.empty)
    (l := .vector [.scalar (.fin 1), .scalar (.fin 2)]) (r := .scalar (.fin 3))
    (a := .vector [.fin 1, .fin 2]) (b := .scalar (.fin 3)) ⟨by simp, 2, by decide +kernel⟩ ⟨by simp, 2, by decide +kernel⟩ rfl
  exact ⟨x, h1, by rw [h2]; decide⟩

end Examples

end MUL
