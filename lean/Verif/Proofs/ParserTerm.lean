import Verif.Proofs.ParserFuel
/-!
# The parser does not run out of its budget
-/

namespace MUL

/-- Solves goals `Out.Term e` where `e` is built from binds, matches and terminating calls. -/
macro "term_steps" : tactic => `(tactic|
  repeat' first
    | exact Out.term_ok _
    | exact Out.term_err _
    | exact Out.term_panic
    | exact idx_term _ _
    | exact slice_term _ _ _
    | exact unwrap_term _
    | assumption
    | (refine Out.Term.mapM _ fun _ _ => ?_)
    | (refine Out.Term.bind ?_ fun _ _ => ?_)
    | split)

section
variable {F : Type} [FArith F]

omit [FArith F] in
theorem parseEqEntry_term {rec : Str → Out ParserError (AST F)} (h : ∀ t, Out.Term (rec t)) (s : Str) :
    Out.Term (parseEqEntry rec s) := by
  unfold parseEqEntry
  have h1 := h (splitEq s).1
  have h2 := h (splitEq s).2
  simp only
  term_steps

theorem parseFunction_term {rec : Str → Out ParserError (AST F)} (h : ∀ t, Out.Term (rec t)) {s : Str} :
    ∀ res, parseFunction rec s = some res → Out.Term res := by
  intro res hres
  unfold parseFunction at hres
  split at hres
  · cases hres
  · cases hres
    simp only
    term_steps
    all_goals exact h _

omit [FArith F] in
theorem parseAdvanced_term {rec : Str → Out ParserError (AST F)} (h : ∀ t, Out.Term (rec t)) {s : Str} :
    ∀ res, parseAdvanced rec s = some res → Out.Term res := by
  intro res hres
  unfold parseAdvanced at hres
  split at hres
  · cases hres
    simp only
    term_steps
    all_goals exact h _
  split at hres
  · cases hres
    simp only
    term_steps
    all_goals exact h _
  split at hres
  · cases hres
    term_steps
    all_goals exact parseEqEntry_term h _
  · cases hres

theorem parseValue_term {cfg : Cfg} {rec : Str → Out ParserError (AST F)} (h : ∀ t, Out.Term (rec t)) {s : Str} :
    Out.Term (parseValue cfg rec s) := by
  unfold parseValue parseAll colMatrix asRow
  simp only
  term_steps
  all_goals exact h _

variable [UTable]

theorem isValidVarName_term {ε : Type} (s : Str) : Out.Term (isValidVarName s : Out ε Bool) := by
  unfold isValidVarName
  term_steps

theorem parseAtom_term {cfg : Cfg} {rec : Str → Out ParserError (AST F)} (h : ∀ t, Out.Term (rec t)) {s : Str} :
    Out.Term (parseAtom cfg rec s) := by
  unfold parseAtom parseAll
  term_steps
  all_goals first | exact h _ | exact isValidVarName_term _ | exact parseValue_term h

theorem parseStep_term {cfg : Cfg} {rec : Str → Out ParserError (AST F)} (h : ∀ t, Out.Term (rec t)) {s : Str} :
    Out.Term (parseStep cfg rec s) := by
  unfold parseStep
  simp only
  split
  · exact Out.term_err _
  split
  · exact Out.term_err _
  split
  · exact Out.term_err _
  refine Out.Term.bind (idx_term _ _) fun c0 _ => ?_
  refine Out.Term.bind (idx_term _ _) fun cl _ => ?_
  split
  · term_steps
    all_goals exact h _
  split
  · term_steps
    all_goals exact h _
  split
  · rename_i hres
    exact parseFunction_term h _ hres
  split
  · rename_i hres
    exact parseAdvanced_term h _ hres
  · exact parseAtom_term h

theorem parseInner_term (cfg : Cfg) (s : Str) : Out.Term (parseInner cfg s : Out ParserError (AST F)) :=
  parseInner_ind cfg (fun _ => True) (fun _ _ _ _ => trivial) Out.Term (.err .emptyExpr) (Out.term_err _)
    (fun _ h _ _ => parseStep_term h) s trivial

end
end MUL
