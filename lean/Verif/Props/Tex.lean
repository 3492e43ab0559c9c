import Verif.Proofs.Tex
import Verif.Props.Reread
import Verif.Num.RatText
/-!
# C62: the LaTeX of a formula can be read back
-/

set_option linter.unusedSectionVars false

namespace MUL
open Spec Spec.Tex Out FArith

section
variable {F : Type} [FNum F] [TextLaws F]

/-- **C62.** Reading the LaTeX of an unambiguous formula as mathematics gives the formula in plain notation: exactly
the text `as_string` prints, up to blanks. -/
theorem C62_read (cfg : Cfg) (t : AST F) (h : Clear cfg t) :
    Tex.read (t.asLatex cfg) = some ((t.asString cfg).filter (· != ' ')) := by
  obtain ⟨-, hs⟩ := clear_shows cfg h
  obtain ⟨s', h1, h2, -⟩ := hs [] ([], []) [] [] trivial rfl (Or.inl rfl)
  unfold Tex.read
  rw [List.append_nil] at h1
  rw [h1]
  simp [lex, lexSkip, run, h2, unblank]

/-- **C62** (no confusion): unambiguous formulas with the same LaTeX have the same plain text, up to blanks. -/
theorem C62_same_latex (cfg : Cfg) (t₁ t₂ : AST F) (h₁ : Clear cfg t₁) (h₂ : Clear cfg t₂)
    (h : t₁.asLatex cfg = t₂.asLatex cfg) :
    (t₁.asString cfg).filter (· != ' ') = (t₂.asString cfg).filter (· != ' ') := by
  have a := C62_read cfg t₁ h₁
  rw [h, C62_read cfg t₂ h₂] at a
  exact (Option.some.inj a).symm

/-- The LaTeX of a value is that of the expression it is converted to. -/
theorem C62_from_value (cfg : Cfg) (v : Value F) : (AST.fromValue v).asLatex cfg = v.asLatex cfg := by
  rcases v with m | v | s
  · simp only [AST.fromValue, AST.asLatex, Value.asLatex, asLatexRows_map, asLatexAll_map, List.map_map, List.flatMap_def]
    congr 4
    funext r
    simp [Function.comp_def, AST.asLatex, List.isEmpty_iff]
  · simp only [AST.fromValue, AST.asLatex, Value.asLatex, asLatexAll_map, List.map_map]
    congr 3
  · simp only [AST.fromValue, AST.asLatex, Value.asLatex]

/-- **C62** (results): so is the LaTeX of a result with several values; it is read back as the list of the values. -/
theorem C62_values (cfg : Cfg) (vs : List (Value F)) (h2 : 2 ≤ vs.length) (h : ∀ v ∈ vs, Clear cfg (AST.fromValue v)) :
    Tex.read (valuesAsLatex cfg vs) = some ((AST.list (vs.map AST.fromValue)).asString cfg |>.filter (· != ' ')) := by
  rw [← C62_read cfg _ (Clear.list (vs.map AST.fromValue) (by
    intro a ha
    obtain ⟨v, hv, rfl⟩ := List.mem_map.1 ha
    exact h v hv))]
  rcases vs with _ | ⟨a, _ | ⟨b, vs⟩⟩
  · simp at h2
  · simp at h2
  · congr 1
    simp only [valuesAsLatex, AST.asLatex, asLatexAll_map, List.map_map]
    congr 3
    simp [Function.comp_def, C62_from_value]

theorem read_definition {name body w : Str} (al : Bool) (hn : '=' ∉ name) (hb : Tex.read body = some w) :
    Tex.readDefinition (name ++ [' '] ++ aligner al ++ str! "= " ++ body) =
      some (name.filter (fun c => c != '&' && c != ' '), w) := by
  have hp : ∀ c ∈ name ++ [' '] ++ aligner al, (c != '=') = true := by
    intro c hc
    simp only [List.mem_append] at hc
    rcases hc with (hc | hc) | hc
    · simp only [bne_iff_ne, ne_eq]; rintro rfl; exact hn hc
    · simp only [List.mem_singleton] at hc; subst hc; decide
    · unfold aligner at hc
      split at hc
      · simp only [List.mem_singleton] at hc; subst hc; decide
      · cases hc
  unfold Tex.readDefinition
  rw [List.append_assoc, List.dropWhile_append_of_pos hp, List.takeWhile_append_of_pos hp]
  have h1 : (str! "= " ++ body).dropWhile (· != '=') = str! "= " ++ body := by simp
  have h2 : (str! "= " ++ body).takeWhile (· != '=') = [] := by simp
  rw [h1, h2]
  simp only [List.cons_append, List.nil_append, List.drop_succ_cons, List.drop_zero, hb, Option.map_some, List.append_nil]
  congr 2
  cases al <;> simp [aligner]

/-- **C62** (functions): the LaTeX of a function is read as its name with its parameters in order, and its body. -/
theorem C62_function (cfg : Cfg) (f : Function F) (al : Bool) (hn : ∀ n ∈ f.name :: f.inputs, '=' ∉ n ∧ '&' ∉ n ∧ ' ' ∉ n)
    (hb : Clear cfg f.ast) :
    Tex.readDefinition (f.asLatex cfg al) =
      some (f.name ++ ['('] ++ [','].intercalate f.inputs ++ [')'], (f.ast.asString cfg).filter (· != ' ')) := by
  have hj : ∀ l : List Str, (∀ n ∈ l, '=' ∉ n ∧ '&' ∉ n ∧ ' ' ∉ n) →
      '=' ∉ join (str! ", ") l ∧ (join (str! ", ") l).filter (fun c => c != '&' && c != ' ') = [','].intercalate l := by
    intro l hl
    unfold join
    induction l with
    | nil => simp
    | cons a l ih =>
      have ha : a.filter (fun c => c != '&' && c != ' ') = a := by
        rw [List.filter_eq_self]
        intro c hc
        obtain ⟨-, h2, h3⟩ := hl a (by simp)
        simp only [Bool.and_eq_true, bne_iff_ne, ne_eq]
        exact ⟨by rintro rfl; exact h2 hc, by rintro rfl; exact h3 hc⟩
      cases l with
      | nil => simpa [ha] using (hl a (by simp)).1
      | cons b l =>
        obtain ⟨g1, g2⟩ := ih fun n hn => hl n (by simp [hn])
        rw [List.intercalate_cons_cons, List.intercalate_cons_cons, List.filter_append, List.filter_append, ha, g2]
        refine ⟨?_, rfl⟩
        simp only [List.mem_append, not_or]
        exact ⟨⟨(hl a (by simp)).1, by decide⟩, g1⟩
  obtain ⟨g1, g2⟩ := hj f.inputs fun n hn' => hn n (by simp [hn'])
  obtain ⟨-, g4⟩ := hj [f.name] fun n hn' => hn n (by simp at hn'; simp [hn'])
  obtain ⟨hf, -⟩ := hn f.name (by simp)
  have := read_definition (name := f.name ++ ['('] ++ join (str! ", ") f.inputs ++ [')']) (body := f.ast.asLatex cfg) al (by
    simp only [List.mem_append, List.mem_singleton, not_or]
    exact ⟨⟨⟨hf, by decide⟩, g1⟩, by decide⟩) (C62_read cfg _ hb)
  have e : f.asLatex cfg al = f.name ++ ['('] ++ join (str! ", ") f.inputs ++ [')'] ++ [' '] ++ aligner al ++ str! "= " ++ f.ast.asLatex cfg := by
    simp [Function.asLatex, AST.asLatexAtFun]
  rw [e, this]
  have g4' : f.name.filter (fun c => c != '&' && c != ' ') = f.name := by simpa [join] using g4
  simp [List.filter_append, g2, g4']

/-- **C62** (variables): the LaTeX of a variable is read as its name and its value, or the list of its values. -/
theorem C62_variable (cfg : Cfg) (v : Variable F) (al : Bool) (hn : '=' ∉ v.name ∧ '&' ∉ v.name ∧ ' ' ∉ v.name)
    (hv : v.values ≠ []) (h : ∀ x ∈ v.values, Clear cfg (AST.fromValue x)) :
    Tex.readDefinition (v.asLatex cfg al) =
      some (if v.name = str! "pi" then str! "\\pi" else v.name,
        ((match v.values with
          | [x] => AST.fromValue x
          | vs => .list (vs.map AST.fromValue)).asString cfg).filter (· != ' ')) := by
  obtain ⟨name, vs⟩ := v
  simp only at hn hv h ⊢
  have hl : '=' ∉ latexName name ∧ (latexName name).filter (fun c => c != '&' && c != ' ') = latexName name := by
    unfold latexName
    split
    · decide
    · refine ⟨hn.1, ?_⟩
      rw [List.filter_eq_self]
      intro c hc
      simp only [Bool.and_eq_true, bne_iff_ne, ne_eq]
      exact ⟨by rintro rfl; exact hn.2.1 hc, by rintro rfl; exact hn.2.2 hc⟩
  rcases vs with _ | ⟨a, _ | ⟨b, vs⟩⟩
  · exact absurd rfl hv
  · have hr := C62_read cfg _ (h a (by simp))
    rw [C62_from_value] at hr
    have := read_definition (name := latexName name) al hl.1 hr
    rw [hl.2] at this
    exact this
  · have hr := C62_values cfg (a :: b :: vs) (by simp) h
    have := read_definition (name := latexName name) al hl.1 hr
    rw [hl.2] at this
    simp only [Variable.asLatex, valuesAsLatexAtVar]
    refine Eq.trans ?_ this
    congr 1
    simp [valuesAsLatex]

end

section
variable [UTable] {F : Type} [FNum F] [TextLaws F]

/-- **C62** (reparse): the notation read from the LaTeX is accepted by `parse` and gives the printed tree again (up to
rounded numbers, parentheses around exponents and the transposition of matrices described by `reread`). -/
theorem C62_tree (cfg : Cfg) (e : Ex) (hw : e.WF) (hr : e.Readable F cfg) (hc : Clear cfg (e.tree cfg : AST F)) :
    ∃ s, Tex.read ((e.tree cfg : AST F).asLatex cfg) = some s ∧
      parse cfg s = .ok (reread cfg (e.tree cfg : AST F)) := by
  refine ⟨_, C62_read cfg _ hc, ?_⟩
  rw [C07_blanks cfg _ ((e.tree cfg : AST F).asString cfg) (by simp)]
  exact C59_tree cfg e hw hr

/-- **C62** (meaning): evaluating what the LaTeX says gives the same values, or the same error, as evaluating the
expression, in every context. -/
theorem C62_meaning (cfg : Cfg) (e : Ex) (hw : e.WF) (hr : e.Readable F cfg) (hu : Unrounded cfg (e.tree cfg : AST F))
    (hc : Clear cfg (e.tree cfg : AST F)) (ctx : Context F) :
    ∃ s, Tex.read ((e.tree cfg : AST F).asLatex cfg) = some s ∧
      (∀ vs, Finishes (fun n => eval cfg n (e.tree cfg) ctx) (.ok vs) ↔
        Finishes (fun n => quickEval cfg n s ctx) (.ok vs)) ∧
      (∀ x, Finishes (fun n => eval cfg n (e.tree cfg) ctx) (.err x) ↔
        Finishes (fun n => quickEval cfg n s ctx) (.err (.evalError x))) := by
  obtain ⟨s, h1, h2⟩ := C62_tree (F := F) cfg e hw hr hc
  refine ⟨s, h1, ?_⟩
  have h3 := C29_eval cfg _ ctx h2
  have h4 := parenEq_finishes cfg (parenEq_reread hu) ctx
  exact ⟨fun vs => (h4 _).trans (h3.1 vs), fun x => (h4 _).trans (h3.2 x)⟩

/-- **C62** (no confusion of meanings): expressions with the same LaTeX have the same values. -/
theorem C62_same_meaning (cfg : Cfg) (e₁ e₂ : Ex) (hw₁ : e₁.WF) (hw₂ : e₂.WF) (hr₁ : e₁.Readable F cfg)
    (hr₂ : e₂.Readable F cfg) (hu₁ : Unrounded cfg (e₁.tree cfg : AST F)) (hu₂ : Unrounded cfg (e₂.tree cfg : AST F))
    (hc₁ : Clear cfg (e₁.tree cfg : AST F)) (hc₂ : Clear cfg (e₂.tree cfg : AST F))
    (h : (e₁.tree cfg : AST F).asLatex cfg = (e₂.tree cfg : AST F).asLatex cfg) (ctx : Context F) (vs : List (Value F)) :
    Finishes (fun n => quickEval cfg n e₁.text ctx) (.ok vs) ↔ Finishes (fun n => quickEval cfg n e₂.text ctx) (.ok vs) := by
  obtain ⟨s₁, r₁, m₁, -⟩ := C62_meaning (F := F) cfg e₁ hw₁ hr₁ hu₁ hc₁ ctx
  obtain ⟨s₂, r₂, m₂, -⟩ := C62_meaning (F := F) cfg e₂ hw₂ hr₂ hu₂ hc₂ ctx
  have q₁ := (C29_eval cfg e₁.text ctx (C09_parse_text (F := F) cfg e₁ hw₁)).1 vs
  have q₂ := (C29_eval cfg e₂.text ctx (C09_parse_text (F := F) cfg e₂ hw₂)).1 vs
  rw [h, r₂] at r₁
  cases r₁
  rw [← q₁, ← q₂, m₁ vs, m₂ vs]

end

section Refuted
variable {F : Type} [FNum F]

/-- **C62** (refuted for `inv`): the parentheses around the argument of `inv` are not printed: `inv(a+b)` and
`a+inv(b)` have the same LaTeX, whatever `a` and `b` are. -/
theorem C62_inv_false (cfg : Cfg) (a b z : AST F) :
    (AST.simple .inv (.simple .add a b) z).asLatex cfg = (AST.simple .add a (.simple .inv b z)).asLatex cfg := by
  simp only [AST.asLatex, List.append_assoc]

/-- **C62** (refuted for `?`): the component `v?n` is printed like a variable named `v_{n}`. -/
theorem C62_get_false (cfg : Cfg) (a b : Str) (ha : a ≠ str! "pi") (hb : b ≠ str! "pi") (hab : a ++ str! "_{" ++ b ++ str! "}" ≠ str! "pi") :
    (AST.simple .get (.variable a) (.variable b) : AST F).asLatex cfg = (AST.variable (a ++ str! "_{" ++ b ++ str! "}") : AST F).asLatex cfg := by
  simp only [AST.asLatex, latexName, if_neg ha, if_neg hb, if_neg hab]

/-- **C62** (refuted for equations): the search variables are not printed. -/
theorem C62_equation_false (cfg : Cfg) (es : List (AST F × AST F)) (vs vs' : List Str) :
    (AST.equation es vs).asLatex cfg = (AST.equation es vs').asLatex cfg := by
  simp only [AST.asLatex]

end Refuted

section Examples

/-- `pi*x/2 - I(sqrt(t),t,0,root(8,3)) + D(sin(u),u,a_1)` -/
def sample : AST Q :=
  .simple .add
    (.simple .sub (.simple .mult (.variable (str! "pi")) (.simple .div (.variable (str! "x")) (.scalar (.fin 2))))
      (.integral (.simple .sqrt (.variable (str! "t")) (.scalar (.fin 0))) (str! "t") (.scalar (.fin 0))
        (.simple .root (.scalar (.fin 8)) (.scalar (.fin 3)))))
    (.derivative (.simple .sin (.variable (str! "u")) (.scalar (.fin 0))) (str! "u") (.variable (str! "a_1")))

example : sample.asLatex Cfg.default = str! "\\pi\\cdot \\frac{x}{2}-\\int_{0}^{\\sqrt[3]{8}}\\sqrt{t} dt+\\frac{\\partial}{\\partial u}\\left(\\sin\\left(u\\right)\\right)_{\\text{at }u = a_1}" := by
  decide +kernel

/-- It is unambiguous. -/
theorem sample_clear : Clear Cfg.default sample := by
  have hs : ∀ k ∈ [0, 2, 3, 8], Clear Cfg.default (.scalar (.fin k) : AST Q) := by
    simp only [List.forall_mem_cons]
    refine ⟨.scalar _ ?_, .scalar _ ?_, .scalar _ ?_, .scalar _ ?_, nofun⟩ <;> decide +kernel
  have hn : ∀ n ∈ [str! "pi", str! "x", str! "t", str! "u", str! "a_1"], ClearName n := by
    simp only [List.forall_mem_cons]
    refine ⟨⟨?_, ?_, ?_⟩, ⟨?_, ?_, ?_⟩, ⟨?_, ?_, ?_⟩, ⟨?_, ?_, ?_⟩, ⟨?_, ?_, ?_⟩, nofun⟩ <;> decide
  have hv : ∀ n ∈ [str! "pi", str! "x", str! "t", str! "u", str! "a_1"], Clear Cfg.default (.variable n : AST Q) :=
    fun n h => .variable n (hn n h)
  refine .two _ _ _ (by decide) (by decide) (by decide) (.two _ _ _ (by decide) (by decide) (by decide)
    (.two _ _ _ (by decide) (by decide) (by decide) (hv _ (by decide))
      (.two _ _ _ (by decide) (by decide) (by decide) (hv _ (by decide)) (hs _ (by decide)) nofun) nofun)
    (.integral _ _ _ _ (hn _ (by decide)) (.one _ _ _ (by decide) (hv _ (by decide))) (hs _ (by decide))
      (.two _ _ _ (by decide) (by decide) (by decide) (hs _ (by decide)) (hs _ (by decide)) nofun)) nofun)
    (.derivative _ _ _ (hn _ (by decide)) (.one _ _ _ (by decide) (hv _ (by decide))) (hv _ (by decide))) nofun

example : Tex.read (sample.asLatex Cfg.default) = some (str! "pi*x/2-I(sqrt(t),t,0,root(8,3))+D(sin(u),u,a_1)") := by
  decide +kernel

/-- The example of C59 (`2x^2-3*(y+-1)/4-sin(z)`) is unambiguous as well. -/
theorem exampleEx_clear : Clear Cfg.default (exampleEx.tree Cfg.default : AST Q) := by
  have hs : ∀ s ∈ [['1'], ['2'], ['3'], ['4']], Clear Cfg.default ((Ex.num s none).tree Cfg.default : AST Q) := by
    simp only [List.forall_mem_cons]
    refine ⟨.scalar _ ?_, .scalar _ ?_, .scalar _ ?_, .scalar _ ?_, nofun⟩ <;> decide +kernel
  have hv : ∀ n ∈ [str! "x", str! "y", str! "z"], Clear Cfg.default (.variable n : AST Q) := by
    simp only [List.forall_mem_cons]
    refine ⟨.variable _ ⟨?_, ?_, ?_⟩, .variable _ ⟨?_, ?_, ?_⟩, .variable _ ⟨?_, ?_, ?_⟩, nofun⟩ <;> decide
  refine .two _ _ _ (by decide) (by decide) (by decide) (.two _ _ _ (by decide) (by decide) (by decide)
      (.two _ _ _ (by decide) (by decide) (by decide) (hs ['2'] (by decide)) (.two _ _ _ (by decide) (by decide) (by decide) (hv ['x'] (by decide)) (hs ['2'] (by decide)) nofun) nofun)
      (.two _ _ _ (by decide) (by decide) (by decide) (hs ['3'] (by decide)) (.two _ _ _ (by decide) (by decide) (by decide)
        (.one _ _ _ (by decide) (.two _ _ _ (by decide) (by decide) (by decide) (hv ['y'] (by decide)) (.neg _ _ (hs ['1'] (by decide))) nofun))
        (hs ['4'] (by decide)) nofun) nofun) nofun) (.one _ _ _ (by decide) (hv ['z'] (by decide))) nofun

end Examples

end MUL
