import Verif.Model.Print
import Verif.Num.RatText
/-!
# C54-C56: results, steps, histories
-/

namespace MUL

set_option linter.unusedSectionVars false

section
variable {F : Type} [FNum F]

theorem display_no_blank [TextLaws F] (a : F) : ' ' ∉ FText.display a := by
  intro h
  rcases TextLaws.display_chars a ' ' h with h | h | h
  · exact absurd h (by decide)
  · exact absurd h (by decide)
  · exact absurd h (by decide)

/-- The text of a number is digits, letters, signs and points, or a power of ten. -/
theorem roundAndFormat_latex_cases [TextLaws F] (cfg : Cfg) (x : F) :
    (∃ l r, roundAndFormat cfg x true = l ++ str! "\\cdot 10^{" ++ r ++ ['}'] ∧
      ∀ c ∈ l ++ r, c.isAlphanum = true ∨ c = '-' ∨ c = '.' ∨ c = '+') ∨
    (∀ c ∈ roundAndFormat cfg x true, c.isAlphanum = true ∨ c = '-' ∨ c = '.') := by
  unfold roundAndFormat
  simp only [Bool.not_true, Bool.and_false, Bool.false_and, Bool.false_eq_true, if_false]
  split
  · left
    refine ⟨_, _, rfl, ?_⟩
    intro c hc
    have hsci : ∀ c ∈ (match FText.displayExp x with | '+' :: r => r | s => s),
        c.isAlphanum = true ∨ c = '-' ∨ c = '.' ∨ c = '+' := by
      intro c hc
      split at hc
      · rename_i h
        exact TextLaws.exp_chars x c (by rw [h]; exact List.mem_cons_of_mem _ hc)
      · exact TextLaws.exp_chars x c hc
    rcases List.mem_append.1 hc with hc | hc
    · exact hsci c ((List.takeWhile_sublist _).subset hc)
    · exact hsci c ((List.dropWhile_sublist _).subset (List.mem_of_mem_drop ((List.takeWhile_sublist _).subset hc)))
  · right
    split
    · intro c hc
      exact TextLaws.display_chars _ c (List.mem_of_mem_drop hc)
    · exact fun c hc => TextLaws.display_chars _ c hc

theorem no_solutions_value [TextLaws F] (cfg : Cfg) (v : Value F) : v.asLatex cfg ≠ str! "No solutions" := by
  intro h
  rcases v with m | v | s
  · have := congrArg List.head? h
    exact absurd this (by simp [Value.asLatex])
  · have := congrArg List.head? h
    exact absurd this (by simp [Value.asLatex])
  · change roundAndFormat cfg s true = _ at h
    rcases roundAndFormat_latex_cases cfg s with ⟨l, r, h1, h2⟩ | h1
    · rw [h] at h1
      have : '}' ∈ str! "No solutions" := by
        rw [h1]
        exact List.mem_append_right _ (List.mem_singleton.2 rfl)
      exact absurd this (by decide)
    · have := h1 ' ' (by rw [h]; decide)
      exact absurd this (by decide)

/-- **C54** (no solutions): the printed result says "No solutions" exactly when there is none. -/
theorem C54_no_solutions [TextLaws F] (cfg : Cfg) (vs : List (Value F)) :
    valuesAsLatex cfg vs = str! "No solutions" ↔ vs = [] := by
  constructor
  · intro h
    rcases vs with _ | ⟨a, _ | ⟨b, vs⟩⟩
    · rfl
    · exact absurd h (no_solutions_value cfg a)
    · have := congrArg List.head? h
      exact absurd this (by simp [valuesAsLatex])
  · rintro rfl
    rfl

/-- **C54** (one value): a single value is printed as itself. -/
theorem C54_one (cfg : Cfg) (v : Value F) : valuesAsLatex cfg [v] = v.asLatex cfg := rfl

/-- **C54** (several values): several values are printed in order as a set. -/
theorem C54_set (cfg : Cfg) (a b : Value F) (vs : List (Value F)) :
    valuesAsLatex cfg (a :: b :: vs) = str! "\\left\\{" ++ a.asLatex cfg ++
      ((b :: vs).flatMap fun v => str! "; " ++ v.asLatex cfg) ++ str! "\\right\\}" := by
  have : ∀ (x : Value F) (l : List (Value F)), join str! "; " ((x :: l).map fun v => v.asLatex cfg) =
      x.asLatex cfg ++ l.flatMap fun v => str! "; " ++ v.asLatex cfg := by
    intro x l
    induction l generalizing x with
    | nil => simp [join]
    | cons y l ih =>
      have h2 := ih y
      unfold join at h2 ⊢
      rw [List.map_cons, List.map_cons, List.intercalate_cons_cons, ← List.map_cons, h2, List.flatMap_cons]
      simp only [List.append_assoc]
  show str! "\\left\\{" ++ join str! "; " ((a :: b :: vs).map fun v => v.asLatex cfg) ++ str! "\\right\\}" = _
  rw [this]
  simp only [List.append_assoc]

/-- **C54** (named results): the name (`pi` as `\pi`), the aligner if wanted, and the result; without a result
the name and "No solutions". -/
theorem C54_at_var (cfg : Cfg) (vs : List (Value F)) (name : Str) (al : Bool) :
    valuesAsLatexAtVar cfg vs name al =
      (if name = str! "pi" then str! "\\pi" else name) ++
        (if vs = [] then str! ": " else str! " " ++ (if al then str! "&" else []) ++ str! "= ") ++
        valuesAsLatex cfg vs := by
  rcases vs with _ | ⟨a, _ | ⟨b, vs⟩⟩
  · simp [valuesAsLatexAtVar, valuesAsLatex, latexName]
  · simp [valuesAsLatexAtVar, valuesAsLatex, latexName, aligner]
  · simp [valuesAsLatexAtVar, valuesAsLatex, latexName, aligner]

/-- **C54** (named values): a single value with a name looks like the result that consists of this value, with that name. -/
theorem C54_value_at_var (cfg : Cfg) (v : Value F) (name : Str) (al : Bool) :
    v.asLatexAtVar cfg name al =
      (if name = str! "pi" then str! "\\pi" else name) ++ str! " " ++ (if al then str! "&" else []) ++ str! "= " ++ v.asLatex cfg := by
  simp [Value.asLatexAtVar, latexName, aligner]

/-- **C54** (variables): the LaTeX of a variable shows its name and all of its values. -/
theorem C54_variable (cfg : Cfg) (v : Variable F) (al : Bool) :
    v.asLatex cfg al =
      (if v.name = str! "pi" then str! "\\pi" else v.name) ++
        (if v.values = [] then str! ": " else str! " " ++ (if al then str! "&" else []) ++ str! "= ") ++
        valuesAsLatex cfg v.values := C54_at_var cfg v.values v.name al

example : (Variable.asLatex Cfg.default ⟨str! "pi", [.scalar (.fin 3 : Q), .scalar (.fin 4)]⟩ false) =
    str! "\\pi = \\left\\{3; 4\\right\\}" := by decide +kernel
example : (Value.scalar (.fin 3 : Q)).asLatexAtVar Cfg.default str! "x" true = str! "x &= 3" := by decide +kernel

example : valuesAsLatex Cfg.default [.scalar (.fin (5/4)), .scalar (.fin (-2) : Q)] =
    str! "\\left\\{1.25; -2\\right\\}" := by decide +kernel
example : valuesAsLatexAtVar Cfg.default ([] : List (Value Q)) str! "x" true = str! "x: No solutions" := by decide +kernel
example : valuesAsLatexAtVar Cfg.default [.scalar (.fin 3 : Q)] str! "pi" true = str! "\\pi &= 3" := by decide +kernel

/-! ## C55 -/

/-- **C55** (tag): the tagged form of a step is its LaTeX form followed by the tag and the label with the given
number. -/
theorem C55_tag (cfg : Cfg) (s : Step F) (n : Int) :
    s.asLatexWithTag cfg n = s.asLatex cfg ++
      (str! " \\tag{" ++ (toString n).toList ++ str! "}\\label{eq:" ++ (toString n).toList ++
        str! "} \\\\ \\\\ \n") := by
  have ht : str! " \\tag{" ++ (toString n).toList ++ str! "}\\label{eq:" ++ (toString n).toList ++
        str! "} \\\\ \\\\ \n" = Step.tagText n := rfl
  rw [ht]
  rcases s with ⟨t, r, save⟩ | ⟨t, i, nm⟩
  · simp only [Step.asLatexWithTag, Step.asLatex]
    split <;> simp only [List.append_assoc]
  · rfl

/-- **C55** (aligned form): the LaTeX form of a calculation is its inline form with one `&` in front of the first
`=` that is not part of the calculation itself; if the calculation prints like its result and is not saved, both
are the same. -/
theorem C55_inline (cfg : Cfg) (t : AST F) (r : List (Value F)) (save : Option Str) :
    ∃ pre post, (Step.calculation t r save).asLatexInline cfg = pre ++ post ∧
      ((∃ rest, post = str! "= " ++ rest ∧ (Step.calculation t r save).asLatex cfg = pre ++ str! "&" ++ post) ∨
        (save = none ∧ t.asLatex cfg = valuesAsLatex cfg r ∧ (Step.calculation t r save).asLatex cfg = pre ++ post)) := by
  simp only [Step.asLatexInline, Step.asLatex]
  rcases save with _ | v
  · simp only [List.nil_append, Option.isSome_none, Bool.false_eq_true, if_false]
    by_cases h : t.asLatex cfg = valuesAsLatex cfg r
    · rw [if_neg (not_not.2 h), if_neg (not_not.2 h)]
      exact ⟨t.asLatex cfg, [], by simp, Or.inr ⟨trivial, h, by simp⟩⟩
    · rw [if_pos h, if_pos h]
      refine ⟨t.asLatex cfg ++ str! " ", str! "= " ++ valuesAsLatex cfg r, ?_, Or.inl ⟨_, rfl, ?_⟩⟩
      · have : str! " = " = str! " " ++ str! "= " := by decide
        rw [this]
        simp only [List.append_assoc]
      · simp
  · simp only [Option.isSome_some, if_true]
    have e1 : str! " = " = str! " " ++ str! "= " := by decide
    have e2 : str! " &= " = str! " " ++ str! "&" ++ str! "= " := by decide
    by_cases h : t.asLatex cfg = valuesAsLatex cfg r
    · rw [if_neg (not_not.2 h), if_neg (not_not.2 h)]
      refine ⟨v ++ str! " ", str! "= " ++ t.asLatex cfg, ?_, Or.inl ⟨_, rfl, ?_⟩⟩
      · rw [e1]; simp only [List.append_assoc]
      · rw [e2]; simp only [List.append_assoc]
    · rw [if_pos h, if_pos h]
      refine ⟨v ++ str! " ", str! "= " ++ (t.asLatex cfg ++ str! " = " ++ valuesAsLatex cfg r), ?_, Or.inl ⟨_, rfl, ?_⟩⟩
      · rw [e1]; simp only [List.append_assoc]
      · rw [e2, e1]; simp

theorem count_join {c : Char} {sep : Str} {ps : List Str} (h1 : c ∉ sep) (h2 : ∀ p ∈ ps, c ∉ p) : c ∉ join sep ps := by
  induction ps with
  | nil => simp [join]
  | cons p ps ih =>
    rcases ps with _ | ⟨q, ps⟩
    · simpa [join] using h2 p (by simp)
    · unfold join at ih ⊢
      rw [List.intercalate_cons_cons]
      simp only [List.mem_append, not_or]
      exact ⟨⟨h2 p (by simp), h1⟩, ih (fun p hp => h2 p (List.mem_cons_of_mem _ hp))⟩

/-- **C55** (inline form of calculations): if neither the name nor the LaTeX of the calculation and of the result
contain an `&`, the inline form contains none. -/
theorem C55_inline_calculation (cfg : Cfg) (t : AST F) (r : List (Value F)) (save : Option Str)
    (h1 : '&' ∉ t.asLatex cfg) (h2 : '&' ∉ valuesAsLatex cfg r) (h3 : ∀ v ∈ save, '&' ∉ v) :
    '&' ∉ (Step.calculation t r save).asLatexInline cfg := by
  have e : '&' ∉ str! " = " := by decide
  simp only [Step.asLatexInline]
  rcases save with _ | v
  · simp only [List.nil_append]
    split
    · simp only [List.mem_append, not_or]
      exact ⟨⟨h1, e⟩, h2⟩
    · exact h1
  · have hv := h3 v rfl
    split
    · simp only [List.mem_append, not_or]
      exact ⟨⟨hv, e⟩, ⟨h1, e⟩, h2⟩
    · simp only [List.mem_append, not_or]
      exact ⟨⟨hv, e⟩, h1⟩

/-- **C55** (refuted for functions): the documentation says that the inline form has no aligner. For every function
declaration it has one. -/
theorem C55_inline_declaration_false (cfg : Cfg) (t : AST F) (inputs : List Str) (name : Str) :
    '&' ∈ (Step.declaration t inputs name).asLatexInline cfg := by
  simp [Step.asLatexInline, AST.asLatexAtFun, aligner]

example : (Step.calculation (.simple .add (.scalar (.fin 1)) (.scalar (.fin 2 : Q))) [.scalar (.fin 3)] none).asLatexWithTag
    Cfg.default 4 = str! "1+2 &= 3 \\tag{4}\\label{eq:4} \\\\ \\\\ \n" := by decide +kernel
example : (Step.calculation (.simple .add (.scalar (.fin 1)) (.scalar (.fin 2 : Q))) [.scalar (.fin 3)]
    (some str! "x")).asLatexInline Cfg.default = str! "x = 1+2 = 3" := by decide +kernel
example : (Step.declaration (.variable str! "x" : AST Q) [str! "x"] str! "f").asLatexInline Cfg.default =
    str! "f(x) &= x" := by decide +kernel

/-! ## C56 -/

/-- The numbered steps, as the property describes them. -/
def numberedSteps (cfg : Cfg) (history : List (Step F)) : List Str :=
  (List.range history.length).filterMap fun i => history[i]?.map fun s => s.asLatexWithTag cfg ((i : Int) + 1)

theorem exportLoop_eq (cfg : Cfg) (hs : List (Step F)) (i : Nat) (out : Str) :
    exportLoop cfg hs i out = out ++ ((hs.zipIdx i).map fun p => p.1.asLatexWithTag cfg ((p.2 : Int) + 1)).flatten := by
  induction hs generalizing i out with
  | nil => simp [exportLoop]
  | cons s hs ih => simp [exportLoop, ih, List.zipIdx_cons]

theorem numberedSteps_eq (cfg : Cfg) (hs : List (Step F)) :
    numberedSteps cfg hs = hs.zipIdx.map fun p => p.1.asLatexWithTag cfg ((p.2 : Int) + 1) := by
  unfold numberedSteps
  have : (List.range hs.length).filterMap (fun i => hs[i]?.map fun s => s.asLatexWithTag cfg ((i : Int) + 1)) =
      (List.range hs.length).filterMap (fun i => (hs.zipIdx.map fun p => p.1.asLatexWithTag cfg ((p.2 : Int) + 1))[i]?) := by
    apply List.filterMap_congr
    intro i _
    rw [List.getElem?_map, List.getElem?_zipIdx]
    rcases hs[i]? with _ | s <;> simp
  rw [this]
  apply List.ext_getElem?
  intro j
  have h2 : ∀ (l : List Str), (List.range l.length).filterMap (fun i => l[i]?) = l := by
    intro l
    have h3 : (List.range l.length).filterMap (fun i => l[i]?) = (List.range l.length).map (fun i => l.getD i []) := by
      rw [← List.filterMap_eq_map]
      apply List.filterMap_congr
      intro i hi
      have hi := List.mem_range.1 hi
      simp [List.getElem?_eq_getElem hi]
    rw [h3]
    apply List.ext_getElem
    · simp
    · intro n h1 h2
      simp at h1 ⊢
      simp [List.getElem?_eq_getElem h2]
  have := h2 (hs.zipIdx.map fun p => p.1.asLatexWithTag cfg ((p.2 : Int) + 1))
  simp only [List.length_map, List.length_zipIdx] at this
  rw [this]

/-- **C56**: the exported document is a fixed head, the steps in order with the numbers 1, 2, …, and a fixed
tail. -/
theorem C56_export (cfg : Cfg) (history : List (Step F)) :
    exportHistoryTex cfg history =
      (str! "\\documentclass[12pt, letterpaper]{article}\n\\usepackage{amsmath}\n\\usepackage[margin=1in]{geometry}\n" ++
        str! "\\allowdisplaybreaks\n\\begin{document}\n\\begin{align*}\n") ++
      (numberedSteps cfg history).flatten ++ str! "\\end{align*}\n\\end{document}" := by
  rw [exportHistoryTex, exportLoop_eq, numberedSteps_eq]
  rfl

/-- **C56** (appending): adding a step to the end of the history changes nothing before it. -/
theorem C56_append (cfg : Cfg) (h : List (Step F)) (s : Step F) :
    numberedSteps cfg (h ++ [s]) = numberedSteps cfg h ++ [s.asLatexWithTag cfg ((h.length : Int) + 1)] := by
  rw [numberedSteps_eq, numberedSteps_eq, List.zipIdx_append]
  simp

example : numberedSteps Cfg.default [.declaration (.variable str! "x" : AST Q) [str! "x"] str! "f",
    .calculation (.scalar (.fin 2)) [.scalar (.fin 2)] none] =
  [str! "f(x) &= x \\tag{1}\\label{eq:1} \\\\ \\\\ \n", str! "2 \\tag{2}\\label{eq:2} \\\\ \\\\ \n"] := by decide +kernel

end

end MUL
