import Verif.Model.Print
import Verif.Num.RatText
import Verif.Spec.Print
import Verif.Spec.Parser
import Verif.Proofs.AstInd
import Verif.Props.Steps
/-!
# C52, C53: LaTeX output
-/

namespace MUL

open Spec

set_option linter.unusedSectionVars false

theorem latexBal_text {s : Str} (h : s.all (fun c => c != '{' && c != '}' && c != '\\') = true) : Balanced s := by
  refine .text s ?_
  intro c hc
  have := List.all_eq_true.1 h c hc
  simp at this
  simp [this]

theorem latexBal_cmd {w : Str} (h : PlainCommand w) {s : Str} (hs : Balanced s) : Balanced ('\\' :: w ++ s) :=
  .seq _ _ (.command w h) hs

theorem latexBal_nil : Balanced [] := latexBal_text rfl

theorem latexBal_join {sep : Str} (hsep : Balanced sep) {ps : List Str} (h : ∀ p ∈ ps, Balanced p) : Balanced (join sep ps) := by
  induction ps with
  | nil => exact latexBal_nil
  | cons p ps ih =>
    rcases ps with _ | ⟨q, ps⟩
    · simpa [join] using h p (by simp)
    · have := ih (fun p hp => h p (List.mem_cons_of_mem _ hp))
      unfold join at this ⊢
      rw [List.intercalate_cons_cons]
      exact .seq _ _ (.seq _ _ (h p (by simp)) hsep) this

theorem latexBal_flatten {ps : List Str} (h : ∀ p ∈ ps, Balanced p) : Balanced ps.flatten := by
  induction ps with
  | nil => exact latexBal_nil
  | cons p ps ih =>
    rw [List.flatten_cons]
    exact .seq _ _ (h p (by simp)) (ih fun p hp => h p (List.mem_cons_of_mem _ hp))

theorem plain (w : Str) (h : (decide (w ≠ []) && w.all Char.isAlpha &&
    !([str! "left", str! "right", str! "begin", str! "end"].contains w)) = true) : PlainCommand w := by
  simp only [Bool.and_eq_true, decide_eq_true_eq, Bool.not_eq_true', List.all_eq_true] at h
  refine ⟨h.1.1, h.1.2, ?_⟩
  intro hm
  have := List.contains_iff_mem.2 hm
  rw [this] at h
  exact absurd h.2 (by decide)

theorem latexBal_break : Balanced (str! "\\\\ ") := .seq _ _ .lineBreak (latexBal_text (s := [' ']) rfl)

theorem latexBal_fun1 {w : Str} (hw : PlainCommand w) {s : Str} (hs : Balanced s) :
    Balanced ('\\' :: (w ++ (str! "\\left(" ++ s ++ str! "\\right)"))) := by
  have := latexBal_cmd hw (Balanced.delimited (str! "(") (str! ")") s (by unfold Delimiters; simp) hs)
  simpa using this

theorem latexBal_paren {s : Str} (hs : Balanced s) : Balanced (str! "\\left(" ++ s ++ str! "\\right)") := by
  have := Balanced.delimited (str! "(") (str! ")") s (by unfold Delimiters; simp) hs
  simpa using this

theorem latexBal_set {s : Str} (hs : Balanced s) : Balanced (str! "\\left\\{" ++ s ++ str! "\\right\\}") := by
  have := Balanced.delimited (str! "\\{") (str! "\\}") s (by unfold Delimiters; simp) hs
  simpa using this

theorem latexBal_env (n : Str) (hn : n.all Char.isAlpha = true) {s : Str} (hs : Balanced s) :
    Balanced (str! "\\begin{" ++ n ++ ['}'] ++ s ++ str! "\\end{" ++ n ++ ['}']) :=
  .environment n s (fun c hc => List.all_eq_true.1 hn c hc) hs

section
variable {F : Type} [FNum F] [TextLaws F]

theorem latexBal_number (cfg : Cfg) (x : F) : Balanced (roundAndFormat cfg x true) := by
  have hc : ∀ c : Char, (c.isAlphanum = true ∨ c = '-' ∨ c = '.' ∨ c = '+') → c ∉ ['{', '}', '\\'] := by
    intro c hc hm
    simp only [List.mem_cons, List.not_mem_nil, or_false] at hm
    rcases hm with rfl | rfl | rfl <;> exact absurd hc (by decide)
  rcases roundAndFormat_latex_cases cfg x with ⟨l, r, h1, h2⟩ | h1
  · rw [h1]
    have hl : Balanced l := .text l fun c h => hc c (h2 c (List.mem_append_left _ h))
    have hr : Balanced r := .text r fun c h => hc c (h2 c (List.mem_append_right _ h))
    have := Balanced.seq _ _ hl (latexBal_cmd (plain (str! "cdot") (by decide))
      (.seq _ _ (latexBal_text (s := str! " 10^") (by decide)) (.group r hr)))
    simpa using this
  · refine .text _ fun c h => hc c ?_
    rcases h1 c h with h | h | h
    · exact Or.inl h
    · exact Or.inr (Or.inl h)
    · exact Or.inr (Or.inr (Or.inl h))

/-- **C52** (values): the LaTeX text of a value is balanced. -/
theorem C52_value (cfg : Cfg) (v : Value F) : Balanced (v.asLatex cfg) := by
  rcases v with m | v | s
  · have hb : Balanced (m.flatMap fun r => if r.isEmpty then [] else
        join (str! " & ") (r.map fun x => roundAndFormat cfg x true) ++ str! " \\\\") := by
      rw [List.flatMap_def]
      refine latexBal_flatten fun p hp => ?_
      obtain ⟨r, _, rfl⟩ := List.mem_map.1 hp
      split
      · exact latexBal_nil
      · refine .seq _ _ (latexBal_join (latexBal_text (by decide)) ?_) (.seq [' '] _ (latexBal_text (by decide)) .lineBreak)
        intro p hp
        obtain ⟨x, _, rfl⟩ := List.mem_map.1 hp
        exact latexBal_number cfg x
    have := latexBal_env (str! "bmatrix") (by decide) hb
    simpa [Value.asLatex] using this
  · have hb : Balanced (join (str! "\\\\ ") (v.map fun x => roundAndFormat cfg x true)) := by
      refine latexBal_join latexBal_break ?_
      intro p hp
      obtain ⟨x, _, rfl⟩ := List.mem_map.1 hp
      exact latexBal_number cfg x
    have := latexBal_env (str! "pmatrix") (by decide) hb
    simpa [Value.asLatex] using this
  · exact latexBal_number cfg s

/-- **C52** (results): the LaTeX text of a result is balanced. -/
theorem C52_values (cfg : Cfg) (vs : List (Value F)) : Balanced (valuesAsLatex cfg vs) := by
  rcases vs with _ | ⟨a, _ | ⟨b, vs⟩⟩
  · exact latexBal_text rfl
  · exact C52_value cfg a
  · refine latexBal_set (latexBal_join (latexBal_text (by decide)) ?_)
    intro p hp
    obtain ⟨x, _, rfl⟩ := List.mem_map.1 hp
    exact C52_value cfg x

theorem latexBal_latexName {n : Str} (h : Balanced n) : Balanced (latexName n) := by
  unfold latexName
  split
  · exact .command (str! "pi") (plain _ (by decide))
  · exact h

theorem asLatexAll_map (cfg : Cfg) (l : List (AST F)) : AST.asLatexAll cfg l = l.map fun a => a.asLatex cfg := by
  induction l with
  | nil => rfl
  | cons a l ih => rw [AST.asLatexAll, ih, List.map_cons]

theorem asLatexRows_map (cfg : Cfg) (m : List (List (AST F))) : AST.asLatexRows cfg m =
    m.map fun r => if r.isEmpty then [] else join (str! " & ") (r.map fun a => a.asLatex cfg) ++ str! " \\\\" := by
  induction m with
  | nil => rfl
  | cons a l ih => rw [AST.asLatexRows, ih, List.map_cons, asLatexAll_map]

theorem asLatexEqs_map (cfg : Cfg) (l : List (AST F × AST F)) : AST.asLatexEqs cfg l =
    l.map fun e => e.1.asLatex cfg ++ str! "&=" ++ e.2.asLatex cfg := by
  induction l with
  | nil => rfl
  | cons a l ih => rw [AST.asLatexEqs, ih, List.map_cons]

/-- **C52** (trees): the LaTeX text of a tree whose names are balanced is balanced. -/
theorem C52_tree (cfg : Cfg) (a : AST F) (h : AllNames Balanced a) : Balanced (a.asLatex cfg) := by
  induction a using AST.ind with
  | scalar s => exact latexBal_number cfg s
  | vector v ih =>
    rcases h with _ | ⟨_, h⟩
    have hb : Balanced (join (str! "\\\\ ") (AST.asLatexAll cfg v)) := by
      rw [asLatexAll_map]
      refine latexBal_join latexBal_break ?_
      intro p hp
      obtain ⟨x, hx, rfl⟩ := List.mem_map.1 hp
      exact ih x hx (h x hx)
    have := latexBal_env (str! "pmatrix") (by decide) hb
    simpa [AST.asLatex] using this
  | matrix m ih =>
    rcases h with _ | _ | ⟨_, h⟩
    have hb : Balanced (AST.asLatexRows cfg m).flatten := by
      rw [asLatexRows_map]
      refine latexBal_flatten fun p hp => ?_
      obtain ⟨r, hr, rfl⟩ := List.mem_map.1 hp
      split
      · exact latexBal_nil
      · refine .seq _ _ (latexBal_join (latexBal_text (by decide)) ?_) (.seq [' '] _ (latexBal_text (by decide)) .lineBreak)
        intro p hp
        obtain ⟨x, hx, rfl⟩ := List.mem_map.1 hp
        exact ih r hr x hx (h r hr x hx)
    have := latexBal_env (str! "bmatrix") (by decide) hb
    simpa [AST.asLatex] using this
  | list l ih =>
    cases h with | list _ h => ?_
    rw [AST.asLatex, asLatexAll_map]
    refine latexBal_set (latexBal_join (latexBal_text (by decide)) ?_)
    intro p hp
    obtain ⟨x, hx, rfl⟩ := List.mem_map.1 hp
    exact ih x hx (h x hx)
  | var n =>
    cases h with | «variable» _ h => ?_
    rw [AST.asLatex]
    exact latexBal_latexName h
  | function n l ih =>
    cases h with | function _ _ hn h => ?_
    rw [AST.asLatex, asLatexAll_map]
    have := Balanced.seq _ _ hn (latexBal_paren (s := join (str! ", ") (l.map fun a => a.asLatex cfg)) (latexBal_join (latexBal_text (by decide)) ?_))
    · simpa using this
    intro p hp
    obtain ⟨x, hx, rfl⟩ := List.mem_map.1 hp
    exact ih x hx (h x hx)
  | simple op l r ihl ihr =>
    cases h with | simple _ _ _ hl hr => ?_
    have L := ihl hl
    have R := ihr hr
    clear ihl ihr hl hr
    cases op <;> simp only [AST.asLatex]
    all_goals generalize AST.asLatex cfg l = lv at L ⊢
    all_goals generalize AST.asLatex cfg r = rv at R ⊢
    case add => exact .seq _ _ (.seq _ _ L (latexBal_text (by decide))) R
    case sub => exact .seq _ _ (.seq _ _ L (latexBal_text (by decide))) R
    case addSub => exact .seq _ _ (.seq _ _ L (.command (str! "pm") (plain _ (by decide)))) R
    case neg => exact .seq _ _ (latexBal_text (by decide)) R
    case mult =>
      have := Balanced.seq _ _ L (latexBal_cmd (plain (str! "cdot") (by decide)) (.seq [' '] _ (latexBal_text (by decide)) R))
      simpa using this
    case div =>
      have := latexBal_cmd (plain (str! "frac") (by decide)) (.seq _ _ (.group _ L) (.group _ R))
      simpa using this
    case cross =>
      have := Balanced.seq _ _ L (latexBal_cmd (plain (str! "times") (by decide)) (.seq [' '] _ (latexBal_text (by decide)) R))
      simpa using this
    case hiddenMult => exact .seq _ _ L R
    case pow =>
      have := Balanced.seq _ _ (.seq _ _ L (latexBal_text (s := ['^']) (by decide))) (.group _ R)
      simpa using this
    case get =>
      have := Balanced.seq _ _ (.seq _ _ L (latexBal_text (s := ['_']) (by decide))) (.group _ R)
      simpa using this
    case abs => exact .seq _ _ (.seq _ _ (latexBal_text (by decide)) L) (latexBal_text (by decide))
    case sqrt =>
      have := latexBal_cmd (plain (str! "sqrt") (by decide)) (.group _ L)
      simpa using this
    case root =>
      have := latexBal_cmd (plain (str! "sqrt") (by decide)) (.seq _ _ (.seq _ _ (.seq _ _ (latexBal_text (s := ['[']) (by decide)) R) (latexBal_text (s := [']']) (by decide))) (.group _ L))
      simpa using this
    case inv =>
      have := Balanced.seq _ _ (.seq _ _ L (latexBal_text (s := ['^']) (by decide))) (.group _ (latexBal_text (s := str! "-1") (by decide)))
      simpa using this
    case parenths => exact latexBal_paren L
    case sin => have := latexBal_fun1 (plain (str! "sin") (by decide)) L; simpa using this
    case cos => have := latexBal_fun1 (plain (str! "cos") (by decide)) L; simpa using this
    case tan => have := latexBal_fun1 (plain (str! "tan") (by decide)) L; simpa using this
    case ln => have := latexBal_fun1 (plain (str! "ln") (by decide)) L; simpa using this
    case arcsin => have := latexBal_fun1 (plain (str! "arcsin") (by decide)) L; simpa using this
    case arccos => have := latexBal_fun1 (plain (str! "arccos") (by decide)) L; simpa using this
    case arctan => have := latexBal_fun1 (plain (str! "arctan") (by decide)) L; simpa using this
    case det => have := latexBal_fun1 (plain (str! "det") (by decide)) L; simpa using this
  | integral e x l u ihe ihl ihu =>
    cases h with | integral _ _ _ _ hx he hl hu => ?_
    have := latexBal_cmd (plain (str! "int") (by decide)) (.seq ['_'] _ (latexBal_text (by decide)) (.seq _ _ (.group _ (ihl hl))
      (.seq ['^'] _ (latexBal_text (by decide)) (.seq _ _ (.group _ (ihu hu)) (.seq _ _ (ihe he)
        (.seq (str! " d") _ (latexBal_text (by decide)) hx))))))
    simpa [AST.asLatex] using this
  | derivative e x a ihe iha =>
    cases h with | derivative _ _ _ hx he ha => ?_
    have h1 := latexBal_cmd (plain (str! "frac") (by decide)) (.seq _ _
      (.group _ (.command (str! "partial") (plain _ (by decide))))
      (.group _ (latexBal_cmd (plain (str! "partial") (by decide)) (.seq [' '] _ (latexBal_text (by decide)) hx))))
    have h2 := Balanced.group _ (latexBal_cmd (plain (str! "text") (by decide)) (.seq _ _ (.group _ (latexBal_text (s := str! "at ") (by decide)))
      (.seq _ _ hx (.seq (str! " = ") _ (latexBal_text (by decide)) (iha ha)))))
    have := Balanced.seq _ _ h1 (.seq _ _ (latexBal_paren (ihe he)) (.seq ['_'] _ (latexBal_text (by decide)) h2))
    simpa [AST.asLatex] using this
  | equation es vs ih =>
    cases h with | equation _ _ h1 h2 => ?_
    have hb : Balanced (join (str! "\\\\ \n ") (AST.asLatexEqs cfg es)) := by
      rw [asLatexEqs_map]
      refine latexBal_join (.seq _ _ .lineBreak (latexBal_text (s := str! " \n ") (by decide))) ?_
      intro p hp
      obtain ⟨e, he, rfl⟩ := List.mem_map.1 hp
      exact .seq _ _ (.seq _ _ ((ih e he).1 (h1 e he)) (latexBal_text (by decide))) ((ih e he).2 (h2 e he))
    have := Balanced.delimited (str! "|") (str! "|") _ (by unfold Delimiters; simp) (latexBal_env (str! "align") (by decide) hb)
    simpa [AST.asLatex] using this

/-- **C52** (functions): the LaTeX text of a function declaration is balanced. -/
theorem C52_function (cfg : Cfg) (f : Function F) (al : Bool) (h : AllNames Balanced f.ast) (hn : Balanced f.name)
    (hi : ∀ i ∈ f.inputs, Balanced i) : Balanced (f.asLatex cfg al) := by
  have h1 : Balanced (join (str! ", ") f.inputs) := latexBal_join (latexBal_text (by decide)) hi
  have h2 : Balanced (aligner al) := by
    unfold aligner
    split
    · exact latexBal_text (by decide)
    · exact latexBal_nil
  exact .seq _ _ (.seq _ _ (.seq _ _ (.seq _ _ (.seq _ _ (.seq _ _ hn (latexBal_text (by decide))) h1) (latexBal_text (by decide))) h2)
    (latexBal_text (by decide))) (C52_tree cfg _ h)

/-- **C52** (variables): the LaTeX text of a variable is balanced. -/
theorem C52_variable (cfg : Cfg) (v : Variable F) (al : Bool) (hn : Balanced v.name) : Balanced (v.asLatex cfg al) := by
  unfold Variable.asLatex
  rw [C54_at_var]
  refine .seq _ _ (.seq _ _ ?_ ?_) (C52_values cfg _)
  · exact latexBal_latexName hn
  · split
    · exact latexBal_text (by decide)
    · refine .seq _ _ (.seq _ _ (latexBal_text (by decide)) ?_) (latexBal_text (by decide))
      split
      · exact latexBal_text (by decide)
      · exact latexBal_nil

end

/-! ### Consequences of being balanced -/

/-- Starting at depth `d`, the text never closes more braces than are open, and ends at depth `d'`. -/
def Depth (d d' : Int) (s : Str) : Prop := (∀ j, 0 ≤ d + braces (s.take j)) ∧ d + braces s = d'

theorem braces_append' (s t : Str) : braces (s ++ t) = braces s + braces t := by
  simp only [braces, List.count_append]
  omega

theorem Depth.append {d e f : Int} {s t : Str} (h1 : Depth d e s) (h2 : Depth e f t) : Depth d f (s ++ t) := by
  constructor
  · intro j
    rw [List.take_append, braces_append']
    by_cases hj : j ≤ s.length
    · have h0 : j - s.length = 0 := by omega
      rw [h0]
      have := h1.1 j
      simpa [braces] using this
    · rw [List.take_of_length_le (by omega)]
      have := h2.1 (j - s.length)
      have := h1.2
      omega
  · rw [braces_append']
    have := h1.2
    have := h2.2
    omega

theorem Depth.plain {d : Int} (hd : 0 ≤ d) {s : Str} (h : ∀ c ∈ s, c ∉ ['{', '}']) : Depth d d s := by
  have : ∀ t : Str, (∀ c ∈ t, c ∉ ['{', '}']) → braces t = 0 := by
    intro t ht
    unfold braces
    rw [List.count_eq_zero_of_not_mem, List.count_eq_zero_of_not_mem]
    · rfl
    · intro hm
      exact ht _ hm (by simp)
    · intro hm
      exact ht _ hm (by simp)
  constructor
  · intro j
    rw [this _ fun c hc => h c (List.mem_of_mem_take hc)]
    omega
  · rw [this s h]
    omega

theorem Depth.opening {d : Int} (hd : 0 ≤ d) : Depth d (d + 1) ['{'] := by
  constructor
  · intro j
    rcases j with _ | j
    · simpa [braces] using hd
    · have : braces ['{'] = 1 := by decide
      simp only [List.take_succ_cons, List.take_nil, this]
      omega
  · have : braces ['{'] = 1 := by decide
    rw [this]

theorem Depth.closing {d : Int} (hd : 0 ≤ d) : Depth (d + 1) d ['}'] := by
  have h1 : braces ['}'] = -1 := by decide
  constructor
  · intro j
    rcases j with _ | j
    · have : braces [] = 0 := by decide
      rw [List.take_zero, this]
      omega
    · simp only [List.take_succ_cons, List.take_nil, h1]
      omega
  · rw [h1]
    omega

theorem alpha_no_brace {w : Str} (h : ∀ c ∈ w, c.isAlpha = true) : ∀ c ∈ w, c ∉ ['{', '}'] := by
  intro c hc hm
  simp only [List.mem_cons, List.not_mem_nil, or_false] at hm
  rcases hm with rfl | rfl
  · exact absurd (h _ hc) (by decide)
  · exact absurd (h _ hc) (by decide)

theorem depth_of_balanced {s : Str} (h : Balanced s) : ∀ d : Int, 0 ≤ d → Depth d d s := by
  induction h with
  | text s h =>
    intro d hd
    refine Depth.plain hd fun c hc hm => h c hc ?_
    simp only [List.mem_cons, List.not_mem_nil, or_false] at hm ⊢
    rcases hm with h | h
    · exact Or.inl h
    · exact Or.inr (Or.inl h)
  | command w h =>
    intro d hd
    refine Depth.plain hd fun c hc => ?_
    rcases List.mem_cons.1 hc with rfl | hc
    · decide
    · exact alpha_no_brace h.2.1 c hc
  | lineBreak => exact fun d hd => Depth.plain hd (by decide)
  | seq s t _ _ ih1 ih2 => exact fun d hd => (ih1 d hd).append (ih2 d hd)
  | group s _ ih =>
    exact fun d hd => ((Depth.opening hd).append (ih (d + 1) (by omega))).append (Depth.closing hd)
  | delimited l e s hd' _ ih =>
    intro d hd
    have hl : Depth d d (str! "\\left") := Depth.plain hd (by decide)
    simp only [Delimiters, List.mem_cons, Prod.mk.injEq, List.not_mem_nil, or_false] at hd'
    rcases hd' with ⟨rfl, rfl⟩ | ⟨rfl, rfl⟩ | ⟨rfl, rfl⟩
    · exact (((hl.append (Depth.plain hd (by decide))).append (ih d hd)).append (Depth.plain hd (by decide))).append
        (Depth.plain hd (by decide))
    · exact (((hl.append (Depth.plain hd (by decide))).append (ih d hd)).append (Depth.plain hd (by decide))).append
        (Depth.plain hd (by decide))
    · have ho : Depth d (d + 1) (str! "\\{") := (Depth.plain (s := ['\\']) hd (by decide)).append (Depth.opening hd)
      have hc : Depth (d + 1) d (str! "\\}") := (Depth.plain (s := ['\\']) (by omega : 0 ≤ d + 1) (by decide)).append (Depth.closing hd)
      exact (((hl.append ho).append (ih (d + 1) (by omega))).append (Depth.plain (by omega) (by decide))).append hc
  | environment n s hn _ ih =>
    intro d hd
    have hb : Depth d (d + 1) (str! "\\begin{") := (Depth.plain (s := str! "\\begin") hd (by decide)).append (Depth.opening hd)
    have he : Depth d (d + 1) (str! "\\end{") := (Depth.plain (s := str! "\\end") hd (by decide)).append (Depth.opening hd)
    have hn' : Depth (d + 1) (d + 1) n := Depth.plain (by omega) (alpha_no_brace hn)
    exact (((((hb.append hn').append (Depth.closing hd)).append (ih d hd)).append he).append hn').append (Depth.closing hd)

/-- **C52** (braces): in the LaTeX text of a tree with balanced names no prefix closes more braces than it opens,
and all braces are closed. -/
theorem C52_braces {F : Type} [FNum F] [TextLaws F] (cfg : Cfg) (a : AST F) (h : AllNames Balanced a) :
    (∀ j, 0 ≤ braces ((a.asLatex cfg).take j)) ∧ braces (a.asLatex cfg) = 0 := by
  have := depth_of_balanced (C52_tree cfg a h) 0 le_rfl
  unfold Depth at this
  simpa using this

/-- **C52** (refuted for `\pm`): the commands LaTeX sees in the text of `a & b` are not those that were meant. There
is no blank after `\pm`, so it fuses with a name that follows. -/
theorem C52_plusminus_false (cfg : Cfg) : ∃ t : AST Q, AllNames Balanced t ∧
    t = .simple .addSub (.variable (str! "a")) (.variable (str! "b")) ∧
    t.asLatex cfg = str! "a\\pmb" ∧ commands (t.asLatex cfg) = [str! "pmb"] := by
  refine ⟨_, ?_, rfl, rfl, rfl⟩
  exact .simple _ _ _ (.variable _ (latexBal_text (by decide))) (.variable _ (latexBal_text (by decide)))

/-- The hypotheses hold for Greek and indexed names. -/
example : AllNames Balanced (.integral (.function (str! "f") [.variable (str! "\\sigma_{12}")]) (str! "x")
    (.scalar (.fin 0 : Q)) (.simple .div (.scalar (.fin 1)) (.variable (str! "x_{1}")))) := by
  have h1 : Balanced (str! "\\sigma_{12}") := latexBal_cmd (plain (str! "sigma") (by decide))
    (.seq ['_'] _ (latexBal_text (by decide)) (.group _ (latexBal_text (s := str! "12") (by decide))))
  have h2 : Balanced (str! "x_{1}") := .seq (str! "x_") _ (latexBal_text (by decide)) (.group _ (latexBal_text (s := str! "1") (by decide)))
  refine .integral _ _ _ _ (latexBal_text (by decide)) (.function _ _ (latexBal_text (by decide)) ?_) (.scalar _)
    (.simple _ _ _ (.scalar _) (.variable _ h2))
  intro a ha
  rw [List.mem_singleton.1 ha]
  exact .variable _ h1

example : AST.asLatex Cfg.default (.simple .div (.scalar (.fin 1)) (.simple .sqrt (.variable (str! "pi")) (.scalar (.fin 0 : Q)))) =
    str! "\\frac{1}{\\sqrt{\\pi}}" := by decide +kernel

end MUL
