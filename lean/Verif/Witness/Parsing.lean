import Verif.Props.Features
import Verif.Props.Grammar
import Verif.Props.ParserBasics
import Verif.Props.Provenance
import Verif.Props.Ragged
import Verif.Props.ReadBack
import Verif.Props.Latex
import Verif.Props.LatexCells
import Verif.Num.Real
/-!
# Concrete cases for the theorems about parsing and printing
(Props/Features.lean, Grammar.lean, ParserBasics.lean, Provenance.lean, Ragged.lean, ReadBack.lean, Latex.lean, LatexCells.lean)
-/

namespace MUL
open Out Spec FArith

attribute [local instance] UTable.ascii

/-! ## The crate features -/

example (s : Str) := C101_orientation (F := Q) (cfg := Cfg.default) (cfg' := Cfg.rowMajorCfg) rfl rfl s
example := C101_no_matrix (.simple .add (.variable ['x']) (.vector [.scalar (.fin 1)]) : AST Q)
  (.simple _ _ _ (.variable _) (.vector _ (by simpa using MatrixFree.scalar _)))
example (s : Str) := C101_parse_precision (F := Q) (cfg := Cfg.default) (cfg' := Cfg.highPrec) rfl s
example (n : Nat) (ctx : Context Q) := C101_solve_orientation (cfg := Cfg.default) (cfg' := Cfg.rowMajorCfg) rfl n
  [(.variable ['x'], .variable ['y'])] ctx [['x']]
example (a : AST Q) (v : Value Q) := C101_printing (cfg := Cfg.default) (cfg' := Cfg.rowMajorCfg) rfl a v
example (cfg cfg' : Cfg) (n : Nat) := C101_example_same cfg cfg' n (⟨[], [⟨['f'], .variable ['t'], [['t']]⟩]⟩ : Context Q)
  (by simpa using Arithmetical.variable _)

/-! ## The grammar -/

/-- `(x)+1` and `x+1` have different texts; `2x` and `2*x` too: the same text has only one derivation up to its tree. -/
example (cfg : Cfg) := C09_unambiguous (F := Q) cfg exampleEx exampleEx exampleEx_wf exampleEx_wf rfl

def wRows : List (List Ex) := [[.num "1".toList none, .var "a".toList, .num "2".toList none], [.num "3".toList none, .var "b".toList, .num "7".toList none]]

theorem wRows_ok : ∀ r ∈ wRows, ∀ e ∈ r, e.WF ∧ e.isBracket = false := by
  intro r hr e he
  simp only [wRows, List.mem_cons, List.not_mem_nil, or_false] at hr
  rcases hr with rfl | rfl <;> simp only [List.mem_cons, List.not_mem_nil, or_false] at he <;> rcases he with rfl | rfl | rfl
  · exact ⟨wf_num (s := "1") (by decide), rfl⟩
  · exact ⟨wf_name (n := "a") (by decide), rfl⟩
  · exact ⟨wf_num (s := "2") (by decide), rfl⟩
  · exact ⟨wf_num (s := "3") (by decide), rfl⟩
  · exact ⟨wf_name (n := "b") (by decide), rfl⟩
  · exact ⟨wf_num (s := "7") (by decide), rfl⟩

example (cfg : Cfg) := C12_orientation (F := Q) cfg wRows 3 (by simp [wRows]) (by decide) wRows_ok (by simp [wRows])
example := C12_features (F := Q) wRows 3 (by simp [wRows]) (by decide) wRows_ok (by simp [wRows])

def wRagged : List (List Ex) := [[.num "1".toList none, .var "a".toList], [.num "3".toList none]]

example (cfg : Cfg) := C12_ragged (F := Q) cfg wRagged (by simp [wRagged])
  (by
    intro r hr e he
    simp only [wRagged, List.mem_cons, List.not_mem_nil, or_false] at hr
    rcases hr with rfl | rfl <;> simp only [List.mem_cons, List.not_mem_nil, or_false] at he
    · rcases he with rfl | rfl
      · exact ⟨wf_num (s := "1") (by decide), rfl⟩
      · exact ⟨wf_name (n := "a") (by decide), rfl⟩
    · subst he; exact ⟨wf_num (s := "3") (by decide), rfl⟩)
  ⟨_, by simp [wRagged]; exact Or.inl rfl, _, by simp [wRagged]; exact Or.inr rfl, by decide⟩

theorem wArgs : ∀ p ∈ ["x+1".toList, "x".toList, "2".toList, "3".toList], ArgText p := by
  intro p hp
  apply argText_letters
  simp only [List.mem_cons, List.not_mem_nil, or_false] at hp
  rcases hp with rfl | rfl | rfl | rfl <;> decide

example (cfg : Cfg) := (C13_root (F := Q) cfg ["x+1".toList, "x".toList] (by simp) (fun p hp => wArgs p (by simp at hp ⊢; tauto))).2 _ _ rfl
example (cfg : Cfg) := (C13_root (F := Q) cfg _ (by simp) wArgs).1 (by decide)
example (cfg : Cfg) := (C13_derivative (F := Q) cfg ["x+1".toList, "x".toList, "2".toList] (by simp) (fun p hp => wArgs p (by simp at hp ⊢; tauto))).2 _ _ _ rfl
example (cfg : Cfg) := (C13_derivative (F := Q) cfg _ (by simp) wArgs).1 (by decide)
example (cfg : Cfg) := (C13_integral (F := Q) cfg _ (by simp) wArgs).2 _ _ _ _ rfl
example (cfg : Cfg) := (C13_integral (F := Q) cfg ["x+1".toList, "x".toList] (by simp) (fun p hp => wArgs p (by simp at hp ⊢; tauto))).1 (by decide)

theorem wEqs_wf : (Ex.eqs [.var "a".toList] [.var "b".toList] ["x".toList]).WF := by
  refine ⟨rfl, ⟨wf_name (by decide), trivial⟩, ⟨wf_name (by decide), trivial⟩, Or.inl (by simp), by decide, ?_⟩
  intro v hv
  simp only [List.mem_singleton] at hv
  subst hv
  exact nameShape_letters (by decide) (by decide)

example (cfg : Cfg) := C15_equations (F := Q) cfg _ _ _ wEqs_wf
example (cfg : Cfg) := C15_extra_dropped (F := Q) cfg _ _ "c".toList _ wEqs_wf (argText_letters (by decide))

/-! ## Blanks and brackets -/

theorem wBlank : ∀ c ∈ [' ', '\n', '\t'], WhiteSpace c := by
  intro c hc
  simp only [List.mem_cons, List.not_mem_nil, or_false] at hc
  rcases hc with rfl | rfl | rfl <;> simp [WhiteSpace]

example (cfg : Cfg) := C07_outer (F := Q) cfg ['\n', '\t'] "x + 1".toList [' ']
  (fun c hc => wBlank c (by simp at hc ⊢; tauto)) (fun c hc => wBlank c (by simp at hc ⊢; tauto))
example (cfg : Cfg) := C07_only (F := Q) cfg ['x', '\n', '+', '1'] (by intro c hc; cases hc; simp [WhiteSpace])
  (by intro c hc; cases hc; simp [WhiteSpace]) (by decide)
example (cfg : Cfg) := C08_close (F := Q) cfg "(x+1))".toList (by decide)
example (cfg : Cfg) := C08_accepted (F := Q) cfg "(x+y)".toList _ rfl
example (cfg : Cfg) := C08_blank (F := Q) cfg [' ', '\n', ' '] (fun c hc => wBlank c (by simp at hc ⊢; tauto))
example (cfg : Cfg) := C06_no_panic_ascii (F := Q) cfg "sin([2".toList (by intro c hc; simp at hc; rcases hc with rfl | rfl | rfl | rfl | rfl | rfl <;> decide)
example (cfg : Cfg) := C06_no_panic_plain (F := Q) cfg "ä+π)".toList (by decide)
example := C93_from_text (F := Q) Cfg.default "f(x)+[a,b]".toList _ rfl
example := C93_size (F := Q) Cfg.default "f(x) + [a,b]".toList _ rfl

/-! ## Panicking operations -/

example := C102_well_formed .cross (.vector [.fin 1, .fin 2] : Value Q) (.scalar (.fin 1)) (by simp [WFValue]) trivial
example := C102_eval Cfg.default (⟨[⟨['a'], [.vector [.fin 1]]⟩, ⟨['b'], [.vector []]⟩], []⟩ : Context Q) .mult ['a'] ['b'] _ _ 4 rfl rfl

/-! ## Printing -/

theorem wDec : ∀ a ∈ ([.fin (-5/4), .fin 300, .negZero] : List Q), Decimal a := by
  intro a ha
  simp only [List.mem_cons, List.not_mem_nil, or_false] at ha
  rcases ha with rfl | rfl | rfl
  · exact ⟨125, -2, rfl, Or.inr (by decide +kernel)⟩
  · exact ⟨3, 2, rfl, Or.inl (by decide +kernel)⟩
  · exact ⟨0, 0, rfl, Or.inr (by decide +kernel)⟩

example (cfg : Cfg) (ctx : Context Q) := C51_scalar cfg ctx (.fin (-5/4)) (wDec _ (by simp))
example (cfg : Cfg) (ctx : Context Q) := C51_vector cfg ctx _ (by simp) wDec
example (ctx : Context Q) := C51_matrix_row_major Cfg.rowMajorCfg rfl ctx [[.fin (-5/4), .fin 300], [.negZero, .fin 300]] 2 (by simp) (by decide)
  (by simp) (by
    intro r hr a ha
    simp only [List.mem_cons, List.not_mem_nil, or_false] at hr
    rcases hr with rfl | rfl <;> exact wDec a (by simp at ha ⊢; tauto))

theorem wSigma : Balanced (str! "\\sigma_{12}") := latexBal_cmd (plain (str! "sigma") (by decide))
    (.seq ['_'] _ (latexBal_text (by decide)) (.group _ (latexBal_text (s := str! "12") (by decide))))

def wTex : AST Q := .integral (.function (str! "f") [.variable (str! "\\sigma_{12}")]) (str! "x") (.scalar (.fin 0))
  (.simple .div (.scalar (.fin 1)) (.variable (str! "y")))

theorem wTex_names : AllNames Balanced wTex := by
  refine .integral _ _ _ _ (latexBal_text (by decide)) (.function _ _ (latexBal_text (by decide)) ?_) (.scalar _)
    (.simple _ _ _ (.scalar _) (.variable _ (latexBal_text (by decide))))
  intro a ha
  rw [List.mem_singleton.1 ha]
  exact .variable _ wSigma

example (cfg : Cfg) := C52_tree cfg wTex wTex_names
example (cfg : Cfg) := C52_braces cfg wTex wTex_names
example (cfg : Cfg) (al : Bool) := C52_function cfg ⟨str! "g", wTex, [str! "\\sigma_{12}", str! "y"]⟩ al wTex_names (latexBal_text (by decide))
  (by
    intro i hi
    simp only [List.mem_cons, List.not_mem_nil, or_false] at hi
    rcases hi with rfl | rfl
    · exact wSigma
    · exact latexBal_text (by decide))
example (cfg : Cfg) (al : Bool) := C52_variable cfg (⟨str! "\\sigma_{12}", [.scalar (.fin 1)]⟩ : Variable Q) al wSigma
example (cfg : Cfg) := C53_vector cfg [(.fin (1/20000000) : Q), .inf true, .nan] (by simp)
example (cfg : Cfg) := C53_matrix cfg [[(.fin (1/2) : Q), .fin (-3)], [.nan, .fin 0]] (by simp)

end MUL
