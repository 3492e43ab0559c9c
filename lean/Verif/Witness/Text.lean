import Verif.Props.ParserBasics
import Verif.Props.Output
import Verif.Props.Numbers
import Verif.Props.Reread
import Verif.Props.Scalar
import Verif.Props.Serde
import Verif.Props.Steps
import Verif.Props.Tex
import Verif.Props.Unicode
import Verif.Props.Values
import Verif.Witness.Arith
/-!
# Concrete cases for the theorems about texts and saved data
(Props/Output.lean, Numbers.lean, Reread.lean, Scalar.lean, Serde.lean, Steps.lean, Tex.lean, Unicode.lean, Values.lean)
-/

namespace MUL
open Out Spec FArith

attribute [local instance] UTable.ascii

/-! ## Pictures and documents -/

def wSvg : Str := str! "<path fill=\"currentColor\" stroke=\"currentColor\"/>"
theorem wToy : toyCrates.convertToSvg (str! "x") = .ok wSvg := rfl
example (color : Str) := C77_svg toyCrates (str! "x") color wSvg wToy
example := C77_no_current_color toyCrates (str! "x") (str! "#FF00FF") (str! "<path fill=\"#FF00FF\" stroke=\"#FF00FF\"/>") (by decide) (by decide)
  (by decide +kernel)
example := C77_errors toyCrates [] (str! "#FF00FF") 2 (.latexToSvgError (str! "empty"))
example := C77_png toyCrates (str! "x") (str! "#FF00FF") 2 [0, 0, 0, 0, 0, 0, 0, 0] (by decide +kernel)
example (cfg : Cfg) := C77_export toyCrates cfg [.calculation (.scalar (.fin 2 : Q)) [.scalar (.fin 2)] none]

/-! ## Numbers -/

example := C63_tiny (K := ℚ) Cfg.default 6 rfl (.fin (-1/4000000) : Q) (-1/4000000) rfl (decimal_of_val (p := 8) (k := -25) (show some _ = some _ by norm_num))
  (by norm_num) (by norm_num [abs_of_nonpos])

/-! ## Reading back -/

theorem wShape : NameShape (['a'] ++ ['_'] ++ ['b']) := by
  refine ⟨?_, ?_, by decide, fun j => ?_, by decide⟩
  · obtain ⟨b, h1, h2⟩ := C16_valid_name (ε := Unit) ['a', '_', 'b'] (by decide)
    have h3 : (isValidVarName ['a', '_', 'b'] : Out Unit Bool) = .ok true := rfl
    rw [h3] at h1
    cases h1
    exact h2.1 rfl
  · unfold Ascii; decide
  · match j with
    | 0 | 1 | 2 => decide
    | j + 3 => rw [List.take_of_length_le (by simp)]; decide
example := C59_tree (F := Q) Cfg.default exampleEx exampleEx_wf exampleEx_readable.1
example (ctx : Context Q) := C59_meaning Cfg.default exampleEx exampleEx_wf exampleEx_readable.1 exampleEx_readable.2 ctx
example (cfg : Cfg) := C59_cross_false (F := Q) cfg ['a'] ['b'] (nameShape_letters (by decide) (by decide))
example (cfg : Cfg) := C59_get_false (F := Q) cfg ['a'] ['b'] wShape
example (cfg : Cfg) := C59_addSub_false (F := Q) cfg ['a'] ['b'] (nameShape_letters (by decide) (by decide)) (nameShape_letters (by decide) (by decide))
example := C59_tiny_false Cfg.default rfl

/-! ## LaTeX -/

example := C62_read Cfg.default sample sample_clear
example := C62_same_latex Cfg.default sample sample sample_clear sample_clear rfl
theorem wClear : ∀ v ∈ [(.scalar (.fin 3) : Value Q), .scalar (.fin (-5/4))], Tex.Clear Cfg.default (AST.fromValue v) := by
  simp only [List.forall_mem_cons]
  refine ⟨.scalar _ ?_, .scalar _ ?_, nofun⟩ <;> decide +kernel
example := C62_values Cfg.default _ (by decide) wClear
example (al : Bool) := C62_variable Cfg.default ⟨str! "pi", _⟩ al (by decide) (by decide) wClear
example (al : Bool) := C62_function Cfg.default ⟨str! "f", sample, [str! "x", str! "a_1"]⟩ al (by decide) sample_clear
example := C62_tree (F := Q) Cfg.default exampleEx exampleEx_wf exampleEx_readable.1 exampleEx_clear
example (ctx : Context Q) := C62_meaning Cfg.default exampleEx exampleEx_wf exampleEx_readable.1 exampleEx_readable.2 exampleEx_clear ctx
example (ctx : Context Q) (vs : List (Value Q)) := C62_same_meaning Cfg.default exampleEx exampleEx exampleEx_wf exampleEx_wf exampleEx_readable.1
  exampleEx_readable.1 exampleEx_readable.2 exampleEx_readable.2 exampleEx_clear exampleEx_clear rfl ctx vs
example (cfg : Cfg) := C62_get_false (F := Q) cfg (str! "a") (str! "b") (by decide) (by decide) (by decide)
example := C55_inline_calculation Cfg.default sample [.scalar (.fin 3)] (some (str! "x")) (by decide +kernel) (by decide +kernel) (by decide)

/-! ## Unicode -/

example (cfg : Cfg) := C57_vector (ε := Unit) cfg wV (by simp [wV])
example (cfg : Cfg) := C57_matrix (ε := Unit) cfg wM (by simp [wM]) 3 (by decide) (by simp [wM])
example := C57_symbols 3 (str! "delta") (by decide)
example := C57_other_names (str! "speed") (by decide) (by decide)
example (cfg : Cfg) := C57_matrix_named (ε := Unit) cfg wM (by simp [wM]) 3 (by decide) (by simp [wM]) (str! "\\alpha") (by decide)
example (cfg : Cfg) := C57_matrix_lines (ε := Unit) cfg wM (by simp [wM]) 3 (by decide) (by simp [wM]) (str! "\\alpha") (by decide)
example (cfg : Cfg) := C57_matrix_content (ε := Unit) cfg wM (by simp [wM]) 3 (by decide) (by simp [wM])
example (cfg : Cfg) := C57_vector_lines (ε := Unit) cfg wV (by simp [wV]) (str! "speed") (by decide)
example (cfg : Cfg) := C57_vector_content (ε := Unit) cfg wV (by simp [wV])
example := C57_ascii (str! "speed") (by unfold Ascii; decide) (by decide)
example (cfg : Cfg) := C57_greek_false (ε := Unit) cfg wV (by simp [wV]) (str! "pi", str! "𝜋") (by decide)

/-! ## Values -/

example (w : Value Q) := C65_equal (K := ℚ) (.vector wV) w (by
  intro x hx
  cases hx with
  | vector _ h =>
    simp only [wV, List.mem_cons, List.not_mem_nil, or_false] at h
    rcases h with rfl | rfl | rfl <;> simp [Exact.val, Ext.value])
example (w : Value Q) := C65_nan (.vector [.fin 1, .nan]) w (x := .nan) (.vector _ _ (by simp)) rfl

/-! ## Saved data -/

/-- A format that keeps every number. -/
def wFormat : NumFormat Q where
  put a := .num a
  get
    | .num a => some a
    | _ => none
example (t : AST Q) (v : Value Q) (c : Context Q) (s : Step Q) := C86_exact wFormat (fun _ => rfl) t v c s
example (t u : AST Q) (h : t.toData wFormat = u.toData wFormat) := C86_injective wFormat (fun _ => rfl) t u h

/-! ## Scalars -/

example (cfg : Cfg) (a b : Q) := C72_root cfg (.var ['a']) (.var ['b']) (wf_name (n := "a") (by decide)) (wf_name (n := "b") (by decide))
  ⟨[⟨['a'], [.scalar a]⟩, ⟨['b'], [.scalar b]⟩], []⟩ [a] [b] ⟨by simp, 1, rfl⟩ ⟨by simp, 1, rfl⟩
example (cfg : Cfg) (a b : Q) := C72_negation cfg (.var ['a']) ⟨wf_name (n := "a") (by decide), by decide⟩ ⟨[⟨['a'], [.scalar a, .scalar b]⟩], []⟩ [a, b]
  ⟨by simp, 1, rfl⟩

end MUL
