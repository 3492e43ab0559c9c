import Verif.Model.Lit
import Verif.Model.Helpers
/-!
# Printing  (src/helpers.rs 34-60, src/basetypes.rs, src/latex.rs)

Loops that append a piece and, except after the last piece, a separator are written with
`List.intercalate` (Rust: `join`).
-/

namespace MUL

/-- `parts.join(sep)`. -/
def join (sep : Str) (parts : List Str) : Str := sep.intercalate parts

section
variable {F : Type} [FNum F]

open FArith FText

/-- `round_and_format`  (src/helpers.rs 35-60). Simplification: the three `unwrap`s (first character of
`{:+e}`, the two pieces around its `e`) cannot fail because `{:+e}` of a finite non-zero number starts with a
sign and contains an `e`; the model takes the pieces without checking. -/
def roundAndFormat (cfg : Cfg) (x : F) (latex : Bool) : Str :=
  let rounded := Value.roundScalar x ((cfg.prec : Int) - 2)
  let scientific := match displayExp x with
    | '+' :: r => r
    | s => s
  if beq rounded (ofInt 0) && !latex && !(beq x (ofInt 0)) then scientific
  else if beq rounded (ofInt 0) && !(beq x (ofInt 0)) then
    let left := scientific.takeWhile (· != 'e')
    let right := ((scientific.dropWhile (· != 'e')).drop 1).takeWhile (· != 'e')
    left ++ str! "\\cdot 10^{" ++ right ++ ['}']
  else if beq rounded (ofInt 0) && decide (1 < byteLen (display rounded)) then (display rounded).drop 1
  else display rounded

namespace Value

/-- `Value::as_string`  (src/basetypes.rs 307-343). -/
def asString : Value F → Str
  | matrix s => ['['] ++ join [','] (s.map fun r => ['['] ++ join [','] (r.map display) ++ [']']) ++ [']']
  | vector s => ['['] ++ join [','] (s.map display) ++ [']']
  | scalar s => display s

/-- `const VAR_SYMBOLS`  (src/basetypes.rs 4-10). -/
def varSymbols : List (Str × Str) :=
  [("\\alpha", "𝛼"), ("\\Alpha", "𝛢"), ("\\beta", "𝛽"), ("\\Beta", "𝛣"), ("\\gamma", "𝛾"), ("\\Gamma", "𝚪"),
   ("\\delta", "𝛿"), ("\\Delta", "𝛥"), ("\\epsilon", "𝜺"), ("\\Epsilon", "𝛦"), ("\\zeta", "𝜁"), ("\\Zeta", "𝛧"),
   ("\\eta", "𝜂"), ("\\Eta", "𝛨"), ("\\theta", "𝜃"), ("\\Theta", "𝛩"), ("\\iota", "𝜄"), ("\\Iota", "𝛪"),
   ("\\kappa", "𝜅"), ("\\Kappa", "𝛫"), ("\\lambda", "𝜆"), ("\\Lambda", "𝛬"), ("\\mu", "𝜇"), ("\\Mu", "𝛭"),
   ("\\nu", "𝜈"), ("\\Nu", "𝛮"), ("\\xi", "𝜉"), ("\\Xi", "𝛯"), ("\\omicron", "𝜊"), ("\\Omicron", "𝛰"), ("pi", "𝜋"),
   ("\\Pi", "𝛱"), ("\\rho", "𝜌"), ("\\Rho", "𝛲"), ("\\sigma", "𝜎"), ("\\Sigma", "𝛴"), ("\\tau", "𝜏"),
   ("\\Tau", "𝛵"), ("\\upsilon", "𝜐"), ("\\Upsilon", "𝛶"), ("\\phi", "𝜑"), ("\\Phi", "𝛷"), ("\\xi", "𝜒"),
   ("\\Xi", "𝛸"), ("\\psi", "𝜓"), ("\\Psi", "𝛹"), ("\\omega", "𝜔"), ("\\Omega", "𝛺")].map
    fun p => (p.1.toList, p.2.toList)

/-- `iter.map(|x| x.len()).max().unwrap()`: panics on an empty iterator  (src/basetypes.rs 380, 432). -/
def maxUnwrap {ε : Type} : List Nat → Out ε Nat
  | [] => .panic
  | n :: ns => .ok (ns.foldl max n)

/-- Number of the line that carries the name: `((n as f64/2.).ceil()-1.) as i32`, for `n ≥ 1`
(src/basetypes.rs 381, 433). -/
def vMiddle (n : Nat) : Nat := (n + 1) / 2 - 1

/-- `format!("{} = ", var_name)`  (src/basetypes.rs 369, 384, 390, 436, 442), empty without a name. -/
def namePrefix : Option Str → Str
  | none => []
  | some n => n ++ str! " = "

/-- One output line without its line break: the name or blanks, opening symbol, content, closing symbol
(src/basetypes.rs 388-417, 440-473). -/
def prettyLine (name : Option Str) (n i : Nat) (top mid bot : Char × Char) (content : Str) : Str :=
  (if i = vMiddle n ∧ name.isSome = true then namePrefix name
    else List.replicate (byteLen (namePrefix name)) ' ') ++
  [if i = 0 then top.1 else if i = n - 1 then bot.1 else mid.1] ++ content ++
  [if i = 0 then top.2 else if i = n - 1 then bot.2 else mid.2]

/-- `Value::pretty_print`  (src/basetypes.rs 362-478). -/
def prettyPrint {ε : Type} (cfg : Cfg) (v : Value F) (name : Option Str) : Out ε Str :=
  match v with
  | scalar s => .ok (namePrefix name ++ roundAndFormat cfg s false)
  | vector v => do
    let rounded := v.map fun x => roundAndFormat cfg x false
    let maxWidth ← maxUnwrap (rounded.map byteLen)
    .ok (join ['\n'] (rounded.zipIdx.map fun p =>
      prettyLine name rounded.length p.2 ('⎛', '⎞') ('⎜', '⎟') ('⎝', '⎠') (centerInString p.1 maxWidth)))
  | matrix m => do
    let rounded ← (List.range m.length).mapM fun i => do
      let m0 ← idx m 0
      (List.range m0.length).mapM fun j => do
        let r ← idx m i
        let x ← idx r j
        .ok (roundAndFormat cfg x false)
    let widths ← rounded.mapM fun r => maxUnwrap (r.map byteLen)
    let maxWidth ← maxUnwrap widths
    .ok (join ['\n'] (rounded.zipIdx.map fun p =>
      prettyLine name rounded.length p.2 ('⎡', '⎤') ('⎢', '⎥') ('⎣', '⎦')
        (join [' '] (p.1.map fun s => centerInString s maxWidth))))

/-- `Value::as_unicode`  (src/basetypes.rs 346-348). -/
def asUnicode {ε : Type} (cfg : Cfg) (v : Value F) : Out ε Str := prettyPrint cfg v none

/-- The replacement of a LaTeX-style name by its symbol  (src/basetypes.rs 353-359). -/
def symbolOf (name : Str) : Str :=
  match varSymbols.find? fun p => name == p.1 with
  | some p => p.2
  | none => name

/-- `Value::as_unicode_at_var`  (src/basetypes.rs 352-361). -/
def asUnicodeAtVar {ε : Type} (cfg : Cfg) (v : Value F) (name : Str) : Out ε Str :=
  prettyPrint cfg v (some (symbolOf name))

/-- `Value::as_latex`, `Value::latex_print`  (src/basetypes.rs 481-483, 502-533). -/
def asLatex (cfg : Cfg) : Value F → Str
  | scalar s => roundAndFormat cfg s true
  | vector v => str! "\\begin{pmatrix}" ++
      join str! "\\\\ " (v.map fun x => roundAndFormat cfg x true) ++ str! "\\end{pmatrix}"
  | matrix m => str! "\\begin{bmatrix}" ++
      (m.flatMap fun r => if r.isEmpty then [] else
        join str! " & " (r.map fun x => roundAndFormat cfg x true) ++ str! " \\\\") ++
      str! "\\end{bmatrix}"

end Value

/-- `if var == "pi" {var = "\\pi"}`  (src/basetypes.rs 496-498, 608-610, 790-795). -/
def latexName (n : Str) : Str := if n = str! "pi" then str! "\\pi" else n

/-- `"&"` or nothing  (src/basetypes.rs 487-492, 599-604, 755-760). -/
def aligner (b : Bool) : Str := if b then ['&'] else []

/-- `Value::as_latex_at_var`  (src/basetypes.rs 486-501). -/
def Value.asLatexAtVar (cfg : Cfg) (v : Value F) (name : Str) (addAligner : Bool) : Str :=
  latexName name ++ [' '] ++ aligner addAligner ++ str! "= " ++ v.asLatex cfg

/-- `Values::as_string`  (src/basetypes.rs 584-586). -/
def valuesAsString (vs : List (Value F)) : Str :=
  ['{'] ++ join str! ", " (vs.map Value.asString) ++ ['}']

/-- `Values::as_latex`  (src/basetypes.rs 588-596). -/
def valuesAsLatex (cfg : Cfg) (vs : List (Value F)) : Str :=
  match vs with
  | [v] => v.asLatex cfg
  | [] => str! "No solutions"
  | vs => str! "\\left\\{" ++ join str! "; " (vs.map fun v => v.asLatex cfg) ++ str! "\\right\\}"

/-- `Values::as_latex_at_var`  (src/basetypes.rs 600-621). -/
def valuesAsLatexAtVar (cfg : Cfg) (vs : List (Value F)) (name : Str) (addAligner : Bool) : Str :=
  match vs with
  | [] => latexName name ++ str! ": No solutions"
  | [v] => latexName name ++ [' '] ++ aligner addAligner ++ str! "= " ++ v.asLatex cfg
  | vs => latexName name ++ [' '] ++ aligner addAligner ++ str! "= \\left\\{" ++
      join str! "; " (vs.map fun v => v.asLatex cfg) ++ str! "\\right\\}"

/-- `Variable::as_latex`  (src/basetypes.rs 45-47). -/
def Variable.asLatex (cfg : Cfg) (v : Variable F) (addAligner : Bool) : Str :=
  valuesAsLatexAtVar cfg v.values v.name addAligner

namespace AST

mutual
/-- `AST::as_string`  (src/basetypes.rs 684-745). -/
def asString (cfg : Cfg) : AST F → Str
  | .scalar s => roundAndFormat cfg s false
  | .vector v => ['['] ++ join str! ", " (asStringAll cfg v) ++ [']']
  | .matrix m => ['['] ++ join str! ", " (asStringRows cfg m) ++ [']']
  | .list l => ['{'] ++ join str! ", " (asStringAll cfg l) ++ ['}']
  | .variable v => v
  | .function name inputs => name ++ ['('] ++ join str! ", " (asStringAll cfg inputs) ++ [')']
  | .simple op left right =>
    let lv := asString cfg left
    let rv := asString cfg right
    match op with
    | .get => lv ++ ['_'] ++ rv
    | .add => lv ++ str! " + " ++ rv
    | .sub => lv ++ str! " - " ++ rv
    | .addSub => lv ++ str! " +- " ++ rv
    | .mult => lv ++ str! " * " ++ rv
    | .neg => ['-'] ++ rv
    | .div => lv ++ str! " / " ++ rv
    | .hiddenMult => lv ++ rv
    | .pow => lv ++ str! "^(" ++ rv ++ [')']
    | .cross => lv ++ ['x'] ++ rv
    | .abs => ['|'] ++ lv ++ ['|']
    | .sin => str! "sin(" ++ lv ++ [')']
    | .cos => str! "cos(" ++ lv ++ [')']
    | .tan => str! "tan(" ++ lv ++ [')']
    | .sqrt => str! "sqrt(" ++ lv ++ [')']
    | .root => str! "root(" ++ lv ++ str! ", " ++ rv ++ [')']
    | .ln => str! "ln(" ++ lv ++ [')']
    | .arcsin => str! "arcsin(" ++ lv ++ [')']
    | .arccos => str! "arccos(" ++ lv ++ [')']
    | .arctan => str! "arctan(" ++ lv ++ [')']
    | .det => str! "det(" ++ lv ++ [')']
    | .inv => str! "inv(" ++ lv ++ [')']
    | .parenths => ['('] ++ lv ++ [')']
  | .integral e x lo hi => str! "I(" ++ asString cfg e ++ str! ", " ++ x ++ str! ", " ++
      asString cfg lo ++ str! ", " ++ asString cfg hi ++ [')']
  | .derivative e x a => str! "D(" ++ asString cfg e ++ str! ", " ++ x ++ str! ", " ++
      asString cfg a ++ [')']
  | .equation eqs _ => str! "eq(" ++ join [','] (asStringEqs cfg eqs) ++ [')']
/-- the `map(|a| a.as_string())` of `AST::as_string`  (src/basetypes.rs 687-691). -/
def asStringAll (cfg : Cfg) : List (AST F) → List Str
  | [] => []
  | a :: as => asString cfg a :: asStringAll cfg as
/-- the rows of a matrix in `AST::as_string`  (src/basetypes.rs 688). -/
def asStringRows (cfg : Cfg) : List (List (AST F)) → List Str
  | [] => []
  | r :: rs => (['['] ++ join str! ", " (asStringAll cfg r) ++ [']']) :: asStringRows cfg rs
/-- the equations in `AST::as_string`  (src/basetypes.rs 737-738). -/
def asStringEqs (cfg : Cfg) : List (AST F × AST F) → List Str
  | [] => []
  | (l, r) :: es => (asString cfg l ++ ['='] ++ asString cfg r) :: asStringEqs cfg es
end

mutual
/-- `AST::as_latex`, `AST::latex_print`  (src/basetypes.rs 747-749, 761-866). -/
def asLatex (cfg : Cfg) : AST F → Str
  | .scalar s => roundAndFormat cfg s true
  | .vector v => str! "\\begin{pmatrix}" ++ join str! "\\\\ " (asLatexAll cfg v) ++ str! "\\end{pmatrix}"
  | .matrix m => str! "\\begin{bmatrix}" ++ (asLatexRows cfg m).flatten ++ str! "\\end{bmatrix}"
  | .list l => str! "\\left\\{" ++ join str! "; " (asLatexAll cfg l) ++ str! "\\right\\}"
  | .variable v => latexName v
  | .function name inputs => name ++ str! "\\left(" ++ join str! ", " (asLatexAll cfg inputs) ++ str! "\\right)"
  | .simple op left right =>
    let lv := asLatex cfg left
    let rv := asLatex cfg right
    match op with
    | .get => lv ++ str! "_{" ++ rv ++ ['}']
    | .add => lv ++ ['+'] ++ rv
    | .sub => lv ++ ['-'] ++ rv
    | .addSub => lv ++ str! "\\pm" ++ rv
    | .mult => lv ++ str! "\\cdot " ++ rv
    | .neg => ['-'] ++ rv
    | .div => str! "\\frac{" ++ lv ++ str! "}{" ++ rv ++ ['}']
    | .hiddenMult => lv ++ rv
    | .pow => lv ++ str! "^{" ++ rv ++ ['}']
    | .cross => lv ++ str! "\\times " ++ rv
    | .abs => ['|'] ++ lv ++ ['|']
    | .sin => str! "\\sin\\left(" ++ lv ++ str! "\\right)"
    | .cos => str! "\\cos\\left(" ++ lv ++ str! "\\right)"
    | .tan => str! "\\tan\\left(" ++ lv ++ str! "\\right)"
    | .sqrt => str! "\\sqrt{" ++ lv ++ ['}']
    | .root => str! "\\sqrt[" ++ rv ++ str! "]{" ++ lv ++ ['}']
    | .ln => str! "\\ln\\left(" ++ lv ++ str! "\\right)"
    | .arcsin => str! "\\arcsin\\left(" ++ lv ++ str! "\\right)"
    | .arccos => str! "\\arccos\\left(" ++ lv ++ str! "\\right)"
    | .arctan => str! "\\arctan\\left(" ++ lv ++ str! "\\right)"
    | .det => str! "\\det\\left(" ++ lv ++ str! "\\right)"
    | .inv => lv ++ str! "^{-1}"
    | .parenths => str! "\\left(" ++ lv ++ str! "\\right)"
  | .integral e x lo hi => str! "\\int_{" ++ asLatex cfg lo ++ str! "}^{" ++ asLatex cfg hi ++ str! "}" ++
      asLatex cfg e ++ str! " d" ++ x
  | .derivative e x a => str! "\\frac{\\partial}{\\partial " ++ x ++ str! "}\\left(" ++ asLatex cfg e ++
      str! "\\right)_{\\text{at }" ++ x ++ str! " = " ++ asLatex cfg a ++ str! "}"
  | .equation eqs _ => str! "\\left|\\begin{align}" ++ join str! "\\\\ \n " (asLatexEqs cfg eqs) ++
      str! "\\end{align}\\right|"
/-- the entries of a vector, list or argument list in `AST::latex_print`  (src/basetypes.rs 768-775, 789, 797-805). -/
def asLatexAll (cfg : Cfg) : List (AST F) → List Str
  | [] => []
  | a :: as => asLatex cfg a :: asLatexAll cfg as
/-- the rows of a matrix in `AST::latex_print`  (src/basetypes.rs 777-787). -/
def asLatexRows (cfg : Cfg) : List (List (AST F)) → List Str
  | [] => []
  | r :: rs => (if r.isEmpty then [] else join str! " & " (asLatexAll cfg r) ++ str! " \\\\") :: asLatexRows cfg rs
/-- the equations in `AST::latex_print`  (src/basetypes.rs 858-859). -/
def asLatexEqs (cfg : Cfg) : List (AST F × AST F) → List Str
  | [] => []
  | (l, r) :: es => (asLatex cfg l ++ str! "&=" ++ asLatex cfg r) :: asLatexEqs cfg es
end

/-- `AST::as_latex_at_fun`  (src/basetypes.rs 752-760). -/
def asLatexAtFun (cfg : Cfg) (a : AST F) (name : Str) (inputs : List Str) (addAligner : Bool) : Str :=
  name ++ ['('] ++ join str! ", " inputs ++ str! ") " ++ aligner addAligner ++ str! "= " ++ asLatex cfg a

end AST

/-- `Function::as_latex`  (src/basetypes.rs 76-78). -/
def Function.asLatex (cfg : Cfg) (f : Function F) (addAligner : Bool) : Str :=
  f.ast.asLatexAtFun cfg f.name f.inputs addAligner

/-! ## src/latex.rs -/

/-- `enum Step`  (src/latex.rs 53-64): `calculation` is `Calc`, `declaration` is `Fun` (both words are reserved
in Lean). -/
inductive Step (F : Type) where
  | calculation (term : AST F) (result : List (Value F)) (variableSave : Option Str)
  | declaration (term : AST F) (inputs : List Str) (name : Str)

namespace Step

/-- `format!(" \\tag{{{}}}\\label{{eq:{}}} \\\\ \\\\ \n", n, n)`  (src/latex.rs 82, 84, 90). -/
def tagText (n : Int) : Str :=
  str! " \\tag{" ++ (toString n).toList ++ str! "}\\label{eq:" ++ (toString n).toList ++ str! "} \\\\ \\\\ \n"

/-- `Step::as_latex_with_tag`  (src/latex.rs 69-93). -/
def asLatexWithTag (cfg : Cfg) (s : Step F) (n : Int) : Str :=
  match s with
  | calculation term result save =>
    let latex := match save with
      | some v => v ++ str! " &= "
      | none => []
    let al : Str := if save.isSome then [] else ['&']
    let expression := term.asLatex cfg
    let res := valuesAsLatex cfg result
    if expression ≠ res then latex ++ (expression ++ [' '] ++ al ++ str! "= " ++ res ++ tagText n)
    else latex ++ (expression ++ tagText n)
  | declaration term inputs name => term.asLatexAtFun cfg name inputs true ++ tagText n

/-- `Step::as_latex`  (src/latex.rs 95-117). -/
def asLatex (cfg : Cfg) (s : Step F) : Str :=
  match s with
  | calculation term result save =>
    let latex := match save with
      | some v => v ++ str! " &= "
      | none => []
    let al : Str := if save.isSome then [] else ['&']
    let expression := term.asLatex cfg
    let res := valuesAsLatex cfg result
    if expression ≠ res then latex ++ (expression ++ [' '] ++ al ++ str! "= " ++ res)
    else latex ++ expression
  | declaration term inputs name => term.asLatexAtFun cfg name inputs true

/-- `Step::as_latex_inline`  (src/latex.rs 119-139). The function case passes `add_aligner = true`. -/
def asLatexInline (cfg : Cfg) (s : Step F) : Str :=
  match s with
  | calculation term result save =>
    let latex := match save with
      | some v => v ++ str! " = "
      | none => []
    let expression := term.asLatex cfg
    let res := valuesAsLatex cfg result
    if expression ≠ res then latex ++ (expression ++ str! " = " ++ res)
    else latex ++ expression
  | declaration term inputs name => term.asLatexAtFun cfg name inputs true

end Step

/-- The text `export_history` starts with  (src/latex.rs 157). -/
def historyHead : Str :=
  str! "\\documentclass[12pt, letterpaper]{article}\n\\usepackage{amsmath}\n\\usepackage[margin=1in]{geometry}\n\\allowdisplaybreaks\n\\begin{document}\n\\begin{align*}\n"

/-- The text it ends with  (src/latex.rs 161). -/
def historyTail : Str := str! "\\end{align*}\n\\end{document}"

/-- The loop of `export_history`  (src/latex.rs 158-160); `i` is the index of the next step. Simplification:
`i as i32 + 1` is taken to be `i + 1` (fewer than `2^31` steps). -/
def exportLoop (cfg : Cfg) : List (Step F) → Nat → Str → Str
  | [], _, out => out
  | s :: rest, i, out => exportLoop cfg rest (i + 1) (out ++ s.asLatexWithTag cfg ((i : Int) + 1))

/-- `export_history(history, ExportType::Tex)`  (src/latex.rs 156-172), as text instead of UTF-8 bytes.
`ExportType::Pdf`: see `exportHistory`. -/
def exportHistoryTex (cfg : Cfg) (history : List (Step F)) : Str :=
  exportLoop cfg history 0 historyHead ++ historyTail

end

end MUL
