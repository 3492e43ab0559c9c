import Verif.Model.Print
import Verif.Model.Errors
/-!
# Images and documents  (src/latex.rs 6-39, 156-172, feature `output`)

The external crates are parameters: MathJax (`convert_to_svg`), usvg (`Tree::from_str`, the size of the image), tiny_skia
(`Pixmap::new`, `encode_png`), resvg (`render`) and tectonic (`latex_to_pdf`). An error of a crate is modelled by its text
(`to_string()`), since the library keeps nothing else.
-/

namespace MUL

/-- What the library uses of the external crates. `G` is `f32`, `T` a `usvg::Tree`, `P` a `Pixmap`. -/
structure Crates (G T P : Type) where
  /-- `mathjax_svg::convert_to_svg` -/
  convertToSvg : Str → Out Str Str
  /-- `usvg::Tree::from_str(.., &Options::default())` -/
  treeFromStr : Str → Out Str T
  /-- `tree.size().width()` -/
  width : T → G
  /-- `tree.size().height()` -/
  height : T → G
  /-- `/`, `*`, `ceil`, `as u32` and `as f32` -/
  div : G → G → G
  mul : G → G → G
  ceil : G → G
  toU32 : G → Nat
  ofU32 : Nat → G
  /-- `Pixmap::new(width, height)` -/
  pixmap : Nat → Nat → Option P
  /-- `render(&tree, Transform::from_row(sx, 0, 0, sy, 0, 0), ..)`: the pixmap afterwards -/
  render : T → G → G → P → P
  /-- `encode_png().ok()` -/
  encodePng : P → Option (List UInt8)
  /-- `tectonic::latex_to_pdf` -/
  latexToPdf : Str → Out Str (List UInt8)

/-- The loop of `str::replace` for a non-empty pattern: the text is searched from left to right, and the search goes on after a
replaced occurrence. `skip` counts the characters of the occurrence that are still to be passed. -/
def replaceLoop (pat new : Str) : Nat → Str → Str
  | _, [] => []
  | k + 1, _ :: s => replaceLoop pat new k s
  | 0, c :: s =>
    if pat.isPrefixOf (c :: s) then new ++ replaceLoop pat new (pat.length - 1) s
    else c :: replaceLoop pat new 0 s

/-- `str::replace(pat, to)`, called in src/latex.rs 36, for a non-empty pattern. -/
def replaceAll (s pat new : Str) : Str := replaceLoop pat new 0 s

/-- `svg_from_latex`  (src/latex.rs 31-39; the conversion of the error is src/errors.rs 205-209). -/
def svgFromLatex {G T P : Type} (X : Crates G T P) (latex lineColor : Str) : Out LatexError Str := do
  let svg ← (X.convertToSvg latex).mapErr .latexToSvgError
  .ok (replaceAll svg str! "currentColor" lineColor)

/-- `png_from_latex`  (src/latex.rs 10-26; the conversion of the error is src/errors.rs 218-223). -/
def pngFromLatex {G T P : Type} (X : Crates G T P) (latex : Str) (height : Nat) (lineColor : Str) : Out LatexError (List UInt8) := do
  let svg ← svgFromLatex X latex lineColor
  let tree ← (X.treeFromStr svg).mapErr .latexToImageError
  let destWidth := X.ceil (X.mul (X.div (X.width tree) (X.height tree)) (X.ofU32 height))
  let widthScale := X.div destWidth (X.width tree)
  let heightScale := X.div (X.ofU32 height) (X.height tree)
  let pixmap ← Out.unwrap (X.pixmap (X.toU32 destWidth) height)
  Out.unwrap (X.encodePng (X.render tree widthScale heightScale pixmap))

/-- `enum ExportType`  (src/latex.rs 147-150). -/
inductive ExportType where
  | pdf
  | tex

/-- `String::into_bytes`: the UTF-8 encoding. -/
def utf8 (s : Str) : List UInt8 := s.flatMap String.utf8EncodeChar

/-- `export_history`  (src/latex.rs 155-172; the conversion of the error is src/errors.rs 211-216). -/
def exportHistory {G T P F : Type} [FNum F] (X : Crates G T P) (cfg : Cfg) (history : List (Step F)) (t : ExportType) :
    Out LatexError (List UInt8) :=
  match t with
  | .pdf => (X.latexToPdf (exportHistoryTex cfg history)).mapErr .latexToPdfError
  | .tex => .ok (utf8 (exportHistoryTex cfg history))

end MUL
