import Verif.Model.Output
import Verif.Props.Steps
/-!
# C77: images and documents
-/

namespace MUL
open Out

set_option linter.unusedSectionVars false

/-- `t` occurs somewhere in `s`. -/
def Spec.Occurs (t s : Str) : Prop := ∃ a b, s = a ++ t ++ b

open Spec

theorem replace_skip (pat new : Str) (u s : Str) : replaceLoop pat new u.length (u ++ s) = replaceLoop pat new 0 s := by
  induction u with
  | nil => rfl
  | cons c u ih => simpa [replaceLoop] using ih

theorem replace_at {pat new : Str} (hp : pat ≠ []) (s : Str) :
    replaceLoop pat new 0 (pat ++ s) = new ++ replaceLoop pat new 0 s := by
  obtain ⟨c, p, rfl⟩ := List.exists_cons_of_ne_nil hp
  rw [List.cons_append, replaceLoop, if_pos (by simp)]
  simp only [List.length_cons, Nat.add_sub_cancel]
  rw [replace_skip]

theorem replace_nowhere {pat new : Str} {s : Str} (h : ¬ Occurs pat s) : replaceLoop pat new 0 s = s := by
  induction s with
  | nil => rfl
  | cons c s ih =>
    rw [replaceLoop, if_neg, ih]
    · rintro ⟨a, b, rfl⟩
      exact h ⟨c :: a, b, by simp⟩
    · intro hc
      obtain ⟨b, hb⟩ := List.isPrefixOf_iff_prefix.1 hc
      exact h ⟨[], b, by simpa using hb.symm⟩

/-- The first character of the pattern occurs in it only once. -/
def Lone (pat : Str) : Prop := ∃ c p, pat = c :: p ∧ c ∉ p

theorem replace_piece {pat new : Str} (hp : Lone pat) {u : Str} (h : ¬ Occurs pat u) (s : Str) :
    replaceLoop pat new 0 (u ++ (pat ++ s)) = u ++ (new ++ replaceLoop pat new 0 s) := by
  have hne : pat ≠ [] := by obtain ⟨c, p, rfl, _⟩ := hp; simp
  induction u with
  | nil => exact replace_at hne s
  | cons d u ih =>
    rw [List.cons_append, replaceLoop, if_neg, ih]
    · rfl
    · rintro ⟨a, b, rfl⟩
      exact h ⟨d :: a, b, by simp⟩
    · intro hc
      obtain ⟨b, hb⟩ := List.isPrefixOf_iff_prefix.1 hc
      rw [← List.cons_append] at hb
      rcases List.append_eq_append_iff.1 hb with ⟨w, h1, h2⟩ | ⟨w, h1, h2⟩
      · exact h ⟨[], w, by simpa using h1⟩
      · obtain ⟨c, p, rfl, hcp⟩ := hp
        cases w with
        | nil => exact h ⟨[], [], by simpa using h1.symm⟩
        | cons x w =>
          simp only [List.cons_append, List.cons.injEq] at h1 h2
          obtain ⟨rfl, h1⟩ := h1
          obtain ⟨rfl, _⟩ := h2
          exact hcp (by rw [h1]; simp)

theorem replace_pieces {pat new : Str} (hp : Lone pat) {us : List Str} (h : ∀ u ∈ us, ¬ Occurs pat u) :
    replaceLoop pat new 0 (pat.intercalate us) = new.intercalate us := by
  induction us with
  | nil => rfl
  | cons u us ih =>
    cases us with
    | nil => simpa [List.intercalate] using replace_nowhere (h u (by simp))
    | cons v us =>
      have e : ∀ q : Str, q.intercalate (u :: v :: us) = u ++ (q ++ q.intercalate (v :: us)) := by
        intro q
        simp [List.intercalate]
      rw [e, e, replace_piece hp (h u (by simp)), ih fun u hu => h u (by simp [hu])]

theorem pieces_exist {pat : Str} (hp : pat ≠ []) (s : Str) : ∃ us, us ≠ [] ∧ s = pat.intercalate us ∧ ∀ u ∈ us, ¬ Occurs pat u := by
  induction hn : s.length using Nat.strong_induction_on generalizing s with
  | _ n ih =>
    subst hn
    by_cases h : Occurs pat s
    · -- the first occurrence
      have hex : ∃ k, ∃ a b, a.length = k ∧ s = a ++ pat ++ b := by
        obtain ⟨a, b, e⟩ := h
        exact ⟨_, a, b, rfl, e⟩
      classical
      obtain ⟨a, b, ha, e⟩ := Nat.find_spec hex
      have hmin : ∀ a' b', s = a' ++ pat ++ b' → a.length ≤ a'.length := by
        intro a' b' e'
        rw [ha]
        exact Nat.find_min' hex ⟨a', b', rfl, e'⟩
      have hlen : 0 < pat.length := List.length_pos_iff.2 hp
      obtain ⟨us, h1, h2, h3⟩ := ih b.length (by rw [e]; simp; omega) b rfl
      refine ⟨a :: us, by simp, ?_, ?_⟩
      · obtain ⟨v, us, rfl⟩ := List.exists_cons_of_ne_nil h1
        rw [e, h2]
        simp [List.intercalate]
      · intro u hu
        rcases List.mem_cons.1 hu with rfl | hu
        · rintro ⟨a', b', hu'⟩
          have := hmin a' (b' ++ pat ++ b) (by rw [e, hu']; simp)
          rw [hu', List.length_append, List.length_append] at this
          omega
        · exact h3 u hu
    · exact ⟨[s], by simp, by simp [List.intercalate], by simpa using h⟩

section
variable {G T P : Type} (X : Crates G T P)

/-- **C77.** The image is MathJax's with `currentColor` replaced by the line colour at every place and nothing else changed: cut
MathJax's text at all occurrences of `currentColor` (in whatever way leaves pieces without it) and join the pieces with the colour. -/
theorem C77_svg (latex color svg : Str) (h : X.convertToSvg latex = .ok svg) :
    (∃ us, us ≠ [] ∧ svg = List.intercalate str! "currentColor" us ∧ ∀ u ∈ us, ¬ Occurs str! "currentColor" u) ∧
    ∀ us, svg = List.intercalate str! "currentColor" us → (∀ u ∈ us, ¬ Occurs str! "currentColor" u) →
      svgFromLatex X latex color = .ok (color.intercalate us) := by
  refine ⟨pieces_exist (by simp) svg, fun us e hu => ?_⟩
  unfold svgFromLatex replaceAll
  rw [h]
  simp only [Out.mapErr, ok_bind]
  rw [e, replace_pieces ⟨'c', str! "urrentColor", rfl, by decide⟩ hu]

theorem occurs_split {t u v : Str} (h : Occurs t (u ++ v)) : Occurs t u ∨ Occurs t v ∨ ∃ a b, t = a ++ b ∧ a ≠ [] ∧ b ≠ [] ∧
    (∃ w, u = w ++ a) ∧ ∃ w, v = b ++ w := by
  obtain ⟨x, y, e⟩ := h
  rw [List.append_assoc] at e
  rcases List.append_eq_append_iff.1 e with ⟨w, h1, h2⟩ | ⟨w, h1, h2⟩
  · exact .inr (.inl ⟨w, y, by rw [h2]; simp⟩)
  · rcases List.append_eq_append_iff.1 h2 with ⟨z, h3, h4⟩ | ⟨z, h3, h4⟩
    · exact .inl ⟨x, z, by rw [h1, h3]; simp⟩
    · by_cases hw : w = []
      · subst hw
        exact .inr (.inl ⟨[], y, by rw [h4, ← (show t = z by simpa using h3)]; simp⟩)
      · by_cases hz : z = []
        · subst hz
          exact .inl ⟨x, [], by rw [h1]; simp [h3]⟩
        · exact .inr (.inr ⟨w, z, h3, hw, hz, ⟨x, h1⟩, ⟨y, h4⟩⟩)

/-- **C77.** If the colour is not empty and has no letter of `currentColor` (such as `#FFFFFF`), none of it is left in the image. -/
theorem C77_no_current_color (latex color svg : Str) (hne : color ≠ []) (hc : ∀ c ∈ color, c ∉ str! "currentColor")
    (h : svgFromLatex X latex color = .ok svg) : ¬ Occurs str! "currentColor" svg := by
  unfold svgFromLatex at h
  cases hs : X.convertToSvg latex with
  | ok s =>
    have hsvg := C77_svg X latex color s hs
    obtain ⟨us, h1, h2, h3⟩ := hsvg.1
    have e := hsvg.2 us h2 h3
    unfold svgFromLatex at e
    rw [e] at h
    injection h with h
    subst h
    clear e h2 hs hsvg s
    induction us with
    | nil => exact absurd rfl h1
    | cons u us ih =>
      cases us with
      | nil => simpa [List.intercalate] using h3 u (by simp)
      | cons v us =>
        have e : color.intercalate (u :: v :: us) = u ++ (color ++ color.intercalate (v :: us)) := by simp [List.intercalate]
        rw [e]
        have hI := ih (by simp) fun u hu => h3 u (by simp [hu])
        generalize color.intercalate (v :: us) = rest at hI
        have hshare : ∀ t : Str, t ≠ [] → (∀ c ∈ t, c ∈ color) → ∀ a b, str! "currentColor" = a ++ t ++ b → False := by
          intro t ht hm a b e
          obtain ⟨c, t, rfl⟩ := List.exists_cons_of_ne_nil ht
          exact hc c (hm c (by simp)) (by rw [e]; simp)
        intro ho
        rcases occurs_split ho with ho | ho | ⟨a, b, e1, ha, hb, _, w, e2⟩
        · exact h3 u (by simp) ho
        · rcases occurs_split ho with ho | ho | ⟨a, b, e1, ha, hb, ⟨w, e2⟩, _⟩
          · obtain ⟨x, y, rfl⟩ := ho
            exact hshare str! "currentColor" (by simp) (fun c hc => by simp only [List.mem_append]; tauto) [] [] (by simp)
          · exact hI ho
          · exact hshare a ha (fun c hc => by rw [e2]; simp [hc]) [] b (by simpa using e1)
        · obtain ⟨c, b, rfl⟩ := List.exists_cons_of_ne_nil hb
          obtain ⟨d, color, rfl⟩ := List.exists_cons_of_ne_nil hne
          simp only [List.cons_append, List.cons.injEq] at e2
          obtain ⟨rfl, _⟩ := e2
          exact hshare [d] (by simp) (by simp) a b (by simpa using e1)
  | err m => rw [hs] at h; cases h
  | panic => rw [hs] at h; cases h
  | timeout => rw [hs] at h; cases h

/-- **C77.** An error of one of the external programs is reported with its text, wrapped in the variant for that program, and by
nothing else: `svg_from_latex` fails only if MathJax does, `png_from_latex` only if that fails or the image cannot be read. -/
theorem C77_errors (latex color : Str) (height : Nat) (e : LatexError) :
    (svgFromLatex X latex color = .err e ↔ ∃ m, X.convertToSvg latex = .err m ∧ e = .latexToSvgError m) ∧
    (pngFromLatex X latex height color = .err e ↔ svgFromLatex X latex color = .err e ∨
      ∃ svg m, svgFromLatex X latex color = .ok svg ∧ X.treeFromStr svg = .err m ∧ e = .latexToImageError m) := by
  constructor
  · unfold svgFromLatex
    cases X.convertToSvg latex <;> simp [Out.mapErr, eq_comm, bind, Out.bind]
  · unfold pngFromLatex
    cases hs : svgFromLatex X latex color with
    | ok s =>
      simp only [ok_bind]
      cases ht : X.treeFromStr s with
      | ok t =>
        simp only [Out.mapErr, ok_bind]
        have hu : ∀ {α : Type} (o : Option α) (e : LatexError), (Out.unwrap o : Out LatexError α) ≠ .err e := by
          intro α o e; cases o <;> simp [Out.unwrap]
        constructor
        · intro h
          exfalso
          cases hp : X.pixmap (X.toU32 (X.ceil (X.mul (X.div (X.width t) (X.height t)) (X.ofU32 height)))) height with
          | none => rw [hp] at h; simp [Out.unwrap] at h
          | some p => rw [hp] at h; simp only [Out.unwrap, ok_bind] at h; exact hu _ _ h
        · rintro (h | ⟨s', m, h1, h2, _⟩)
          · cases h
          · injection h1 with h1
            subst h1
            rw [ht] at h2
            cases h2
      | err m =>
        simp only [Out.mapErr, err_bind, Out.err.injEq]
        constructor
        · rintro rfl
          exact .inr ⟨s, m, rfl, ht, rfl⟩
        · rintro (h | ⟨s', m', h1, h2, rfl⟩)
          · cases h
          · injection h1 with h1
            subst h1
            rw [ht] at h2
            injection h2 with h2
            rw [h2]
      | panic =>
        simp only [Out.mapErr, panic_bind]
        constructor
        · intro h; cases h
        · rintro (h | ⟨s', m', h1, h2, rfl⟩)
          · cases h
          · injection h1 with h1; subst h1; rw [ht] at h2; cases h2
      | timeout =>
        simp only [Out.mapErr, timeout_bind]
        constructor
        · intro h; cases h
        · rintro (h | ⟨s', m', h1, h2, rfl⟩)
          · cases h
          · injection h1 with h1; subst h1; rw [ht] at h2; cases h2
    | err m => simp
    | panic => simp
    | timeout => simp

/-- **C77.** A finished picture has the height that was asked for and the width that keeps the proportions (rounded up), and is the
image scaled to that size. -/
theorem C77_png (latex color : Str) (height : Nat) (bytes : List UInt8) (h : pngFromLatex X latex height color = .ok bytes) :
    ∃ svg tree p, svgFromLatex X latex color = .ok svg ∧ X.treeFromStr svg = .ok tree ∧
      let w := X.ceil (X.mul (X.div (X.width tree) (X.height tree)) (X.ofU32 height))
      X.pixmap (X.toU32 w) height = some p ∧
      X.encodePng (X.render tree (X.div w (X.width tree)) (X.div (X.ofU32 height) (X.height tree)) p) = some bytes := by
  unfold pngFromLatex at h
  cases hs : svgFromLatex X latex color with
  | ok s =>
    rw [hs, ok_bind] at h
    cases ht : X.treeFromStr s with
    | ok t =>
      rw [ht] at h
      simp only [Out.mapErr, ok_bind] at h
      cases hp : X.pixmap (X.toU32 (X.ceil (X.mul (X.div (X.width t) (X.height t)) (X.ofU32 height)))) height with
      | none => rw [hp] at h; cases h
      | some p =>
        rw [hp] at h
        simp only [Out.unwrap, ok_bind] at h
        refine ⟨s, t, p, rfl, ht, hp, ?_⟩
        split at h
        · rename_i b hb
          injection h with h
          rw [hb, h]
        · cases h
    | err m => rw [ht] at h; cases h
    | panic => rw [ht] at h; cases h
    | timeout => rw [ht] at h; cases h
  | err m => rw [hs] at h; cases h
  | panic => rw [hs] at h; cases h
  | timeout => rw [hs] at h; cases h

/-- **C77.** `png_from_latex` panics for height 0 (a readable image; `Pixmap::new` makes no pixmap without pixels). -/
theorem C77_zero_height (latex color svg : Str) (tree : T) (hpix : ∀ w, X.pixmap w 0 = none)
    (h1 : svgFromLatex X latex color = .ok svg) (h2 : X.treeFromStr svg = .ok tree) : pngFromLatex X latex 0 color = .panic := by
  unfold pngFromLatex
  rw [h1, ok_bind, h2]
  simp only [Out.mapErr, ok_bind]
  rw [hpix]
  rfl

variable {F : Type} [FNum F]

/-- **C77.** `export_history` hands the same document to tectonic that it returns as UTF-8 for `ExportType::Tex`, which never
fails; an error of tectonic is reported with its text. -/
theorem C77_export (cfg : Cfg) (history : List (Step F)) :
    ∃ doc : Str, exportHistory X cfg history .tex = .ok (utf8 doc) ∧
      doc = historyHead ++ (numberedSteps cfg history).flatten ++ historyTail ∧
      (∀ bytes, X.latexToPdf doc = .ok bytes → exportHistory X cfg history .pdf = .ok bytes) ∧
      (∀ m, X.latexToPdf doc = .err m → exportHistory X cfg history .pdf = .err (.latexToPdfError m)) := by
  refine ⟨exportHistoryTex cfg history, rfl, C56_export cfg history, fun bytes h => ?_, fun m h => ?_⟩
  · simp only [exportHistory, h, Out.mapErr]
  · simp only [exportHistory, h, Out.mapErr]

end

/-- A toy instance: MathJax returns one path, images are as wide as high, pictures are their own bytes. -/
def toyCrates : Crates Nat Str (List UInt8) where
  convertToSvg s := if s = [] then .err str! "empty" else .ok str! "<path fill=\"currentColor\" stroke=\"currentColor\"/>"
  treeFromStr s := .ok s
  width _ := 2
  height _ := 1
  div := (· / ·)
  mul := (· * ·)
  ceil x := x
  toU32 x := x
  ofU32 x := x
  pixmap w h := if w * h = 0 then none else some (List.replicate (w * h) 0)
  render _ _ _ p := p
  encodePng p := some p
  latexToPdf s := .ok (utf8 s)

example : svgFromLatex toyCrates str! "x" str! "#FF00FF" = .ok str! "<path fill=\"#FF00FF\" stroke=\"#FF00FF\"/>" := by decide +kernel
example : pngFromLatex toyCrates str! "x" 2 str! "#FF00FF" = .ok [0, 0, 0, 0, 0, 0, 0, 0] := by decide +kernel
example : pngFromLatex toyCrates str! "x" 0 str! "#FF00FF" = .panic :=
  C77_zero_height toyCrates _ _ _ _ (fun w => by simp [toyCrates]) 
    (show _ = Out.ok str! "<path fill=\"#FF00FF\" stroke=\"#FF00FF\"/>" by decide +kernel) rfl
example : pngFromLatex toyCrates [] 2 str! "#FF00FF" = .err (.latexToSvgError str! "empty") := by decide +kernel

/-- **C77.** A colour with letters of `currentColor` can leave one: the replacement is not repeated. -/
theorem C77_letters : ∃ s color : Str, color ≠ [] ∧ Occurs str! "currentColor" (replaceAll s str! "currentColor" color) :=
  ⟨str! "currentColorurrentColor", str! "#00000c", by decide, str! "#00000", [], by decide +kernel⟩

end MUL
