import Verif.Props.Latex
/-!
# C53: layout of LaTeX matrices
-/

namespace MUL

open Spec

set_option linter.unusedSectionVars false

/-- No line break inside, and none can arise by appending. -/
def breakFree : Str → Bool
  | [] => true
  | c :: rest => (c != '\\' || (match rest with | [] => false | d :: _ => d != '\\')) && breakFree rest

theorem splitBreaks_cons {c : Char} {s : Str} (h : ¬ (c = '\\' ∧ s.head? = some '\\')) {l : Str} {ls : List Str}
    (hs : splitBreaks s = l :: ls) : splitBreaks (c :: s) = (c :: l) :: ls := by
  unfold splitBreaks
  split
  · rename_i h1
    cases h1
  · rename_i h1
    cases h1
    exact absurd ⟨rfl, rfl⟩ h
  · rename_i h1
    cases h1
    rw [hs]

theorem splitBreaks_free {s : Str} (h : breakFree s = true) (t : Str) :
    splitBreaks s = [s] ∧ splitBreaks (s ++ '\\' :: '\\' :: t) = s :: splitBreaks t := by
  induction s with
  | nil => exact ⟨rfl, by rw [List.nil_append, splitBreaks]⟩
  | cons c s ih =>
    simp only [breakFree, Bool.and_eq_true, Bool.or_eq_true, bne_iff_ne] at h
    obtain ⟨h1, h2⟩ := h
    obtain ⟨i1, i2⟩ := ih h2
    have hc : ∀ u, ¬ (c = '\\' ∧ (s ++ u).head? = some '\\') := by
      rintro u ⟨rfl, hh⟩
      rcases h1 with h1 | h1
      · exact h1 rfl
      · rcases s with _ | ⟨d, s⟩
        · simp at h1
        · simp only [List.cons_append, List.head?_cons, Option.some.injEq] at hh
          simp [hh] at h1
    constructor
    · have := hc []
      rw [List.append_nil] at this
      exact splitBreaks_cons this i1
    · exact splitBreaks_cons (hc _) i2

theorem breakFree_plain {s : Str} (h : '\\' ∉ s) : breakFree s = true := by
  induction s with
  | nil => rfl
  | cons c s ih =>
    simp only [List.mem_cons, not_or] at h
    simp only [breakFree, Bool.and_eq_true, Bool.or_eq_true, bne_iff_ne]
    exact ⟨Or.inl (Ne.symm h.1), ih h.2⟩

theorem breakFree_append {s t : Str} (hs : breakFree s = true) (ht : breakFree t = true) : breakFree (s ++ t) = true := by
  induction s with
  | nil => exact ht
  | cons c s ih =>
    simp only [breakFree, Bool.and_eq_true, Bool.or_eq_true, bne_iff_ne] at hs
    simp only [List.cons_append, breakFree, Bool.and_eq_true, Bool.or_eq_true, bne_iff_ne]
    refine ⟨?_, ih hs.2⟩
    rcases hs.1 with h | h
    · exact Or.inl h
    · rcases s with _ | ⟨d, s⟩
      · simp at h
      · exact Or.inr h

theorem splitChar_free {d : Char} {s : Str} (h : d ∉ s) (t : Str) :
    splitChar d s = [s] ∧ splitChar d (s ++ d :: t) = s :: splitChar d t := by
  induction s with
  | nil => exact ⟨rfl, by simp [splitChar]⟩
  | cons c s ih =>
    simp only [List.mem_cons, not_or] at h
    obtain ⟨i1, i2⟩ := ih h.2
    have hc : c ≠ d := Ne.symm h.1
    constructor
    · simp [splitChar, hc, i1]
    · simp [splitChar, hc, i2]

/-- A cell: no line break, no `&`, no blank at the ends. -/
def CellText (s : Str) : Prop := breakFree s = true ∧ '&' ∉ s ∧ s.head? ≠ some ' ' ∧ s.getLast? ≠ some ' '

theorem dropWhile_head {s : Str} (h : s.head? ≠ some ' ') : s.dropWhile (· == ' ') = s := by
  rcases s with _ | ⟨c, s⟩
  · rfl
  · rw [List.dropWhile_cons_of_neg]
    intro hc
    exact h (by rw [beq_iff_eq.1 hc]; rfl)

theorem trimBlanks_pad {s : Str} (h1 : s.head? ≠ some ' ') (h2 : s.getLast? ≠ some ' ') (i j : Nat) :
    trimBlanks (List.replicate i ' ' ++ s ++ List.replicate j ' ') = s := by
  have hd : ∀ (i : Nat) (u : Str), (List.replicate i ' ' ++ u).dropWhile (· == ' ') = u.dropWhile (· == ' ') := by
    intro i u
    induction i with
    | zero => rfl
    | succ i ih =>
      rw [List.replicate_succ, List.cons_append, List.dropWhile_cons_of_pos (by decide), ih]
  have hall : ∀ j : Nat, (List.replicate j ' ').dropWhile (· == ' ') = [] := by
    intro j
    have := hd j []
    rwa [List.append_nil] at this
  unfold trimBlanks
  rw [List.append_assoc, hd]
  rcases s with _ | ⟨c, s⟩
  · rw [List.nil_append, hall]
    rfl
  · have hc : ¬ ((c == ' ') = true) := fun hc => h1 (by rw [beq_iff_eq.1 hc]; rfl)
    rw [List.cons_append, List.dropWhile_cons_of_neg (p := fun x => x == ' ') hc, ← List.cons_append, List.reverse_append, List.reverse_replicate, hd,
      dropWhile_head, List.reverse_reverse]
    rw [List.head?_reverse]
    exact h2

theorem blank_free {d : Char} (hd : d ≠ ' ') (i : Nat) : d ∉ List.replicate i ' ' := by
  intro h
  exact hd (List.eq_of_mem_replicate h)

theorem row_cells {cs : List Str} (hne : cs ≠ []) (h : ∀ c ∈ cs, CellText c) (i j : Nat) :
    (splitChar '&' (List.replicate i ' ' ++ join (str! " & ") cs ++ List.replicate j ' ')).map trimBlanks = cs := by
  induction cs generalizing i with
  | nil => exact absurd rfl hne
  | cons c cs ih =>
    obtain ⟨_, hc2, hc3, hc4⟩ := h c (by simp)
    rcases cs with _ | ⟨c', cs⟩
    · have hno : '&' ∉ List.replicate i ' ' ++ c ++ List.replicate j ' ' := by
        simp only [List.mem_append, not_or]
        exact ⟨⟨blank_free (by decide) i, hc2⟩, blank_free (by decide) j⟩
      have hj : join (str! " & ") [c] = c := by simp [join]
      rw [hj, (splitChar_free hno []).1, List.map_singleton, trimBlanks_pad hc3 hc4]
    · have hj : List.replicate i ' ' ++ join (str! " & ") (c :: c' :: cs) ++ List.replicate j ' ' =
          (List.replicate i ' ' ++ c ++ List.replicate 1 ' ') ++ '&' ::
            (List.replicate 1 ' ' ++ join (str! " & ") (c' :: cs) ++ List.replicate j ' ') := by
        unfold join
        rw [List.intercalate_cons_cons]
        simp
      have hno : '&' ∉ List.replicate i ' ' ++ c ++ List.replicate 1 ' ' := by
        simp only [List.mem_append, not_or]
        exact ⟨⟨blank_free (by decide) i, hc2⟩, blank_free (by decide) 1⟩
      rw [hj, (splitChar_free hno _).2, List.map_cons, trimBlanks_pad hc3 hc4,
        ih (by simp) (fun x hx => h x (List.mem_cons_of_mem _ hx)) 1]

theorem breakFree_join {sep : Str} (hs : breakFree sep = true) {cs : List Str} (h : ∀ c ∈ cs, breakFree c = true) :
    breakFree (join sep cs) = true := by
  induction cs with
  | nil => rfl
  | cons c cs ih =>
    rcases cs with _ | ⟨d, cs⟩
    · simpa [join] using h c (by simp)
    · have := ih (fun p hp => h p (List.mem_cons_of_mem _ hp))
      unfold join at this ⊢
      rw [List.intercalate_cons_cons]
      exact breakFree_append (breakFree_append (h c (by simp)) hs) this

theorem vector_cells {cs : List Str} (hne : cs ≠ []) (h : ∀ c ∈ cs, CellText c) (i : Nat) :
    latexCells (List.replicate i ' ' ++ join (str! "\\\\ ") cs) = cs.map fun c => [c] := by
  have hb : ∀ i, breakFree (List.replicate i ' ') = true := fun i => breakFree_plain (blank_free (by decide) i)
  induction cs generalizing i with
  | nil => exact absurd rfl hne
  | cons c cs ih =>
    obtain ⟨hc1, hc2, hc3, hc4⟩ := h c (by simp)
    have hbf := breakFree_append (hb i) hc1
    have hno : '&' ∉ List.replicate i ' ' ++ c := by
      simp only [List.mem_append, not_or]
      exact ⟨blank_free (by decide) i, hc2⟩
    have htrim : trimBlanks (List.replicate i ' ' ++ c) = c := by
      have := trimBlanks_pad hc3 hc4 i 0
      simpa using this
    rcases cs with _ | ⟨c', cs⟩
    · have hj : join (str! "\\\\ ") [c] = c := by simp [join]
      unfold latexCells
      rw [hj, (splitBreaks_free hbf []).1, List.map_singleton, (splitChar_free hno []).1, List.map_singleton, htrim]
      rfl
    · have hj : List.replicate i ' ' ++ join (str! "\\\\ ") (c :: c' :: cs) =
          (List.replicate i ' ' ++ c) ++ '\\' :: '\\' :: (List.replicate 1 ' ' ++ join (str! "\\\\ ") (c' :: cs)) := by
        unfold join
        rw [List.intercalate_cons_cons]
        simp
      have := ih (by simp) (fun x hx => h x (List.mem_cons_of_mem _ hx)) 1
      unfold latexCells at this ⊢
      rw [hj, (splitBreaks_free hbf _).2, List.map_cons, this, (splitChar_free hno []).1, List.map_singleton, htrim]
      rfl

theorem matrix_cells {rows : List (List Str)} (hne : ∀ r ∈ rows, r ≠ []) (h : ∀ r ∈ rows, ∀ c ∈ r, CellText c) :
    latexCells (rows.flatMap fun r => join (str! " & ") r ++ str! " \\\\") = rows ++ [[[]]] := by
  induction rows with
  | nil => rfl
  | cons r rows ih =>
    have hr : breakFree (join (str! " & ") r ++ List.replicate 1 ' ') = true :=
      breakFree_append (breakFree_join (by decide) fun c hc => (h r (by simp) c hc).1) (by decide)
    have hj : ((r :: rows).flatMap fun r => join (str! " & ") r ++ str! " \\\\") =
        (join (str! " & ") r ++ List.replicate 1 ' ') ++ '\\' :: '\\' :: (rows.flatMap fun r => join (str! " & ") r ++ str! " \\\\") := by
      rw [List.flatMap_cons]
      simp
    have := ih (fun x hx => hne x (List.mem_cons_of_mem _ hx)) (fun x hx => h x (List.mem_cons_of_mem _ hx))
    have hc := row_cells (hne r (by simp)) (h r (by simp)) 0 1
    rw [List.replicate_zero, List.nil_append] at hc
    unfold latexCells at this ⊢
    rw [hj, (splitBreaks_free hr _).2, List.map_cons, this, hc]
    rfl

section
variable {F : Type} [FNum F] [TextLaws F]

theorem number_cell (cfg : Cfg) (x : F) : CellText (roundAndFormat cfg x true) := by
  have hc : ∀ c : Char, (c.isAlphanum = true ∨ c = '-' ∨ c = '.' ∨ c = '+') → c ≠ '\\' ∧ c ≠ '&' ∧ c ≠ ' ' := by
    intro c hc
    refine ⟨?_, ?_, ?_⟩ <;> rintro rfl <;> exact absurd hc (by decide)
  rcases roundAndFormat_latex_cases cfg x with ⟨l, r, h1, h2⟩ | h1
  · rw [h1]
    have hl : ∀ c ∈ l, c ≠ '\\' ∧ c ≠ '&' ∧ c ≠ ' ' := fun c h => hc c (h2 c (List.mem_append_left _ h))
    have hr : ∀ c ∈ r, c ≠ '\\' ∧ c ≠ '&' ∧ c ≠ ' ' := fun c h => hc c (h2 c (List.mem_append_right _ h))
    refine ⟨?_, ?_, ?_, ?_⟩
    · exact breakFree_append (breakFree_append (breakFree_append (breakFree_plain fun h => (hl _ h).1 rfl) (by decide))
        (breakFree_plain fun h => (hr _ h).1 rfl)) (by decide)
    · simp only [List.mem_append, not_or]
      exact ⟨⟨⟨fun h => (hl _ h).2.1 rfl, by decide⟩, fun h => (hr _ h).2.1 rfl⟩, by decide⟩
    · rcases l with _ | ⟨c, l⟩
      · simp
      · simp only [List.cons_append, List.head?_cons, ne_eq, Option.some.injEq]
        exact (hl c (by simp)).2.2
    · rw [List.getLast?_append]
      simp
  · have h2 : ∀ c ∈ roundAndFormat cfg x true, c ≠ '\\' ∧ c ≠ '&' ∧ c ≠ ' ' := by
      intro c h
      rcases h1 c h with h | h | h
      · exact hc c (Or.inl h)
      · exact hc c (Or.inr (Or.inl h))
      · exact hc c (Or.inr (Or.inr (Or.inl h)))
    refine ⟨breakFree_plain fun h => (h2 _ h).1 rfl, fun h => (h2 _ h).2.1 rfl, fun h => ?_, fun h => ?_⟩
    · exact (h2 _ (List.mem_of_mem_head? h)).2.2 rfl
    · exact (h2 _ (List.mem_of_mem_getLast? h)).2.2 rfl

/-- **C53** (vectors): the LaTeX text of a vector is a `pmatrix` with one line per element, in order, each holding
the text of the element as its only cell. -/
theorem C53_vector (cfg : Cfg) (v : List F) (hne : v ≠ []) :
    ∃ body, (Value.vector v).asLatex cfg = str! "\\begin{pmatrix}" ++ body ++ str! "\\end{pmatrix}" ∧
      latexCells body = v.map fun x => [(Value.scalar x).asLatex cfg] := by
  refine ⟨_, rfl, ?_⟩
  have := vector_cells (cs := v.map fun x => roundAndFormat cfg x true) (by simpa using hne) (by
    intro c hc
    obtain ⟨x, _, rfl⟩ := List.mem_map.1 hc
    exact number_cell cfg x) 0
  rw [List.replicate_zero, List.nil_append] at this
  rw [this, List.map_map]
  rfl

/-- **C53** (matrices): the LaTeX text of a matrix is a `bmatrix` with one line per row, each line ended by a line
break and holding the texts of the elements of the row as its cells, in order. -/
theorem C53_matrix (cfg : Cfg) (m : List (List F)) (hne : ∀ r ∈ m, r ≠ []) :
    ∃ body, (Value.matrix m).asLatex cfg = str! "\\begin{bmatrix}" ++ body ++ str! "\\end{bmatrix}" ∧
      latexCells body = (m.map fun r => r.map fun x => (Value.scalar x).asLatex cfg) ++ [[[]]] := by
  refine ⟨_, rfl, ?_⟩
  have h := matrix_cells (rows := m.map fun r => r.map fun x => roundAndFormat cfg x true) (by
    intro r hr
    obtain ⟨r', h', rfl⟩ := List.mem_map.1 hr
    simpa using hne r' h') (by
    intro r hr c hc
    obtain ⟨r', h', rfl⟩ := List.mem_map.1 hr
    obtain ⟨x, _, rfl⟩ := List.mem_map.1 hc
    exact number_cell cfg x)
  have h2 : (m.flatMap fun r => if r.isEmpty then [] else
      join (str! " & ") (r.map fun x => roundAndFormat cfg x true) ++ str! " \\\\") =
      (m.map fun r => r.map fun x => roundAndFormat cfg x true).flatMap fun r => join (str! " & ") r ++ str! " \\\\" := by
    rw [List.flatMap_map]
    refine List.flatMap_congr fun r hr => ?_
    have : r.isEmpty = false := by
      rcases r with _ | ⟨a, r⟩
      · exact absurd rfl (hne _ hr)
      · rfl
    rw [this]
    rfl
  rw [h2, h]
  rfl

end

example : (Value.matrix [[.fin 1, .fin (1/2)], [.fin (-3), .fin 0]] : Value Q).asLatex Cfg.default =
    str! "\\begin{bmatrix}1 & 0.5 \\\\-3 & 0 \\\\\\end{bmatrix}" := by decide +kernel
example : latexCells (str! "1 & 0.5 \\\\-3 & 0 \\\\") = [[str! "1", str! "0.5"], [str! "-3", str! "0"], [[]]] := by decide +kernel
example : (Value.vector [.fin 1, .fin (1/20000000)] : Value Q).asLatex Cfg.default =
    str! "\\begin{pmatrix}1\\\\ 5\\cdot 10^{-8}\\end{pmatrix}" := by decide +kernel

end MUL
