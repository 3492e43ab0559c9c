import Verif.Spec.Reread
import Verif.Props.ReadBack
/-!
# Lemmas for C59: the expression that is printed
-/

set_option linter.unusedSectionVars false
set_option linter.unusedSimpArgs false

namespace MUL
open Spec Out FArith

section
variable [UTable] {F : Type} [FNum F] [TextLaws F]

/-- Deleting blanks. -/
def unblank (s : Str) : Str := s.filter (· != ' ')

omit [UTable] [FNum F] [TextLaws F] in
@[simp] theorem unblank_append (a b : Str) : unblank (a ++ b) = unblank a ++ unblank b := by simp [unblank]
omit [UTable] [FNum F] [TextLaws F] in
@[simp] theorem unblank_nil : unblank [] = [] := rfl
omit [UTable] [FNum F] [TextLaws F] in
theorem unblank_cons (c : Char) (s : Str) : unblank (c :: s) = (if c = ' ' then [] else [c]) ++ unblank s := by
  by_cases h : c = ' ' <;> simp [unblank, h]

omit [UTable] [FNum F] [TextLaws F] in
theorem unblank_join {sep sep' : Str} (hs : unblank sep = unblank sep') {xs ys : List Str}
    (h : List.Forall₂ (fun x y => unblank x = unblank y) xs ys) : unblank (join sep xs) = unblank (sep'.intercalate ys) := by
  unfold join
  induction h with
  | nil => rfl
  | cons h1 h2 ih =>
    cases h2 with
    | nil => simpa using h1
    | cons h3 h4 =>
      rw [List.intercalate_cons_cons, List.intercalate_cons_cons]
      simp only [unblank_append, h1, hs, ih]

/-- `e'` is the expression printed for `e`. -/
structure RR (F : Type) [FNum F] (cfg : Cfg) (e e' : Ex) : Prop where
  wf : e'.WF
  tree : (e'.tree cfg : AST F) = reread cfg (e.tree cfg)
  text : unblank ((e.tree cfg : AST F).asString cfg) = unblank e'.text
  level : e'.level = e.level
  bracket : e'.isBracket = e.isBracket
  head : e'.text.head? = e.text.head? ∨ (∃ c, e.text.head? = some c ∧ (c.isDigit = true ∨ c = '.')) ∧
    ∃ c, e'.text.head? = some c ∧ c.isDigit = true
  last : e'.text.getLast? = e.text.getLast? ∨ ∃ c, e'.text.getLast? = some c ∧ (c.isDigit = true ∨ c = ')')
  jux : 7 < e.level → ∀ b, Juxtaposable e.text [b] → ((∃ x y, e = .bin .pow x y) → b = '(') → Juxtaposable e'.text [b]

omit [UTable] [FNum F] [TextLaws F] in
theorem juxt_head {l r : Str} : Juxtaposable l r ↔ ∃ b, r.head? = some b ∧ Juxtaposable l [b] := by
  constructor
  · rintro ⟨a, b, l', r', h1, rfl, h3, h4⟩
    exact ⟨b, rfl, a, b, l', [], h1, rfl, h3, h4⟩
  · rintro ⟨b, hb, a, b', l', r', h1, h2, h3, h4⟩
    cases r with
    | nil => simp at hb
    | cons x r =>
      simp at hb h2
      obtain ⟨rfl, -⟩ := h2
      subst hb
      exact ⟨a, x, l', r, h1, rfl, h3, h4⟩

omit [UTable] [FNum F] [TextLaws F] in
/-- Juxtaposition after a closing parenthesis. -/
theorem juxt_paren {s : Str} (hs : s.getLast? ≠ some '_') : Juxtaposable (s ++ [')']) ['('] :=
  ⟨')', '(', s, [], rfl, rfl, hs, Or.inr ⟨rfl, rfl⟩⟩

omit [UTable] [FNum F] [TextLaws F] in
theorem juxt_last {s : Str} {a b : Char} (h : Juxtaposable (s ++ [a]) [b]) :
    s.getLast? ≠ some '_' ∧ ((a.isDigit = true ∧ (b.isAlpha = true ∨ b = '\\' ∨ b = '(' ∨ b = '[')) ∨ (a = ')' ∧ b = '(')) := by
  obtain ⟨a', b', l', r', h1, h2, h3, h4⟩ := h
  simp only [List.cons.injEq] at h2
  obtain ⟨rfl, -⟩ := h2
  have := List.append_inj' h1 rfl
  obtain ⟨rfl, h⟩ := this
  simp only [List.cons.injEq, and_true] at h
  subst h
  exact ⟨h3, h4⟩

omit [UTable] [FNum F] [TextLaws F] in
theorem getLast_append_ne {s t : Str} (h : t ≠ []) : (s ++ t).getLast? = t.getLast? := by
  rw [List.getLast?_append]
  cases ht : t.getLast? with
  | none => simp [List.getLast?_eq_none_iff] at ht; exact absurd ht h
  | some c => rfl

omit [UTable] [FNum F] [TextLaws F] in
/-- Constructs that end in a closing parenthesis. -/
theorem jux_closed {s s' : Str} (hl : s'.getLast? = s.getLast? ∨ ∃ c, s'.getLast? = some c ∧ (c.isDigit = true ∨ c = ')'))
    (b : Char) (h : Juxtaposable (s ++ [')']) [b]) : Juxtaposable (s' ++ [')']) [b] := by
  obtain ⟨h1, h2⟩ := juxt_last h
  have hb : b = '(' := by
    rcases h2 with ⟨h, -⟩ | ⟨-, h⟩
    · exact absurd h (by decide)
    · exact h
  subst hb
  refine juxt_paren ?_
  intro h
  rcases hl with h3 | ⟨c, h3, h4⟩
  · exact h1 (h3 ▸ h)
  · rw [h] at h3
    cases h3
    revert h4; decide

theorem allDigits_last {ip fp : Str} (h : ip ≠ []) (h1 : AllDigits ip) (h2 : AllDigits fp) :
    ∃ s c, numeral ip fp = s ++ [c] ∧ c.isDigit = true ∧ s.getLast? ≠ some '_' := by
  unfold numeral
  split
  · rw [List.append_nil]
    refine ⟨ip.dropLast, ip.getLast h, (List.dropLast_append_getLast h).symm, h1 _ (List.getLast_mem h), ?_⟩
    intro h3
    have := h1 '_' (List.dropLast_subset _ (List.mem_of_getLast? h3))
    revert this; decide
  · rename_i hf
    refine ⟨ip ++ '.' :: fp.dropLast, fp.getLast hf, ?_, h2 _ (List.getLast_mem hf), ?_⟩
    · rw [List.append_assoc, List.cons_append, List.dropLast_append_getLast hf]
    · rw [getLast_append_ne (by simp)]
      intro h3
      have := List.mem_of_getLast? h3
      simp only [List.mem_cons] at this
      rcases this with h4 | h4
      · revert h4; decide
      · have := h2 _ (List.dropLast_subset _ h4)
        revert this; decide

/-- Text and tree of a printed number. -/
theorem roundAndFormat_readable (cfg : Cfg) {v : F} {m : Nat} {x : Int}
    (h2 : Value.roundScalar v ((cfg.prec : Int) - 2) = ofDec m x)
    (h3 : beq (ofDec m x : F) (ofInt 0) = true → beq v (ofInt 0) = true) :
    roundAndFormat cfg v false = FText.display (ofDec m x : F) := by
  unfold roundAndFormat
  simp only [h2]
  by_cases h0 : beq (ofDec m x : F) (ofInt 0) = true
  · simp only [h0, h3 h0, TextLaws.display_zero m x h0]
    rfl
  · simp [h0]

theorem rr_num (cfg : Cfg) (ip : Str) (fp : Option Str) (hw : (Ex.num ip fp).WF) (h : (Ex.num ip fp).Readable F cfg) :
    ∃ e', RR F cfg (.num ip fp) e' := by
  obtain ⟨m, x, h1, h2, h3⟩ := h
  obtain ⟨ip', fp', g1, g2, g3, g4, g5⟩ := TextLaws.display_decimal (F := F) m x h1
  obtain ⟨s, c, hs, hc, hs'⟩ := allDigits_last g1 g2 g3
  refine ⟨.num ip' (if fp' = [] then none else some fp'), ?_⟩
  refine ⟨numeral_wf g1 g2 g3, ?_, ?_, rfl, rfl, ?_, ?_, ?_⟩
  · rw [numeral_tree, g5]
    simp only [Ex.tree, reread, h2]
  · rw [numeral_text, ← g4, Ex.tree, AST.asString, roundAndFormat_readable cfg h2 h3]
  · right
    constructor
    · simp only [Ex.text]
      cases ip with
      | cons a ip => exact ⟨a, rfl, Or.inl (hw.1 a (by simp))⟩
      | nil =>
        cases fp with
        | none => exact absurd hw.2.2 (by simp)
        | some f => exact ⟨'.', rfl, Or.inr rfl⟩
    · rw [numeral_text]
      cases ip' with
      | nil => exact absurd rfl g1
      | cons a ip' => exact ⟨a, rfl, g2 a (by simp)⟩
  · right
    rw [numeral_text, hs]
    exact ⟨c, by simp, Or.inl hc⟩
  · intro _ b hb _
    rw [numeral_text, hs]
    obtain ⟨a, b', l', r', -, h5, -, h6⟩ := hb
    simp only [List.cons.injEq] at h5
    obtain ⟨rfl, -⟩ := h5
    refine ⟨c, b, s, [], rfl, rfl, hs', Or.inl ⟨hc, ?_⟩⟩
    rcases h6 with ⟨-, h⟩ | ⟨-, h⟩
    · exact h
    · exact Or.inr (Or.inr (Or.inl h))

theorem rr_list (cfg : Cfg) {es : List Ex} (ih : ∀ e ∈ es, e.WF → e.Readable F cfg → ∃ e', RR F cfg e e')
    (hw : WFAll es) (hr : ReadableAll F cfg es) : ∃ es', List.Forall₂ (RR F cfg) es es' := by
  induction es with
  | nil => exact ⟨[], .nil⟩
  | cons e es ihl =>
    obtain ⟨e', he⟩ := ih e (by simp) hw.1 hr.1
    obtain ⟨es', hes⟩ := ihl (fun a ha => ih a (by simp [ha])) hw.2 hr.2
    exact ⟨e' :: es', .cons he hes⟩

theorem rr_rows (cfg : Cfg) {rows : List (List Ex)}
    (ih : ∀ r ∈ rows, ∀ e ∈ r, e.WF → e.Readable F cfg → ∃ e', RR F cfg e e')
    (hw : WFRows rows) (hr : ReadableRows F cfg rows) : ∃ rows', List.Forall₂ (List.Forall₂ (RR F cfg)) rows rows' := by
  induction rows with
  | nil => exact ⟨[], .nil⟩
  | cons r rows ihl =>
    obtain ⟨r', hr'⟩ := rr_list cfg (ih r (by simp)) hw.1 hr.1
    obtain ⟨rows', h⟩ := ihl (fun a ha => ih a (by simp [ha])) hw.2 hr.2
    exact ⟨r' :: rows', .cons hr' h⟩

theorem rr_trees {cfg : Cfg} {es es' : List Ex} (h : List.Forall₂ (RR F cfg) es es') :
    (treeAll cfg es' : List (AST F)) = rereadAll cfg (treeAll cfg es) := by
  induction h with
  | nil => rfl
  | cons h1 _ ih => simp only [treeAll, rereadAll, h1.tree, ih]

theorem rr_treeRows {cfg : Cfg} {rows rows' : List (List Ex)} (h : List.Forall₂ (List.Forall₂ (RR F cfg)) rows rows') :
    (treeRows cfg rows' : List (List (AST F))) = rereadRows cfg (treeRows cfg rows) := by
  induction h with
  | nil => rfl
  | cons h1 _ ih => simp only [treeRows, rereadRows, rr_trees h1, ih]

theorem rr_texts {cfg : Cfg} {es es' : List Ex} (h : List.Forall₂ (RR F cfg) es es') :
    List.Forall₂ (fun x y => unblank x = unblank y) (AST.asStringAll cfg (treeAll cfg es : List (AST F))) (textAll es') := by
  induction h with
  | nil => exact .nil
  | cons h1 _ ih => exact .cons h1.text ih

theorem rr_textRows {cfg : Cfg} {rows rows' : List (List Ex)} (h : List.Forall₂ (List.Forall₂ (RR F cfg)) rows rows') :
    List.Forall₂ (fun x y => unblank x = unblank y) (AST.asStringRows cfg (treeRows cfg rows : List (List (AST F))))
      (textRows rows') := by
  induction h with
  | nil => exact .nil
  | cons h1 _ ih =>
    refine .cons ?_ ih
    have := unblank_join (sep := str! ", ") (sep' := [',']) rfl (rr_texts h1)
    simp only [unblank_append, commas, this]

theorem rr_wfAll {cfg : Cfg} {es es' : List Ex} (h : List.Forall₂ (RR F cfg) es es') : WFAll es' := by
  induction h with
  | nil => trivial
  | cons h1 _ ih => exact ⟨h1.wf, ih⟩

theorem rr_wfRows {cfg : Cfg} {es es' : List (List Ex)} (h : List.Forall₂ (List.Forall₂ (RR F cfg)) es es') : WFRows es' := by
  induction h with
  | nil => trivial
  | cons h1 _ ih => exact ⟨rr_wfAll h1, ih⟩

theorem rr_bracket {cfg : Cfg} {es es' : List Ex} (h : List.Forall₂ (RR F cfg) es es') (hb : ∀ e ∈ es, e.isBracket = false) :
    ∀ e ∈ es', e.isBracket = false := by
  induction h with
  | nil => simp
  | cons h1 _ ih =>
    intro e he
    rcases List.mem_cons.1 he with rfl | he
    · rw [h1.bracket]; exact hb _ (by simp)
    · exact ih (fun e he => hb e (by simp [he])) e he

/-- The last character of a comma-separated list. -/
theorem rr_commas_last {cfg : Cfg} {es es' : List Ex} (h : List.Forall₂ (RR F cfg) es es') (hw : WFAll es) :
    (commas (textAll es')).getLast? = (commas (textAll es)).getLast? ∨
      ∃ c, (commas (textAll es')).getLast? = some c ∧ (c.isDigit = true ∨ c = ')') := by
  induction h with
  | nil => exact Or.inl rfl
  | cons h1 h2 ih =>
    cases h2 with
    | nil => simpa [textAll, commas] using h1.last
    | cons h3 h4 =>
      simp only [textAll, commas, List.intercalate_cons_cons] at ih ⊢
      have n1 : ∀ (e : Ex) (es : List Ex), e.WF → [','].intercalate (e.text :: textAll es) ≠ [] := by
        intro e es he h
        have hne := (good_text e he).ne
        cases es with
        | nil => simp [textAll] at h; exact hne h
        | cons a es => simp [textAll, List.intercalate_cons_cons] at h; 
      rw [getLast_append_ne (n1 _ _ h3.wf), getLast_append_ne (n1 _ _ hw.2.1)]
      exact ih hw.2

omit [UTable] [FNum F] [TextLaws F] in
theorem forall₂_column {α β : Type} {R : α → β → Prop} {n i : Nat} (hi : i < n) {m : List (List α)} {m' : List (List β)}
    (h : List.Forall₂ (List.Forall₂ R) m m') (hlen : ∀ r ∈ m, r.length = n) :
    List.Forall₂ R (m.filterMap fun r => r[i]?) (m'.filterMap fun r => r[i]?) := by
  induction h with
  | nil => exact .nil
  | @cons r r' m m' h1 _ ih =>
    have hl : i < r.length := by rw [hlen r (by simp)]; exact hi
    have hl' : i < r'.length := by rw [← h1.length_eq]; exact hl
    rw [List.filterMap_cons_some (f := fun (r : List α) => r[i]?) (List.getElem?_eq_getElem hl),
      List.filterMap_cons_some (f := fun (r : List β) => r[i]?) (List.getElem?_eq_getElem hl')]
    exact .cons (h1.get hl hl') (ih fun r hr => hlen r (by simp [hr]))

omit [UTable] [FNum F] [TextLaws F] in
theorem forall₂_transpose {α β : Type} {R : α → β → Prop} {n : Nat} {m : List (List α)} {m' : List (List β)}
    (h : List.Forall₂ (List.Forall₂ R) m m') (hlen : ∀ r ∈ m, r.length = n) :
    List.Forall₂ (List.Forall₂ R) (transpose n m) (transpose n m') := by
  unfold transpose
  rw [List.forall₂_map_left_iff, List.forall₂_map_right_iff]
  exact List.forall₂_same.2 fun i hi => forall₂_column (List.mem_range.1 hi) h hlen

omit [UTable] [FNum F] [TextLaws F] in
theorem forall₂_lengths {α β : Type} {R : α → β → Prop} {n : Nat} {m : List (List α)} {m' : List (List β)}
    (h : List.Forall₂ (List.Forall₂ R) m m') (hlen : ∀ r ∈ m, r.length = n) : ∀ r ∈ m', r.length = n := by
  induction h with
  | nil => simp
  | cons h1 _ ih =>
    intro r hr
    rcases List.mem_cons.1 hr with rfl | hr
    · rw [← h1.length_eq]; exact hlen _ (by simp)
    · exact ih (fun r hr => hlen r (by simp [hr])) r hr

theorem rr_rows_bracket {cfg : Cfg} {es es' : List (List Ex)} (h : List.Forall₂ (List.Forall₂ (RR F cfg)) es es')
    (hb : ∀ r ∈ es, ∀ e ∈ r, e.isBracket = false) : ∀ r ∈ es', ∀ e ∈ r, e.isBracket = false := by
  induction h with
  | nil => simp
  | cons h1 _ ih =>
    intro r hr
    rcases List.mem_cons.1 hr with rfl | hr
    · exact rr_bracket h1 (hb _ (by simp))
    · exact ih (fun r hr => hb r (by simp [hr])) r hr

/-- A bracketed construct as a whole: head, last character and juxtaposition. -/
theorem bracket_head {s s' : Str} {a z : Char} :
    ([a] ++ s' ++ [z]).head? = ([a] ++ s ++ [z]).head? ∧ ([a] ++ s' ++ [z]).getLast? = ([a] ++ s ++ [z]).getLast? := by
  constructor
  · rfl
  · rw [getLast_append_ne (by simp), getLast_append_ne (by simp)]

theorem jux_not {s : Str} {z b : Char} (h1 : z.isDigit = false) (h2 : z ≠ ')') : ¬ Juxtaposable (s ++ [z]) [b] := by
  intro h
  rcases (juxt_last h).2 with ⟨h3, -⟩ | ⟨h3, -⟩
  · rw [h1] at h3; cases h3
  · exact h2 h3

/-- Constructs `name(...)`. -/
theorem rr_call_shape {n s s' : Str} (hn : n ≠ [])
    (hl : s'.getLast? = s.getLast? ∨ ∃ c, s'.getLast? = some c ∧ (c.isDigit = true ∨ c = ')')) :
    (n ++ ['('] ++ s' ++ [')']).head? = (n ++ ['('] ++ s ++ [')']).head? ∧
    (n ++ ['('] ++ s' ++ [')']).getLast? = (n ++ ['('] ++ s ++ [')']).getLast? ∧
    ∀ b, Juxtaposable (n ++ ['('] ++ s ++ [')']) [b] → Juxtaposable (n ++ ['('] ++ s' ++ [')']) [b] := by
  refine ⟨?_, ?_, ?_⟩
  · cases n with
    | nil => exact absurd rfl hn
    | cons a n => rfl
  · rw [getLast_append_ne (by simp), getLast_append_ne (by simp)]
  · intro b
    refine jux_closed ?_ b
    rcases hl with h | ⟨c, h, h'⟩
    · left
      simp only [List.getLast?_append, h]
    · right
      refine ⟨c, ?_, h'⟩
      rw [List.getLast?_append, h]
      rfl

/-- The expression printed for a readable expression. -/
theorem rr_exists (cfg : Cfg) (e : Ex) : e.WF → e.Readable F cfg → ∃ e', RR F cfg e e' := by
  induction e using Ex.ind with
  | num ip fp => exact rr_num cfg ip fp
  | var n =>
    intro hw _
    exact ⟨.var n, hw, rfl, rfl, rfl, rfl, Or.inl rfl, Or.inl rfl, fun _ _ h _ => h⟩
  | paren e ih =>
    intro hw hr
    obtain ⟨e', h⟩ := ih hw hr
    refine ⟨.paren e', h.wf, ?_, ?_, rfl, rfl, Or.inl rfl, Or.inl ?_, ?_⟩
    · simp only [Ex.tree, reread, h.tree]
      rfl
    · simp only [Ex.tree, Ex.text, AST.asString, unblank_append, h.text]
    · exact bracket_head.2
    · intro _ b hb _
      simp only [Ex.text] at hb ⊢
      refine jux_closed (s := ['('] ++ e.text) ?_ b hb
      have n1 := (good_text e hw).ne
      have n2 := (good_text e' h.wf).ne
      rw [getLast_append_ne n1, getLast_append_ne n2]
      exact h.last
  | fn n op e ih =>
    rintro ⟨hw, hw'⟩ ⟨hr, hr'⟩
    obtain ⟨e', h⟩ := ih hw' hr'
    have hn : n ≠ [] := (builtin_shape hw).1.1.elim (by rintro c ⟨r, rfl, -⟩; simp)
    obtain ⟨a1, a2, a3⟩ := rr_call_shape hn h.last
    refine ⟨.fn n op e', ⟨hw, h.wf⟩, ?_, ?_, rfl, rfl, Or.inl a1, Or.inl a2, fun _ b hb _ => a3 b hb⟩
    · have h1 : op ≠ .neg ∧ op ∈ oneOperand := by
        have : ∀ p ∈ builtins, p.2 ≠ .neg ∧ p.2 ∈ oneOperand := by decide
        exact this _ hw
      simp only [Ex.tree, reread, h.tree, if_neg h1.1, if_pos h1.2]
    · have h1 : ∀ p ∈ builtins, p.2 ≠ .abs → ∀ l r : AST F, (AST.simple p.2 l r).asString cfg = p.1 ++ ['('] ++ l.asString cfg ++ [')'] := by
        simp only [builtins, List.forall_mem_cons]
        refine ⟨?_, ?_, ?_, ?_, ?_, ?_, ?_, ?_, ?_, ?_, ?_, nofun⟩ <;> intro h l r <;>
          first | exact absurd rfl h | (simp only [AST.asString]; rfl)
      rw [Ex.tree, h1 _ hw hr, Ex.text]
      simp only [unblank_append, h.text]
  | root a b iha ihb =>
    rintro ⟨hw, hw'⟩ ⟨hr, hr'⟩
    obtain ⟨a', ha⟩ := iha hw hr
    obtain ⟨b', hb⟩ := ihb hw' hr'
    obtain ⟨a1, a2, a3⟩ := rr_call_shape (n := "root".toList) (by decide)
      (rr_commas_last (es := [a, b]) (.cons ha (.cons hb .nil)) ⟨hw, hw', trivial⟩)
    refine ⟨.root a' b', ⟨ha.wf, hb.wf⟩, ?_, ?_, rfl, rfl, Or.inl a1, Or.inl a2, fun _ b hb _ => a3 b hb⟩
    · simp only [Ex.tree, reread, ha.tree, hb.tree]
      rfl
    · simp only [Ex.tree, Ex.text, AST.asString, unblank_append, ha.text, hb.text, commas, List.intercalate_cons_cons,
        List.intercalate_singleton]
      simp [unblank_cons]
  | call n args ih =>
    rintro ⟨hn, hres, hne, hw⟩ hr
    obtain ⟨args', h⟩ := rr_list cfg ih hw hr
    obtain ⟨a1, a2, a3⟩ := rr_call_shape (n := n) (hn.1.1.elim (by rintro c ⟨r, rfl, -⟩; simp)) (rr_commas_last h hw)
    refine ⟨.call n args', ⟨hn, hres, ?_, rr_wfAll h⟩, ?_, ?_, rfl, rfl, Or.inl a1, Or.inl a2, fun _ b hb _ => a3 b hb⟩
    · rintro rfl; cases h; exact hne rfl
    · simp only [Ex.tree, reread, rr_trees h]
    · have := unblank_join (sep := str! ", ") (sep' := [',']) rfl (rr_texts h)
      simp only [Ex.tree, Ex.text, AST.asString, unblank_append, this, commas]
  | vec es ih =>
    rintro ⟨hne, hw, hb⟩ hr
    obtain ⟨es', h⟩ := rr_list cfg ih hw hr
    refine ⟨.vec es', ⟨?_, rr_wfAll h, rr_bracket h hb⟩, ?_, ?_, rfl, rfl, Or.inl rfl, Or.inl ?_, ?_⟩
    · rintro rfl; cases h; exact hne rfl
    · simp only [Ex.tree, reread, rr_trees h]
    · have := unblank_join (sep := str! ", ") (sep' := [',']) rfl (rr_texts h)
      simp only [Ex.tree, Ex.text, AST.asString, unblank_append, this, commas]
    · exact bracket_head.2
    · intro _ b hb'
      exact absurd hb' (jux_not (by decide) (by decide))
  | mat rows ih =>
    rintro ⟨hne, hw, n, hn, hb⟩ hr
    obtain ⟨rows', h⟩ := rr_rows cfg ih hw hr
    have hlen : ∀ r ∈ rows, r.length = n := fun r hr => (hb r hr).1
    have hlen' := forall₂_lengths h hlen
    have hne' : rows' ≠ [] := by rintro rfl; cases h; exact hne rfl
    have htr : ∀ (m : List (List Ex)), (treeRows cfg m : List (List (AST F))) = m.map fun r => r.map (Ex.tree cfg) := by
      intro m
      rw [treeRows_eq]
      exact List.map_congr_left fun r _ => treeAll_eq r
    have hbr := rr_rows_bracket h fun r hr => (hb r hr).2
    by_cases hc : cfg.rowMajor = true
    · refine ⟨.mat rows', ⟨hne', rr_wfRows h, n, hn, fun r hr => ⟨hlen' r hr, hbr r hr⟩⟩, ?_, ?_, rfl, rfl, Or.inl rfl,
        Or.inl bracket_head.2, ?_⟩
      · simp only [Ex.tree, reread, rr_treeRows h, hc, if_true]
      · have := unblank_join (sep := str! ", ") (sep' := [',']) rfl (rr_textRows h)
        simp only [Ex.tree, Ex.text, AST.asString, unblank_append, this, commas, hc, if_true]
      · intro _ b hb'
        exact absurd hb' (jux_not (by decide) (by decide))
    · have ht := forall₂_transpose h hlen
      have e1 : ((treeRows cfg rows : List (List (AST F))).headD []).length = n := by
        rw [htr]
        cases rows with
        | nil => exact absurd rfl hne
        | cons r rows => simpa using hlen r (by simp)
      have e2 : transpose n (treeRows cfg rows : List (List (AST F))) = treeRows cfg (transpose n rows) := by
        rw [htr, htr, transpose_map]
      refine ⟨.mat (transpose n rows'), ⟨?_, rr_wfRows ht, rows.length, List.length_pos_iff.2 hne, ?_⟩, ?_, ?_, rfl, rfl,
        Or.inl rfl, Or.inl bracket_head.2, ?_⟩
      · intro h0
        have := congrArg List.length h0
        simp [transpose] at this
        omega
      · intro r hr
        obtain ⟨i, hi, rfl⟩ := List.mem_map.1 hr
        refine ⟨?_, fun e he => ?_⟩
        · rw [(filterMap_col (List.mem_range.1 hi) rows' hlen').1, h.length_eq]
        · obtain ⟨r', hr', he'⟩ := mem_transpose hr e he
          exact hbr r' hr' e he'
      · simp only [Ex.tree, reread, hc, Bool.false_eq_true, if_false, e1, e2, rr_treeRows ht]
      · have := unblank_join (sep := str! ", ") (sep' := [',']) rfl (rr_textRows ht)
        simp only [Ex.tree, Ex.text, AST.asString, unblank_append, hc, Bool.false_eq_true, if_false, e1, e2, this, commas]
      · intro _ b hb'
        exact absurd hb' (jux_not (by decide) (by decide))
  | list es ih =>
    rintro ⟨hne, hw⟩ hr
    obtain ⟨es', h⟩ := rr_list cfg ih hw hr
    refine ⟨.list es', ⟨?_, rr_wfAll h⟩, ?_, ?_, rfl, rfl, Or.inl rfl, Or.inl bracket_head.2, ?_⟩
    · rintro rfl; cases h; exact hne rfl
    · simp only [Ex.tree, reread, rr_trees h]
    · have := unblank_join (sep := str! ", ") (sep' := [',']) rfl (rr_texts h)
      simp only [Ex.tree, Ex.text, AST.asString, unblank_append, this, commas]
    · intro _ b hb'
      exact absurd hb' (jux_not (by decide) (by decide))
  | neg e ih =>
    rintro ⟨hw, hl⟩ hr
    obtain ⟨e', h⟩ := ih hw hr
    refine ⟨.neg e', ⟨h.wf, by rw [h.level]; exact hl⟩, ?_, ?_, rfl, rfl, Or.inl rfl, ?_, ?_⟩
    · simp only [Ex.tree, reread, h.tree]
      rfl
    · simp only [Ex.tree, Ex.text, AST.asString, unblank_append, h.text]
    · simp only [Ex.text]
      rw [getLast_append_ne (good_text e hw).ne, getLast_append_ne (good_text e' h.wf).ne]
      exact h.last
    · intro h7
      exact absurd h7 (by simp [Ex.level])
  | bin op l r ihl ihr =>
    rintro ⟨hwl, hwr, hlev, hneg, hjux⟩ ⟨hrl, hrr, hop, hpow⟩
    obtain ⟨l', hl⟩ := ihl hwl hrl
    obtain ⟨r', hr⟩ := ihr hwr hrr
    have nl := (good_text l hwl).ne
    have nl' := (good_text l' hl.wf).ne
    have nr := (good_text r hwr).ne
    have nr' := (good_text r' hr.wf).ne
    have hh : ∀ s s' : Str, (l'.text ++ s').head? = (l.text ++ s).head? ∨
        (∃ c, (l.text ++ s).head? = some c ∧ (c.isDigit = true ∨ c = '.')) ∧
          ∃ c, (l'.text ++ s').head? = some c ∧ c.isDigit = true := by
      intro s s'
      obtain ⟨x, xs, hx⟩ := List.exists_cons_of_ne_nil nl
      obtain ⟨y, ys, hy⟩ := List.exists_cons_of_ne_nil nl'
      have := hl.head
      rw [hx, hy] at this ⊢
      simpa using this
    by_cases hp : op = .pow
    · subst hp
      refine ⟨.bin .pow l' (.paren r'), ⟨hl.wf, hr.wf, ?_, ?_, ?_⟩, ?_, ?_, rfl, rfl, ?_, ?_, ?_⟩
      · rw [hl.level]
        exact ⟨hlev.1, show 8 ≤ 10 by decide⟩
      · intro _; simp [Ex.text]
      · intro h; cases h
      · simp only [Ex.tree, reread, hl.tree, hr.tree, BinOp.op]
        rfl
      · simp only [Ex.tree, Ex.text, AST.asString, BinOp.op, unblank_append, hl.text, hr.text, BinOp.text]
        simp [unblank_cons]
      · simp only [Ex.text, List.append_assoc]
        exact hh _ _
      · right
        refine ⟨')', ?_, Or.inr rfl⟩
        simp only [Ex.text]
        rw [← List.append_assoc, getLast_append_ne (by simp)]
        rfl
      · intro _ b hb hb'
        have := hb' ⟨_, _, rfl⟩
        subst this
        simp only [Ex.text] at hb ⊢
        have : l'.text ++ BinOp.pow.text ++ (['('] ++ r'.text ++ [')']) = (l'.text ++ BinOp.pow.text ++ ['('] ++ r'.text) ++ [')'] := by
          simp
        rw [this]
        refine juxt_paren ?_
        rw [getLast_append_ne nr']
        intro h
        rcases hr.last with h1 | ⟨c, h1, h2⟩
        · rw [h] at h1
          obtain ⟨a, b', l'', r'', h3, -, -, h4⟩ := hb
          have h5 := congrArg List.getLast? h3
          rw [getLast_append_ne nr, ← h1] at h5
          simp at h5
          subst h5
          revert h4
          rintro (⟨h4, -⟩ | ⟨h4, -⟩)
          · revert h4; decide
          · revert h4; decide
        · rw [h] at h1
          cases h1
          revert h2; decide
    · have hcases : op = .add ∨ op = .sub ∨ op = .mult ∨ op = .div ∨ op = .juxt := by
        cases op <;> simp_all
      have hhead : r.text.head? ≠ some '-' → r'.text.head? ≠ some '-' := by
        intro h h'
        rcases hr.head with h1 | ⟨-, c, h1, h2⟩
        · exact h (h1 ▸ h')
        · rw [h'] at h1
          cases h1
          revert h2; decide
      refine ⟨.bin op l' r', ⟨hl.wf, hr.wf, ?_, fun h => hhead (hneg h), ?_⟩, ?_, ?_, rfl, rfl, ?_, ?_, ?_⟩
      · rw [hl.level, hr.level]
        exact hlev
      · intro hj
        have h7 : 7 < l.level := by
          subst hj
          exact hlev.1
        obtain ⟨b, hb, hb'⟩ := juxt_head.1 (hjux hj)
        refine juxt_head.2 ⟨b, ?_, ?_⟩
        · rcases hr.head with h1 | ⟨⟨c, h1, h2⟩, -⟩
          · rw [h1, hb]
          · rw [hb] at h1
            cases h1
            obtain ⟨a, b', l'', r'', -, h3, -, h4⟩ := hb'
            simp only [List.cons.injEq] at h3
            obtain ⟨rfl, -⟩ := h3
            exfalso
            have hd : ∀ c : Char, c.isDigit = true → c.isAlpha = false ∧ c ≠ '\\' ∧ c ≠ '(' ∧ c ≠ '[' := by
              intro c hc
              refine ⟨?_, ?_, ?_, ?_⟩
              · simp only [Char.isDigit, Char.isAlpha, Char.isUpper, Char.isLower, Bool.and_eq_true, decide_eq_true_eq,
                  Bool.or_eq_false_iff, Bool.and_eq_false_iff, decide_eq_false_iff_not, UInt32.not_le] at hc ⊢
                have h9 := hc.2
                constructor
                · intro h10; exact absurd (UInt32.lt_of_le_of_lt h9 (by decide)) (UInt32.not_lt.2 h10.1)
                · left; exact UInt32.lt_of_le_of_lt h9 (by decide)
              all_goals rintro rfl; revert hc; decide
            rcases h2 with h2 | h2
            · obtain ⟨q1, q2, q3, q4⟩ := hd b h2
              rcases h4 with ⟨-, h | h | h | h⟩ | ⟨-, h⟩
              · rw [q1] at h; cases h
              · exact q2 h
              · exact q3 h
              · exact q4 h
              · exact q3 h
            · subst h2
              revert h4
              rintro (⟨-, h⟩ | ⟨-, h⟩) <;> revert h <;> decide
        · refine hl.jux h7 b hb' fun hx => ?_
          have := hpow hj hx
          rw [hb] at this
          cases this
          rfl
      · simp only [Ex.tree]
        rw [hl.tree, hr.tree]
        rcases hcases with rfl | rfl | rfl | rfl | rfl <;> simp only [BinOp.op, reread] <;> rfl
      · have ht := hl.text
        have ht' := hr.text
        rcases hcases with rfl | rfl | rfl | rfl | rfl <;>
          simp only [Ex.tree, BinOp.op, AST.asString, Ex.text, unblank_append, ht, ht', BinOp.text, unblank_nil, List.append_nil] <;>
          simp [unblank_cons]
      · simp only [Ex.text, List.append_assoc]
        exact hh _ _
      · simp only [Ex.text]
        rw [getLast_append_ne nr, getLast_append_ne nr']
        exact hr.last
      · intro h7
        exfalso
        rcases hcases with rfl | rfl | rfl | rfl | rfl <;> revert h7 <;> simp [Ex.level, BinOp.level]
  | integ e x lo hi ihe ihl ihu =>
    rintro ⟨hw, hx, hw1, hw2⟩ ⟨hr, hr1, hr2⟩
    obtain ⟨e', he⟩ := ihe hw hr
    obtain ⟨lo', hlo⟩ := ihl hw1 hr1
    obtain ⟨hi', hhi⟩ := ihu hw2 hr2
    have hlast : (commas [e'.text, x, lo'.text, hi'.text]).getLast? = (commas [e.text, x, lo.text, hi.text]).getLast? ∨
        ∃ c, (commas [e'.text, x, lo'.text, hi'.text]).getLast? = some c ∧ (c.isDigit = true ∨ c = ')') := by
      have n1 := (good_text hi hw2).ne
      have n2 := (good_text hi' hhi.wf).ne
      simp only [commas, List.intercalate_cons_cons, List.intercalate_singleton, ← List.append_assoc]
      rw [getLast_append_ne n1, getLast_append_ne n2]
      exact hhi.last
    obtain ⟨a1, a2, a3⟩ := rr_call_shape (n := "I".toList) (by decide) hlast
    refine ⟨.integ e' x lo' hi', ⟨he.wf, hx, hlo.wf, hhi.wf⟩, ?_, ?_, rfl, rfl, Or.inl a1, Or.inl a2, fun _ b hb _ => a3 b hb⟩
    · simp only [Ex.tree, reread, he.tree, hlo.tree, hhi.tree]
    · simp only [Ex.tree, Ex.text, AST.asString, unblank_append, he.text, hlo.text, hhi.text, commas, List.intercalate_cons_cons,
        List.intercalate_singleton]
      simp [unblank_cons]
  | deriv e x a ihe iha =>
    rintro ⟨hw, hx, hw1⟩ ⟨hr, hr1⟩
    obtain ⟨e', he⟩ := ihe hw hr
    obtain ⟨a', ha⟩ := iha hw1 hr1
    have hlast : (commas [e'.text, x, a'.text]).getLast? = (commas [e.text, x, a.text]).getLast? ∨
        ∃ c, (commas [e'.text, x, a'.text]).getLast? = some c ∧ (c.isDigit = true ∨ c = ')') := by
      have n1 := (good_text a hw1).ne
      have n2 := (good_text a' ha.wf).ne
      simp only [commas, List.intercalate_cons_cons, List.intercalate_singleton, ← List.append_assoc]
      rw [getLast_append_ne n1, getLast_append_ne n2]
      exact ha.last
    obtain ⟨a1, a2, a3⟩ := rr_call_shape (n := "D".toList) (by decide) hlast
    refine ⟨.deriv e' x a', ⟨he.wf, hx, ha.wf⟩, ?_, ?_, rfl, rfl, Or.inl a1, Or.inl a2, fun _ b hb _ => a3 b hb⟩
    · simp only [Ex.tree, reread, he.tree, ha.tree]
    · simp only [Ex.tree, Ex.text, AST.asString, unblank_append, he.text, ha.text, commas, List.intercalate_cons_cons,
        List.intercalate_singleton]
      simp [unblank_cons]
  | eqs ls rs vars _ _ => intro _ h; exact h.elim

end
end MUL
