import Verif.Proofs.GrammarParse
import Mathlib.Data.Nat.Digits.Defs
/-!
# C09, C10, C12, C13, C14, C15, C17: what texts mean
-/

set_option linter.unusedSimpArgs false

namespace MUL
open Spec

variable [UTable] {F : Type} [FArith F]

/-! ## C09 -/

/-- **C09.** Writing out any expression of the grammar (numerals, names, parentheses, calls, vectors,
matrices, lists, integrals, derivatives, equations, all operators) with the library's precedence and
associativity and parsing the text gives exactly its tree. Expressions are unbounded in size and depth. -/
theorem C09_parse_text (cfg : Cfg) (e : Ex) (h : e.WF) :
    parse cfg e.text = .ok (e.tree cfg : AST F) := by
  unfold parse
  rw [stripBlanks_good (good_text e h).noWs]
  exact parse_text cfg e h

/-- **C09** with blanks: the same for every text that differs from it only by spaces. -/
theorem C09_parse_text_blanks (cfg : Cfg) (e : Ex) (h : e.WF) (s : Str)
    (hs : s.filter (· != ' ') = e.text.filter (· != ' ')) :
    parse cfg s = .ok (e.tree cfg : AST F) := by
  rw [C07_blanks cfg s e.text hs]
  exact C09_parse_text cfg e h

/-- **C09** (no ambiguity): expressions with the same text have the same tree. -/
theorem C09_unambiguous (cfg : Cfg) (e₁ e₂ : Ex) (h₁ : e₁.WF) (h₂ : e₂.WF) (h : e₁.text = e₂.text) :
    (e₁.tree cfg : AST F) = e₂.tree cfg := by
  have a := C09_parse_text (F := F) cfg e₁ h₁
  rw [h, C09_parse_text cfg e₂ h₂] at a
  exact (Out.ok.inj a).symm

section Examples

omit [FArith F]

theorem wf_name {n : String} (h : n.toList ≠ [] ∧ ∀ c ∈ n.toList, c.isAlpha = true) : (Ex.var n.toList).WF :=
  nameShape_letters h.1 h.2

theorem wf_num {s : String} (h : s.toList ≠ [] ∧ ∀ c ∈ s.toList, c.isDigit = true) : (Ex.num s.toList none).WF :=
  ⟨h.2, (by intro f hf; cases hf), Or.inl h.1⟩

/-- `2x^2-3*(y+-1)/4-sin(z)` -/
def exampleEx : Ex :=
  .bin .sub
    (.bin .sub (.bin .juxt (.num "2".toList none) (.bin .pow (.var "x".toList) (.num "2".toList none)))
      (.bin .mult (.num "3".toList none)
        (.bin .div (.paren (.bin .add (.var "y".toList) (.neg (.num "1".toList none)))) (.num "4".toList none))))
    (.fn "sin".toList .sin (.var "z".toList))

example : exampleEx.text = "2x^2-3*(y+-1)/4-sin(z)".toList := by decide

theorem exampleEx_wf : exampleEx.WF := by
  have hx : (Ex.var "x".toList).WF := wf_name (by decide)
  have hy : (Ex.var "y".toList).WF := wf_name (by decide)
  have hz : (Ex.var "z".toList).WF := wf_name (by decide)
  have n1 : (Ex.num "1".toList none).WF := wf_num (by decide)
  have n2 : (Ex.num "2".toList none).WF := wf_num (by decide)
  have n3 : (Ex.num "3".toList none).WF := wf_num (by decide)
  have n4 : (Ex.num "4".toList none).WF := wf_num (by decide)
  have hp : (Ex.bin .pow (.var "x".toList) (.num "2".toList none)).WF :=
    ⟨hx, n2, by decide, by decide, nofun⟩
  have h1 : (Ex.bin .juxt (.num "2".toList none) (.bin .pow (.var "x".toList) (.num "2".toList none))).WF :=
    ⟨n2, hp, by decide, by decide, fun _ => ⟨'2', 'x', [], ['^', '2'], rfl, rfl, by decide, by decide⟩⟩
  have hq : (Ex.paren (.bin .add (.var "y".toList) (.neg (.num "1".toList none)))).WF :=
    ⟨hy, ⟨n1, by decide⟩, by decide, by decide, nofun⟩
  have h2 : (Ex.bin .div (.paren (.bin .add (.var "y".toList) (.neg (.num "1".toList none)))) (.num "4".toList none)).WF :=
    ⟨hq, n4, by decide, by decide, nofun⟩
  have h3 : (Ex.bin .mult (.num "3".toList none)
        (.bin .div (.paren (.bin .add (.var "y".toList) (.neg (.num "1".toList none)))) (.num "4".toList none))).WF :=
    ⟨n3, h2, by decide, by decide, nofun⟩
  exact ⟨⟨h1, h3, by decide, by decide, nofun⟩, ⟨by decide, hz⟩, by decide, by decide, nofun⟩

/-- A matrix literal, a call and an equation. -/
example : (Ex.mat [[.num "1".toList none, .num "2".toList none], [.num "3".toList none, .var "a".toList]]).WF := by
  refine ⟨by simp, ⟨⟨wf_num (by decide), wf_num (by decide), trivial⟩, ⟨wf_num (by decide), wf_name (by decide), trivial⟩, trivial⟩,
    2, by decide, by decide⟩

example : (Ex.eqs [.bin .pow (.var "x".toList) (.num "2".toList none)] [.num "4".toList none] ["x".toList]).WF := by
  refine ⟨rfl, ⟨⟨wf_name (by decide), wf_num (by decide), by decide, by decide, nofun⟩, trivial⟩,
    ⟨wf_num (by decide), trivial⟩, Or.inl (by simp), by decide, ?_⟩
  intro v hv
  simp only [List.mem_singleton] at hv
  subst hv
  exact nameShape_letters (by decide) (by decide)

end Examples

/-! ## C10 -/

/-- **C10.** A chain of divisions is grouped to the right: `a/b/c` is read as `a/(b/c)`, for all operands that
bind more tightly than division. -/
theorem C10_division_right (cfg : Cfg) (a b c : Ex) (ha : a.WF) (hb : b.WF) (hc : c.WF)
    (la : 5 < a.level) (lb : 5 < b.level) (lc : 5 < c.level) :
    parse cfg (a.text ++ ['/'] ++ (b.text ++ ['/'] ++ c.text)) =
      .ok (.simple .div (a.tree cfg) (.simple .div (b.tree cfg) (c.tree cfg)) : AST F) := by
  have hd : ∀ e : Ex, e.WF → 5 < e.level → e.text.head? ≠ some '-' := by
    intro e he hl h
    have := startsNeg e he h
    omega
  have hbc : (Ex.bin .div b c).WF :=
    ⟨hb, hc, ⟨lb, Nat.le_of_lt lc⟩, fun _ => hd c hc lc, fun h => by cases h⟩
  have hbc' : (Ex.bin .div b c).text.head? ≠ some '-' := by
    obtain ⟨x, t, hx⟩ := List.exists_cons_of_ne_nil (good_text b hb).ne
    have := hd b hb lb
    rw [hx] at this
    rw [Ex.text, hx]
    simpa using this
  have : (Ex.bin .div a (.bin .div b c)).WF :=
    ⟨ha, hbc, ⟨la, Nat.le_refl _⟩, fun _ => hbc', fun h => by cases h⟩
  exact C09_parse_text cfg _ this

/-- **C10** (the usual reading is wrong): `8/4/2` is not read as `(8/4)/2`. -/
theorem C10_left_false (cfg : Cfg) :
    ∃ x y z : F, parse cfg "8/4/2".toList = .ok (.simple .div (.scalar x) (.simple .div (.scalar y) (.scalar z))) ∧
      parse cfg "8/4/2".toList ≠ .ok (.simple .div (.simple .div (.scalar x) (.scalar y)) (.scalar z) : AST F) := by
  have h := C10_division_right (F := F) cfg (.num ['8'] none) (.num ['4'] none) (.num ['2'] none)
    (wf_num (s := "8") (by decide)) (wf_num (s := "4") (by decide)) (wf_num (s := "2") (by decide))
    (by decide) (by decide) (by decide)
  refine ⟨_, _, _, h, ?_⟩
  rw [show "8/4/2".toList = (Ex.num ['8'] none).text ++ ['/'] ++ ((Ex.num ['4'] none).text ++ ['/'] ++ (Ex.num ['2'] none).text) from by decide, h]
  intro hh
  cases hh

/-! ## C12 -/

/-- **C12.** A matrix literal with `k` inner lists of `n` entries each is read as a matrix whose columns are the
inner lists (whose rows are the inner lists with the feature `row-major`). -/
theorem C12_orientation (cfg : Cfg) (rows : List (List Ex)) (n : Nat) (hne : rows ≠ []) (hn : 0 < n)
    (hwf : ∀ r ∈ rows, ∀ e ∈ r, e.WF ∧ e.isBracket = false) (hlen : ∀ r ∈ rows, r.length = n) :
    ∃ m : List (List (AST F)), parse cfg (Ex.mat rows).text = .ok (.matrix m) ∧
      (if cfg.rowMajor then
        m.length = rows.length ∧ (∀ r ∈ m, r.length = n) ∧
        ∀ i j : Nat, (m[i]?.bind fun r => r[j]?) = (rows[i]?.bind fun r => r[j]?).map (Ex.tree cfg)
      else
        m.length = n ∧ (∀ r ∈ m, r.length = rows.length) ∧
        ∀ i j : Nat, (m[i]?.bind fun r => r[j]?) = (rows[j]?.bind fun r => r[i]?).map (Ex.tree cfg)) := by
  have hw : (Ex.mat rows).WF :=
    ⟨hne, (WFRows_iff _).2 fun r hr e he => (hwf r hr e he).1, n, hn, fun r hr => ⟨hlen r hr, fun e he => (hwf r hr e he).2⟩⟩
  refine ⟨_, C09_parse_text cfg _ hw, ?_⟩
  have ht : (treeRows cfg rows : List (List (AST F))) = rows.map fun r => r.map (Ex.tree cfg) := by
    rw [treeRows_eq]
    congr 1
    funext r
    exact treeAll_eq r
  by_cases hc : cfg.rowMajor = true
  · rw [if_pos hc, if_pos hc, ht]
    refine ⟨by simp, ?_, ?_⟩
    · intro r hr
      rw [List.mem_map] at hr
      obtain ⟨r', hr', rfl⟩ := hr
      simpa using hlen r' hr'
    · intro i j
      simp only [List.getElem?_map]
      cases rows[i]? with
      | none => rfl
      | some r => simp
  · rw [if_neg hc, if_neg hc, ht]
    obtain ⟨r0, rows', hr0⟩ := List.exists_cons_of_ne_nil hne
    have h0 : ((rows.map fun r => r.map (Ex.tree cfg : Ex → AST F)).headD []).length = n := by
      have := hlen r0 (by simp [hr0])
      rw [hr0]
      simpa using this
    rw [h0]
    have hrow : ∀ i < n, ((rows.map fun r => r.map (Ex.tree cfg : Ex → AST F)).filterMap fun r => r[i]?) =
        rows.filterMap fun r => (r[i]?).map (Ex.tree cfg) := by
      intro i _
      rw [List.filterMap_map]
      congr 1
      funext r
      simp
    have hcol : ∀ (i : Nat), i < n → ∀ rs : List (List Ex), (∀ r ∈ rs, r.length = n) →
        (rs.filterMap fun r => (r[i]?).map (Ex.tree cfg : Ex → AST F)).length = rs.length ∧
        ∀ j : Nat, (rs.filterMap fun r => (r[i]?).map (Ex.tree cfg : Ex → AST F))[j]? =
          (rs[j]?.bind fun r => r[i]?).map (Ex.tree cfg) := by
      intro i hi rs
      induction rs with
      | nil => intro _; simp
      | cons r rs ih =>
        intro hr
        have hri : i < r.length := by rw [hr r (by simp)]; exact hi
        have := ih fun r h => hr r (by simp [h])
        simp only [List.filterMap_cons, List.getElem?_eq_getElem hri, Option.map_some]
        refine ⟨by simp [this.1], fun j => ?_⟩
        cases j with
        | zero => simp [hri]
        | succ j => simpa using this.2 j
    unfold transpose
    refine ⟨by simp, ?_, ?_⟩
    · intro r hr
      rw [List.mem_map] at hr
      obtain ⟨i, hi, rfl⟩ := hr
      rw [List.mem_range] at hi
      rw [hrow i hi]
      exact (hcol i hi rows hlen).1
    · intro i j
      by_cases hi : i < n
      · rw [List.getElem?_map, List.getElem?_range hi]
        simp only [Option.map_some, Option.bind_some]
        rw [hrow i hi]
        exact (hcol i hi rows hlen).2 j
      · have h1 : ((List.range n).map fun i => ((rows.map fun r => r.map (Ex.tree cfg : Ex → AST F)).filterMap fun r => r[i]?))[i]? = none := by
          simp; omega
        rw [h1]
        cases hj : rows[j]? with
        | none => rfl
        | some r =>
          have : r.length = n := hlen r (List.mem_of_getElem? hj)
          have : r[i]? = none := by simp; omega
          simp [this]

/-- **C12** (the features): without features, and with `high-prec`, the inner lists of a matrix are its columns; with `row-major` they
are its rows. -/
theorem C12_features (rows : List (List Ex)) (n : Nat) (hne : rows ≠ []) (hn : 0 < n)
    (hwf : ∀ r ∈ rows, ∀ e ∈ r, e.WF ∧ e.isBracket = false) (hlen : ∀ r ∈ rows, r.length = n) :
    (∃ m : List (List (AST F)), parse Cfg.default (Ex.mat rows).text = .ok (.matrix m) ∧
      ∀ i j : Nat, (m[i]?.bind fun r => r[j]?) = (rows[j]?.bind fun r => r[i]?).map (Ex.tree Cfg.default)) ∧
    (∃ m : List (List (AST F)), parse Cfg.highPrec (Ex.mat rows).text = .ok (.matrix m) ∧
      ∀ i j : Nat, (m[i]?.bind fun r => r[j]?) = (rows[j]?.bind fun r => r[i]?).map (Ex.tree Cfg.highPrec)) ∧
    (∃ m : List (List (AST F)), parse Cfg.rowMajorCfg (Ex.mat rows).text = .ok (.matrix m) ∧
      ∀ i j : Nat, (m[i]?.bind fun r => r[j]?) = (rows[i]?.bind fun r => r[j]?).map (Ex.tree Cfg.rowMajorCfg)) := by
  refine ⟨?_, ?_, ?_⟩
  · obtain ⟨m, h1, h2⟩ := C12_orientation (F := F) Cfg.default rows n hne hn hwf hlen
    exact ⟨m, h1, h2.2.2⟩
  · obtain ⟨m, h1, h2⟩ := C12_orientation (F := F) Cfg.highPrec rows n hne hn hwf hlen
    exact ⟨m, h1, h2.2.2⟩
  · obtain ⟨m, h1, h2⟩ := C12_orientation (F := F) Cfg.rowMajorCfg rows n hne hn hwf hlen
    exact ⟨m, h1, h2.2.2⟩

/-- **C12.** Inner lists of different lengths are rejected with `NotRectMatrix`. -/
theorem C12_ragged (cfg : Cfg) (rows : List (List Ex)) (hne : ∀ r ∈ rows, r ≠ [])
    (hwf : ∀ r ∈ rows, ∀ e ∈ r, e.WF ∧ e.isBracket = false)
    (hrag : ∃ r ∈ rows, ∃ r' ∈ rows, r.length ≠ r'.length) :
    (parse cfg (Ex.mat rows).text : Out ParserError (AST F)) = .err .notRectMatrix := by
  obtain ⟨ra, hra, rb, hrb, hab⟩ := hrag
  have hgood := good_rows (rows := rows) fun r hr e he => good_text e (hwf r hr e he).1
  have hg : Good (Ex.mat rows).text := group_good .bracket (bal_commas _ fun p hp => (hgood p hp).bal)
  unfold parse
  rw [stripBlanks_good hg.noWs]
  have hrows : (textRows rows).mapM (parseInner cfg) = .ok ((treeRows cfg rows : List (List (AST F))).map AST.vector) := by
    clear hra hrb hg hgood
    induction rows with
    | nil => rfl
    | cons r rows ih =>
      simp only [textRows, treeRows, List.map_cons, List.mapM_cons]
      rw [parse_vec (hne r (by simp)) (fun e he => (hwf r (by simp) e he).1) (fun e he => (hwf r (by simp) e he).2)
          (fun e he => parse_text cfg e (hwf r (by simp) e he).1),
        ih (fun r hr => hne r (by simp [hr])) (fun r hr => hwf r (by simp [hr]))]
      rfl
  have et : (Ex.mat rows).text = ['['] ++ commas (textRows rows) ++ [']'] := rfl
  rw [et, step_bracket (by rintro h; rw [textRows_eq] at h; simp at h; rw [h] at hra; cases hra) hgood hrows]
  obtain ⟨r0, rows', hr0⟩ := List.exists_cons_of_ne_nil (List.ne_nil_of_mem hra)
  have h1 : ((treeRows cfg rows : List (List (AST F))).map AST.vector).any AST.isVector = true := by
    rw [hr0]; simp [treeRows, AST.isVector]
  have h2 : ((treeRows cfg rows : List (List (AST F))).map AST.vector).any AST.isMatrix = false := by
    rw [List.any_eq_false]
    simp only [List.mem_map]
    rintro _ ⟨e, he, rfl⟩
    simp [AST.isMatrix]
  rw [h1, h2, mapM_asRow]
  simp only [Bool.not_true, Bool.not_false, Bool.and_true, Bool.false_eq_true, if_false, Bool.not_not, Bool.and_self, if_true,
    Out.ok_bind]
  have i0 : (idx (treeRows cfg rows : List (List (AST F))) 0 : Out ParserError (List (AST F))) = .ok (treeAll cfg r0) := by
    rw [hr0]; rfl
  rw [i0]
  simp only [Out.ok_bind]
  rw [if_pos]
  rw [List.any_eq_true]
  have hmem : ∀ r ∈ rows, (treeAll cfg r : List (AST F)) ∈ (treeRows cfg rows : List (List (AST F))) := by
    intro r hr
    rw [treeRows_eq]
    exact List.mem_map_of_mem hr
  have hl : ∀ r : List Ex, (treeAll cfg r : List (AST F)).length = r.length := by
    intro r; rw [treeAll_eq, List.length_map]
  by_cases h : ra.length = r0.length
  · exact ⟨_, hmem rb hrb, by simp [hl]; omega⟩
  · exact ⟨_, hmem ra hra, by simpa [hl] using h⟩

/-! ## C13 -/

omit [FArith F] in
theorem call_ops_paren {n s : Str} (hn : NameShape n) (hs : ∀ j, 0 ≤ parens (s.take j)) :
    opsLoop (n ++ ['('] ++ s ++ [')']) (n ++ ['('] ++ s ++ [')']) 0 '\\' 0 0 0 = [] := by
  have e : n ++ ['('] ++ s ++ [')'] = n ++ ('(' :: (s ++ [')'])) := by simp
  rw [e, opsLoop_append]
  have h1 := name_ops hn [] ('(' :: (s ++ [')']))
  simp only [List.nil_append, List.length_nil] at h1
  rw [h1, List.nil_append, (nameShape_bal hn).p0, (nameShape_bal hn).b0, (nameShape_bal hn).k0]
  have h2 := name_noHidden hn [] ('(' :: (s ++ [')'])) n.length (Nat.le_refl _)
    (by rw [List.take_length]; exact (nameShape_bal hn).k0) '('
  simp only [List.nil_append, List.length_nil, List.take_length] at h2
  rw [opsLoop_cons, scanChar_plain h2 (by decide), List.nil_append]
  have b1 : parens ['('] = 1 := by decide
  rw [b1]
  apply opsLoop_nested
  intro j hj
  simp at hj
  rw [List.take_append_of_le_length (by omega)]
  have := hs j
  omega

theorem step_call_paren {cfg : Cfg} {rec : Str → Out ParserError (AST F)} {n s : Str} (hn : NameShape n)
    (hs : ∀ j, 0 ≤ parens (s.take j)) (hs0 : parens s = 0) :
    parseStep cfg rec (n ++ ['('] ++ s ++ [')']) =
      (match parseFunction rec (n ++ ['('] ++ s ++ [')']) with
          | some res => res
          | none =>
            match parseAdvanced rec (n ++ ['('] ++ s ++ [')']) with
            | some res => res
            | none => parseAtom cfg rec (n ++ ['('] ++ s ++ [')'])) := by
  have hh := name_head (t := ['('] ++ s ++ [')']) hn
  have hp0 : parens (n ++ ['('] ++ s ++ [')']) = 0 := by
    rw [parens_append, parens_append, parens_append, (nameShape_bal hn).p0, hs0]
    decide
  rw [step_noParen' (by simp) hp0 (fun h => absurd h (by simpa using hh)), splitOp_none (call_ops_paren hn hs)]
  rfl

omit [UTable] [FArith F] in
theorem stripBlanks_call {n s : Str} (hn : ∀ c ∈ n, isWhitespace c = false) (hs : ∀ c ∈ s, isWhitespace c = false) :
    stripBlanks (n ++ ['('] ++ s ++ [')']) = n ++ ['('] ++ s ++ [')'] := by
  apply stripBlanks_good
  intro c hc
  simp only [List.mem_append, List.mem_singleton] at hc
  rcases hc with ((hc | rfl) | hc) | rfl
  · exact hn c hc
  · decide
  · exact hs c hc
  · decide

omit [UTable] [FArith F] in
theorem commas_noWs {ps : List Str} (h : ∀ p ∈ ps, ∀ c ∈ p, isWhitespace c = false) : ∀ c ∈ commas ps, isWhitespace c = false := by
  induction ps with
  | nil => simp [commas, List.intercalate]
  | cons a ps ih =>
    cases ps with
    | nil => rw [commas_single]; exact h a (by simp)
    | cons b ps =>
      rw [commas_cons_cons]
      intro c hc
      simp only [List.mem_append, List.mem_cons] at hc
      rcases hc with hc | rfl | hc
      · exact h a (by simp) c hc
      · decide
      · exact ih (fun p hp => h p (by simp [hp])) c hc

omit [UTable] [FArith F] in
theorem commas_parens {ps : List Str} (h : ∀ p ∈ ps, ParenBal p) : ParenBal (commas ps) := by
  induction ps with
  | nil => exact ⟨fun j => by simp [commas, List.intercalate, parens], rfl⟩
  | cons a ps ih =>
    cases ps with
    | nil => rw [commas_single]; exact h a (by simp)
    | cons b ps =>
      rw [commas_cons_cons]
      have h1 := h a (by simp)
      have h2 := ih fun p hp => h p (by simp [hp])
      have hc : ∀ t, parens (',' :: t) = parens t := by intro t; rw [parens_cons]; simp
      refine ⟨fun j => ?_, ?_⟩
      · rw [List.take_append, parens_append]
        have := h1.1 j
        rcases hj : j - a.length with _ | k
        · simp [parens] at *; omega
        · rw [List.take_succ_cons, hc]
          have := h2.1 k
          omega
      · rw [parens_append, hc, h1.2, h2.2]; rfl

/-- An argument text: parentheses balanced, no comma outside of groups, no white space. -/
def ArgText (p : Str) : Prop :=
  ParenBal p ∧ depth p = 0 ∧ (∀ i, ¬ TopComma p i) ∧ ∀ c ∈ p, ¬ WhiteSpace c

omit [UTable] [FArith F] in
theorem getArgs_argText {ps : List Str} (hne : ps ≠ []) (h : ∀ p ∈ ps, ArgText p) : getArgs (commas ps) = ps :=
  getArgs_commas ps hne fun p hp => ⟨(h p hp).2.1, fun i hi => by
    have := (h p hp).2.2.1 i
    unfold TopComma at this
    intro h0
    exact this ⟨hi, by omega⟩⟩

omit [UTable] [FArith F] in
theorem white_none {p : Str} (h : ∀ c ∈ p, isWhitespace c = false) : ∀ c ∈ p, ¬ WhiteSpace c := fun c hc => by
  rw [← isWhitespace_iff, h c hc]
  exact Bool.false_ne_true

omit [UTable] [FArith F] in
theorem ArgText.noWs {p : Str} (h : ArgText p) : ∀ c ∈ p, isWhitespace c = false := fun c hc => by
  rw [← Bool.not_eq_true, isWhitespace_iff]
  exact h.2.2.2 c hc

omit [UTable] [FArith F] in
theorem stripBlanks_arg {p : Str} (h : ArgText p) : stripBlanks p = p := stripBlanks_good h.noWs

/-- Sequencing of two parses: both must succeed. -/
def both {α β γ : Type} (x : Out ParserError α) (y : Out ParserError β) (f : α → β → γ) : Out ParserError γ := do
  let a ← x
  let b ← y
  .ok (f a b)

/-- **C13.** `root(..)` takes exactly two arguments. -/
theorem C13_root (cfg : Cfg) (ps : List Str) (hne : ps ≠ []) (h : ∀ p ∈ ps, ArgText p) :
    (ps.length ≠ 2 → (parse cfg ("root(".toList ++ commas ps ++ [')']) : Out ParserError (AST F)) = .err (.wrongNumberOfArgs "root")) ∧
    (∀ a b, ps = [a, b] → parse cfg ("root(".toList ++ commas ps ++ [')']) =
      both (parse cfg a) (parse cfg b) fun x y => (.simple .root x y : AST F)) := by
  have hb := commas_parens fun p hp => (h p hp).1
  have hpf : ∀ rec : Str → Out ParserError (AST F), parseFunction rec ("root".toList ++ ['('] ++ commas ps ++ [')']) =
      some (if ps.length ≠ 2 then .err (.wrongNumberOfArgs "root") else do
        let a0 ← idx ps 0
        let l ← rec a0
        let a1 ← idx ps 1
        let r ← rec a1
        .ok (.simple .root l r)) := by
    intro rec
    unfold parseFunction
    have hl := lookUp_name (t := commas ps ++ [')']) (name_noParen shape_root)
    rw [← List.append_assoc] at hl
    have k1 : (functionLookUp.find? fun i => i.2 == "root".toList ++ ['(']) = some (.root, "root".toList ++ ['(']) := by
      decide
    rw [hl, k1]
    simp only
    rw [if_pos trivial, slice_call]
    simp only [Out.ok_bind]
    rw [getArgs_argText hne h]
  have hp : (parse cfg ("root(".toList ++ commas ps ++ [')']) : Out ParserError (AST F)) =
      (if ps.length ≠ 2 then .err (.wrongNumberOfArgs "root") else do
        let a0 ← idx ps 0
        let l ← parseInner cfg a0
        let a1 ← idx ps 1
        let r ← parseInner cfg a1
        .ok (.simple .root l r)) := by
    unfold parse
    have e : "root(".toList ++ commas ps ++ [')'] = "root".toList ++ ['('] ++ commas ps ++ [')'] := by simp
    rw [e, stripBlanks_call (by decide) (commas_noWs fun p hp => (h p hp).noWs), parseInner_eq,
      step_call_paren shape_root hb.1 hb.2, hpf]
  constructor
  · intro hl
    rw [hp, if_pos hl]
  · rintro a b rfl
    rw [hp, if_neg (by simp)]
    simp only [idx, List.getElem?_cons_zero, List.getElem?_cons_succ, Out.unwrap, Out.ok_bind, parse, both]
    rw [stripBlanks_arg (h a (by simp)), stripBlanks_arg (h b (by simp))]

/-- **C13.** `D(..)` takes exactly three arguments: expression, variable, point. -/
theorem C13_derivative (cfg : Cfg) (ps : List Str) (hne : ps ≠ []) (h : ∀ p ∈ ps, ArgText p) :
    (ps.length ≠ 3 → (parse cfg ("D(".toList ++ commas ps ++ [')']) : Out ParserError (AST F)) = .err (.wrongNumberOfArgs "derivative")) ∧
    (∀ a x b, ps = [a, x, b] → parse cfg ("D(".toList ++ commas ps ++ [')']) =
      both (parse cfg a) (parse cfg b) fun e p => (.derivative e x p : AST F)) := by
  have hb := commas_parens fun p hp => (h p hp).1
  have e : "D(".toList ++ commas ps ++ [')'] = "D".toList ++ ['('] ++ commas ps ++ [')'] := by simp
  have hp : (parse cfg ("D(".toList ++ commas ps ++ [')']) : Out ParserError (AST F)) =
      (if ps.length ≠ 3 then .err (.wrongNumberOfArgs "derivative") else do
      let a0 ← idx ps 0
      let f ← parseInner cfg a0
      let a2 ← idx ps 2
      let at_ ← parseInner cfg a2
      let a1 ← idx ps 1
      .ok (.derivative f a1 at_)) := by
    unfold parse
    rw [e, stripBlanks_call (by decide) (commas_noWs fun p hp => (h p hp).noWs), parseInner_eq,
      step_call_paren shape_D hb.1 hb.2, adv_noFn (by simp)]
    have k1 : startsWith ("D".toList ++ ['('] ++ commas ps ++ [')']) "I(".toList = false :=
      startsAdv (m := ['I']) (by decide) (by decide)
    have k2 : startsWith ("D".toList ++ ['('] ++ commas ps ++ [')']) "D(".toList = true :=
      startsAdv (m := ['D']) (by decide) (by decide)
    unfold parseAdvanced
    have hsl := slice_call (n := "D".toList) (s := commas ps)
    have hl : ("D".toList ++ ['(']).length = 2 := rfl
    rw [hl] at hsl
    rw [k1, k2, if_neg (by simp), if_pos rfl, hsl]
    simp only [Out.ok_bind]
    rw [getArgs_argText hne h]
  constructor
  · intro hl
    rw [hp, if_pos hl]
  · rintro a x b rfl
    rw [hp, if_neg (by simp)]
    simp only [idx, List.getElem?_cons_zero, List.getElem?_cons_succ, Out.unwrap, Out.ok_bind, parse, both]
    rw [stripBlanks_arg (h a (by simp)), stripBlanks_arg (h b (by simp))]

/-- **C13.** `I(..)` takes exactly four arguments: expression, variable, lower and upper bound. -/
theorem C13_integral (cfg : Cfg) (ps : List Str) (hne : ps ≠ []) (h : ∀ p ∈ ps, ArgText p) :
    (ps.length ≠ 4 → (parse cfg ("I(".toList ++ commas ps ++ [')']) : Out ParserError (AST F)) = .err (.wrongNumberOfArgs "integral")) ∧
    (∀ a x l u, ps = [a, x, l, u] → parse cfg ("I(".toList ++ commas ps ++ [')']) =
      both (parse cfg a) (both (parse cfg l) (parse cfg u) Prod.mk) fun e p => (.integral e x p.1 p.2 : AST F)) := by
  have hb := commas_parens fun p hp => (h p hp).1
  have e : "I(".toList ++ commas ps ++ [')'] = "I".toList ++ ['('] ++ commas ps ++ [')'] := by simp
  have hp : (parse cfg ("I(".toList ++ commas ps ++ [')']) : Out ParserError (AST F)) =
      (if ps.length ≠ 4 then .err (.wrongNumberOfArgs "integral") else do
      let a0 ← idx ps 0
      let f ← parseInner cfg a0
      let a2 ← idx ps 2
      let lb ← parseInner cfg a2
      let a3 ← idx ps 3
      let ub ← parseInner cfg a3
      let a1 ← idx ps 1
      .ok (.integral f a1 lb ub)) := by
    unfold parse
    rw [e, stripBlanks_call (by decide) (commas_noWs fun p hp => (h p hp).noWs), parseInner_eq,
      step_call_paren shape_I hb.1 hb.2, adv_noFn (by simp)]
    have k1 : startsWith ("I".toList ++ ['('] ++ commas ps ++ [')']) "I(".toList = true :=
      startsAdv (m := ['I']) (by decide) (by decide)
    unfold parseAdvanced
    have hsl := slice_call (n := "I".toList) (s := commas ps)
    have hl : ("I".toList ++ ['(']).length = 2 := rfl
    rw [hl] at hsl
    rw [k1, if_pos rfl, hsl]
    simp only [Out.ok_bind]
    rw [getArgs_argText hne h]
  constructor
  · intro hl
    rw [hp, if_pos hl]
  · rintro a x l u rfl
    rw [hp, if_neg (by simp)]
    simp only [idx, List.getElem?_cons_zero, List.getElem?_cons_succ, Out.unwrap, Out.ok_bind, parse, both]
    rw [stripBlanks_arg (h a (by simp)), stripBlanks_arg (h l (by simp)), stripBlanks_arg (h u (by simp))]
    simp only [bind_assoc, Out.ok_bind]

section
omit [UTable] [FArith F]

theorem argText_letters {p : Str} (h : ∀ c ∈ p, c.isAlphanum = true ∨ c = '+') : ArgText p := by
  have hno : ∀ d : Char, d.isAlphanum = false → d ≠ '+' → d ∉ p := by
    intro d hd hp hm
    rcases h d hm with h | h
    · rw [hd] at h; cases h
    · exact hp h
  have h0 : ∀ q : Str, q ⊆ p → parens q = 0 ∧ brackets q = 0 ∧ braces q = 0 := by
    intro q hq
    have hz : ∀ d : Char, d.isAlphanum = false → d ≠ '+' → q.count d = 0 := by
      intro d hd hp
      rw [List.count_eq_zero]
      exact fun hm => hno d hd hp (hq hm)
    unfold parens brackets braces
    rw [hz '(' (by decide) (by decide), hz ')' (by decide) (by decide), hz '[' (by decide) (by decide),
      hz ']' (by decide) (by decide), hz '{' (by decide) (by decide), hz '}' (by decide) (by decide)]
    decide
  refine ⟨⟨fun j => by rw [(h0 _ (List.take_subset j p)).1], (h0 p (List.Subset.refl _)).1⟩, ?_, ?_, ?_⟩
  · rw [depth_eq]
    have := h0 p (List.Subset.refl _)
    omega
  · rintro i ⟨hi, _⟩
    exact hno ',' (by decide) (by decide) (List.mem_of_getElem? hi)
  · intro c hc
    rw [← isWhitespace_iff]
    intro hd
    rcases h c hc with h | rfl
    · simp only [Char.isAlphanum, Char.isAlpha, Char.isUpper, Char.isLower, Char.isDigit, Bool.or_eq_true, Bool.and_eq_true,
        decide_eq_true_eq, ge_iff_le, UInt32.le_iff_toNat_le] at h
      simp only [isWhitespace, Bool.or_eq_true, Bool.and_eq_true, decide_eq_true_eq, beq_iff_eq, Char.toNat] at hd
      simp at h hd
      omega
    · revert hd; decide

end

example : ∀ p ∈ ["x+1".toList, "x".toList], ArgText p := by
  intro p hp
  apply argText_letters
  simp only [List.mem_cons, List.not_mem_nil, or_false] at hp
  rcases hp with rfl | rfl <;> decide

/-! ## C14 -/

/-- Value of a string of decimal digits, as defined in Mathlib. -/
def decimal (s : Str) : Nat := Nat.ofDigits 10 (s.reverse.map fun c => c.toNat - 48)

omit [UTable] [FArith F] in
theorem digitsVal_eq (s : Str) : digitsVal s = decimal s := by
  unfold digitsVal decimal
  have : ∀ (s : Str) (n : Nat), s.foldl (fun n c => 10 * n + (c.toNat - '0'.toNat)) n =
      n * 10 ^ s.length + Nat.ofDigits 10 (s.reverse.map fun c => c.toNat - 48) := by
    intro s
    induction s with
    | nil => intro n; simp
    | cons c s ih =>
      intro n
      simp only [List.foldl_cons, List.reverse_cons, List.map_append, List.map_cons, List.map_nil]
      rw [ih, Nat.ofDigits_append]
      simp only [List.length_map, List.length_reverse, Nat.ofDigits_singleton, List.length_cons, Nat.pow_succ]
      have : '0'.toNat = 48 := rfl
      rw [this]
      ring
  have := this s 0
  simpa using this

/-- **C14.** A numeral (digits, optionally a point and digits, at least one digit) is read as the scalar with
decimal mantissa all the digits and exponent minus the number of digits after the point. -/
theorem C14_numeral (cfg : Cfg) (ip fp : Str) (h1 : ∀ c ∈ ip, c.isDigit = true) (h2 : ∀ c ∈ fp, c.isDigit = true) :
    (ip ≠ [] → parse cfg ip = .ok (.scalar (FArith.ofDec (decimal ip) 0) : AST F)) ∧
    (ip ≠ [] ∨ fp ≠ [] → parse cfg (ip ++ '.' :: fp) =
      .ok (.scalar (FArith.ofDec (decimal ip * 10 ^ fp.length + decimal fp) (-(fp.length : Int))) : AST F)) := by
  constructor
  · intro hne
    have := C09_parse_text (F := F) cfg (.num ip none) ⟨h1, (by intro f hf; cases hf), Or.inl hne⟩
    simp only [Ex.text, Ex.tree, List.append_nil, Option.getD_none, List.length_nil] at this
    rw [this, digitsVal_eq]
    simp
  · intro hne
    have hw : (Ex.num ip (some fp)).WF := by
      refine ⟨h1, ?_, ?_⟩
      · intro f hf; cases hf; exact h2
      · rcases hne with h | h
        · exact Or.inl h
        · exact Or.inr ⟨fp, rfl, h⟩
    have := C09_parse_text (F := F) cfg _ hw
    simp only [Ex.text, Ex.tree, Option.getD_some] at this
    rw [this, digitsVal_eq]
    have : decimal (ip ++ fp) = decimal ip * 10 ^ fp.length + decimal fp := by
      unfold decimal
      rw [List.reverse_append, List.map_append, Nat.ofDigits_append]
      simp only [List.length_map, List.length_reverse]
      ring
    rw [this]

example : decimal "0372".toList = 372 := by decide

/-! ## C15 -/

/-- **C15.** `eq(l₁=r₁, …, v₁, …)`: each equation relates its two sides (the textually longer one first), the
entries without `=` are the search variables in order. -/
theorem C15_equations (cfg : Cfg) (ls rs : List Ex) (vars : List Str) (h : (Ex.eqs ls rs vars).WF) :
    ∃ eqs : List (AST F × AST F), parse cfg (Ex.eqs ls rs vars).text = .ok (.equation eqs vars) ∧
      eqs.length = ls.length ∧
      ∀ (i : Nat) (l r : Ex), ls[i]? = some l → rs[i]? = some r →
        eqs[i]? = some (if r.text.length ≤ l.text.length then (l.tree cfg, r.tree cfg) else (r.tree cfg, l.tree cfg)) := by
  refine ⟨_, C09_parse_text cfg _ h, ?_, ?_⟩
  · have := h.1
    simp [textAll_eq, treeAll_eq, this]
  · intro i l r hl hr
    simp only [List.getElem?_zipWith, textAll_eq, treeAll_eq, List.getElem?_zip_eq_some, List.zip, List.getElem?_map, hl, hr, Option.map_some]

/-- **C15** (several `=`): everything from the second `=` on is silently ignored. -/
theorem C15_extra_dropped (cfg : Cfg) (l r : Ex) (junk : Str) (x : Str) (hw : (Ex.eqs [l] [r] [x]).WF)
    (hj : ArgText junk) :
    parse cfg ("eq(".toList ++ commas [l.text ++ ['='] ++ r.text ++ ['='] ++ junk, x] ++ [')']) =
      (parse cfg ("eq(".toList ++ commas [l.text ++ ['='] ++ r.text, x] ++ [')']) : Out ParserError (AST F)) := by
  obtain ⟨_, h1, h2, _, heq, hv⟩ := id hw
  have hgl := good_text l h1.1
  have hgr := good_text r h2.1
  have hx : NameShape x := hv x (by simp)
  have hR : (parse cfg ("eq(".toList ++ commas [l.text ++ ['='] ++ r.text, x] ++ [')']) : Out ParserError (AST F)) =
      .ok ((Ex.eqs [l] [r] [x]).tree cfg) := C09_parse_text cfg _ hw
  have hq : ArgText (l.text ++ ['='] ++ r.text ++ ['='] ++ junk) := by
    have hg := ((eqEntry_good hgl hgr).append ((bal_char '=' (by decide) (by decide) (by decide)).good (by decide)
      (noTopComma_plain (by decide))))
    refine ⟨⟨fun j => ?_, ?_⟩, ?_, ?_, ?_⟩
    · rw [List.take_append, parens_append]
      have := hg.p j
      have := hj.1.1 (j - (l.text ++ ['='] ++ r.text ++ ['=']).length)
      omega
    · rw [parens_append, hg.p0, hj.1.2]; rfl
    · rw [depth_append, hg.depth0, hj.2.1]; rfl
    · rintro i ⟨hi, hd⟩
      by_cases h : i < (l.text ++ ['='] ++ r.text ++ ['=']).length
      · rw [List.getElem?_append_left h] at hi
        rw [List.take_append_of_le_length (by omega)] at hd
        exact hg.comma' i hi (by omega)
      · rw [List.getElem?_append_right (by omega)] at hi
        rw [List.take_append, List.take_of_length_le (by omega), depth_append, hg.depth0] at hd
        exact hj.2.2.1 _ ⟨hi, by omega⟩
    · intro c hc
      rw [List.mem_append] at hc
      exact hc.elim (white_none hg.noWs c) (hj.2.2.2 c)
  have hxa : ArgText x := by
    have hg := nameShape_good hx
    refine ⟨⟨hg.p, hg.p0⟩, hg.depth0, ?_, white_none hg.noWs⟩
    rintro i ⟨hi, hd⟩
    exact hg.comma' i hi (by omega)
  have hargs : ∀ p ∈ [l.text ++ ['='] ++ r.text ++ ['='] ++ junk, x], ArgText p := by
    intro p hp
    simp only [List.mem_cons, List.not_mem_nil, or_false] at hp
    rcases hp with rfl | rfl
    · exact hq
    · exact hxa
  rw [hR]
  have hb := commas_parens fun p hp => (hargs p hp).1
  unfold parse
  have e : ∀ s : Str, "eq(".toList ++ s ++ [')'] = "eq".toList ++ ['('] ++ s ++ [')'] := by intro s; simp
  rw [e, stripBlanks_call (by decide) (commas_noWs fun p hp => (hargs p hp).noWs), parseInner_eq,
    step_call_paren shape_eq hb.1 hb.2, adv_noFn (by simp)]
  have k1 : ∀ s, startsWith ("eq".toList ++ ['('] ++ s ++ [')']) "I(".toList = false :=
    fun s => startsAdv (m := ['I']) (by decide) (by decide)
  have k2 : ∀ s, startsWith ("eq".toList ++ ['('] ++ s ++ [')']) "D(".toList = false :=
    fun s => startsAdv (m := ['D']) (by decide) (by decide)
  have k3 : ∀ s, startsWith ("eq".toList ++ ['('] ++ s ++ [')']) "eq(".toList = true :=
    fun s => startsAdv (m := ['e', 'q']) (by decide) (by decide)
  unfold parseAdvanced
  have hsl := slice_call (n := "eq".toList) (s := commas [l.text ++ ['='] ++ r.text ++ ['='] ++ junk, x])
  have hl3 : ("eq".toList ++ ['(']).length = 3 := rfl
  rw [hl3] at hsl
  rw [k1, k2, k3, if_neg (by simp), if_neg (by simp), if_pos rfl, hsl]
  simp only [Out.ok_bind]
  rw [getArgs_argText (by simp) hargs]
  have hlq : '=' ∉ l.text := heq _ (by simp [textAll])
  have hrq : '=' ∉ r.text := heq _ (by simp [textAll])
  have key : ∀ s : Str, '=' ∉ s → ∀ c ∈ s, (c != '=') = true := by
    intro s hs c hc
    simp only [bne_iff_ne, ne_eq]
    rintro rfl
    exact hs hc
  have hsp : splitEq (l.text ++ ['='] ++ r.text ++ ['='] ++ junk) = (l.text, r.text) := by
    unfold splitEq
    have ea : l.text ++ ['='] ++ r.text ++ ['='] ++ junk = l.text ++ ('=' :: (r.text ++ '=' :: junk)) := by simp
    rw [ea, List.takeWhile_append_of_pos (key _ hlq), List.dropWhile_append_of_pos (key _ hlq)]
    simp [List.takeWhile_append_of_pos (key _ hrq)]
  have he1 : parseEqEntry (parseInner cfg) (l.text ++ ['='] ++ r.text ++ ['='] ++ junk) =
      (parseEqEntry (parseInner cfg) (l.text ++ ['='] ++ r.text) : Out ParserError (Sum (AST F × AST F) Str)) := by
    have hsp2 : splitEq (l.text ++ ['='] ++ r.text) = (l.text, r.text) := by
      unfold splitEq
      rw [List.append_assoc, List.takeWhile_append_of_pos (key _ hlq), List.dropWhile_append_of_pos (key _ hlq)]
      have hr' : r.text.takeWhile (· != '=') = r.text := by
        have := List.takeWhile_append_of_pos (p := (· != '=')) (l₂ := []) (key _ hrq)
        simpa using this
      simp [hr']
    unfold parseEqEntry
    rw [if_neg (by simp), if_neg (by simp), hsp, hsp2]
  have he2 : parseEqEntry (parseInner cfg) x = (.ok (.inr x) : Out ParserError (Sum (AST F × AST F) Str)) := by
    unfold parseEqEntry
    have hvn : '=' ∉ x := fun h => by simpa using hx.2.2.1 '=' h
    rw [if_pos]
    simpa using hvn
  have pl := parse_text (F := F) cfg l h1.1
  have pr := parse_text (F := F) cfg r h2.1
  simp only [List.mapM_cons, List.mapM_nil]
  rw [he1, he2, parse_eqEntry hgl hgr hlq hrq pl pr]
  rfl

example : (Ex.eqs [.var "a".toList] [.var "b".toList] ["x".toList]).WF ∧ ArgText "c".toList := by
  refine ⟨⟨rfl, ⟨wf_name (by decide), trivial⟩, ⟨wf_name (by decide), trivial⟩, Or.inl (by simp), by decide, ?_⟩,
    argText_letters (by decide)⟩
  intro v hv
  simp only [List.mem_singleton] at hv
  subst hv
  exact nameShape_letters (by decide) (by decide)

/-! ## C17 -/

/-- **C17.** An expression that starts with a binary operator (other than `-`) is accepted: the missing left operand
is taken to be `0`. -/
theorem C17_missing_left_is_zero (cfg : Cfg) (op : BinOp) (e : Ex) (h : e.WF) (h1 : op ≠ .juxt) (h2 : op ≠ .sub)
    (hl : op.level < e.level) (hm : e.text.head? ≠ some '-') :
    parse cfg (op.text ++ e.text) = .ok (.simple op.op (.scalar (FArith.ofInt 0)) (e.tree cfg) : AST F) := by
  have hge := good_text e h
  have hep : 0 < e.text.length := List.length_pos_iff.2 hge.ne
  obtain ⟨s, hs, hsym, hsp, hsd, hss, hg1⟩ : ∃ s, op.text = [s] ∧ getOpSymbol s = some op.op ∧
      (UTable.isAlphabetic s = false ∧ s ≠ '\\' ∧ s ≠ '(' ∧ s ≠ '[') ∧ (s.isDigit = false ∧ s ≠ ')') ∧
      (parens [s] = 0 ∧ brackets [s] = 0 ∧ braces [s] = 0) ∧ Good [s] := by
    cases op
    case juxt => exact absurd rfl h1
    all_goals exact ⟨_, rfl, rfl, ⟨UTable.alpha_ascii _ (by decide), by decide, by decide, by decide⟩, by decide, by decide,
      (bal_char _ (by decide) (by decide) (by decide)).good (by decide) (noTopComma_plain (by decide))⟩
  have hg : Good ([s] ++ e.text) := hg1.append hge
  unfold parse
  rw [hs, stripBlanks_good hg.noWs, parseInner_eq, step_noParen hg (by intro hh; simp at hh; exact absurd hh hsp.2.2.1)]
  obtain ⟨c, t, hc⟩ := List.exists_cons_of_ne_nil hge.ne
  have hns : op.op ≠ .sub := by
    cases op <;> first | exact absurd rfl h2 | decide
  have hsplit : splitOp ([s] ++ e.text) = some ⟨op.op, 0, 0, 1⟩ := by
    have hops : opsInExpr ([s] ++ e.text) = [] ++ ⟨op.op, 0, 0, 1⟩ ::
        opsLoop ([s] ++ e.text ++ []) e.text [s].length '\\' 0 0 0 := by
      unfold opsInExpr
      rw [List.singleton_append, opsLoop_cons, hss.1, hss.2.1, hss.2.2]
      simp only [Int.add_zero]
      have hsc : scanChar (s :: e.text) 0 '\\' s 0 0 0 = [⟨op.op, 0, 0, 1⟩] := by
        rw [scanChar, isHiddenMult_false (Or.inr hsp), hsym]
        have h1 : ((0 : Nat) != (s :: e.text).length - 1) = true := by simp; omega
        have h2 : ((0 : Nat) == 0 && op.op == .sub) = false := by simp [hns]
        rw [h1]
        simp [hns]
      rw [hsc]
      have : opsLoop (s :: e.text) e.text (0 + 1) s 0 0 0 = opsLoop ([s] ++ e.text ++ []) e.text [s].length '\\' 0 0 0 := by
        conv_lhs => rw [hc, opsLoop_last, isHiddenMult_false (Or.inl hsd), ← hc]
        simp
      rw [this]
      rfl
    have hB : ∀ x ∈ opsLoop ([s] ++ e.text ++ []) e.text [s].length '\\' 0 0 0, op.level < opTypes.idxOf x.op := by
      intro x hx
      rcases ops_level e h [s] [] x hx with hh | hh
      · omega
      · exact absurd hh.1 hm
    refine splitOp_of hops (show op.op ∈ opTypes by cases op <;> decide) ?_
    simp only [idxOf_binop]
    split
    · exact ⟨by simp, hB⟩
    · exact ⟨by simp, fun x hx => Nat.le_of_lt (hB x hx)⟩
  rw [hsplit]
  simp only
  rw [slice_ok (by omega) (by omega), slice_ok (by simp) (by omega)]
  have e2 : (([s] ++ e.text).take ([s] ++ e.text).length).drop (0 + 1) = e.text := by
    rw [List.take_length]; simp
  rw [e2]
  simp only [Out.ok_bind]
  rw [parse_text cfg e h]
  rfl

/-- **C17** (the claim that such texts are rejected is false): `*5` is read as `0*5`. -/
theorem C17_rejected_false (cfg : Cfg) : ∃ a : AST F, parse cfg "*5".toList = .ok a :=
  ⟨_, C17_missing_left_is_zero cfg .mult (.num "5".toList none) (wf_num (by decide)) (by decide) (by decide) (by decide) (by decide)⟩

/-! ## C11: a non-trivial accepted text -/

example (cfg : Cfg) : WFTree ValidName (exampleEx.tree cfg : AST F) :=
  C11_wellformed cfg _ _ (C09_parse_text cfg exampleEx exampleEx_wf)

end MUL
