import Verif.Proofs.ParserTerm
import Verif.Proofs.ParserSafe
import Verif.Spec.White
/-!
# C05, C06, C07, C08, C11, C16: totality of the parser, blanks, delimiters, names
-/

set_option linter.unusedSimpArgs false

namespace MUL
open Spec

variable [UTable] {F : Type} [FArith F]

/-! ## C05 -/

/-- **C05.** Parsing terminates on every input: the recursion never gets deeper than the length of the
text, so the outcome is never `timeout`, and any larger budget gives the same outcome. -/
theorem C05_parse_terminates (cfg : Cfg) (s : Str) :
    (parse cfg s : Out ParserError (AST F)) ≠ .timeout ∧
    ∀ n, (stripBlanks s).length < n → (parseFuel cfg n (stripBlanks s) : Out ParserError (AST F)) = parse cfg s :=
  ⟨parseInner_term cfg _, fun n hn => parseFuel_stable cfg n _ _ hn (Nat.lt_succ_self _)⟩

/-! ## C07 -/

section
omit [UTable] [FArith F]

theorem dropWhile_filter_blank (s : Str) :
    (s.filter (· != ' ')).dropWhile isWhitespace = (s.dropWhile isWhitespace).filter (· != ' ') := by
  induction s with
  | nil => rfl
  | cons c s ih =>
    by_cases hc : c = ' '
    · subst hc
      have hw : isWhitespace ' ' = true := by decide
      simp [hw, ih]
    · by_cases hw : isWhitespace c = true
      · simp [hc, hw, ih]
      · simp [hc, hw]

theorem trim_filter (s : Str) : trim (s.filter (· != ' ')) = stripBlanks s := by
  unfold trim stripBlanks trim
  rw [dropWhile_filter_blank, ← List.filter_reverse, dropWhile_filter_blank, List.filter_reverse]

theorem dropWhile_append_all {p : Char → Bool} {w s : Str} (h : ∀ c ∈ w, p c = true) :
    (w ++ s).dropWhile p = s.dropWhile p := by
  induction w with
  | nil => rfl
  | cons c w ih =>
    rw [List.cons_append, List.dropWhile_cons, if_pos (h c (by simp))]
    exact ih fun c hc => h c (by simp [hc])

theorem dropWhile_nil {p : Char → Bool} {s : Str} : s.dropWhile p = [] ↔ ∀ c ∈ s, p c = true := by
  induction s with
  | nil => simp
  | cons c s ih =>
    rw [List.dropWhile_cons]
    by_cases h : p c = true
    · simp [h, ih]
    · simp [h]

theorem trim_pad {w1 s w2 : Str} (h1 : ∀ c ∈ w1, isWhitespace c = true) (h2 : ∀ c ∈ w2, isWhitespace c = true) :
    trim (w1 ++ s ++ w2) = trim s := by
  unfold trim
  congr 1
  rw [List.append_assoc, dropWhile_append_all h1]
  by_cases hs : s.dropWhile isWhitespace = []
  · have : ∀ c ∈ s, isWhitespace c = true := dropWhile_nil.1 hs
    rw [hs, dropWhile_append_all this]
    have : w2.dropWhile isWhitespace = [] := dropWhile_nil.2 h2
    rw [this]
  · rw [List.dropWhile_append]
    have : (s.dropWhile isWhitespace).isEmpty = false := by simpa using hs
    rw [this]
    simp only [Bool.false_eq_true, if_false, List.reverse_append]
    exact dropWhile_append_all fun c hc => h2 c (by simpa using hc)

end

/-- **C07.** Deleting or inserting spaces anywhere in the text does not change the outcome (tree, error
or panic) of parsing. -/
theorem C07_blanks (cfg : Cfg) (s t : Str) (h : s.filter (· != ' ') = t.filter (· != ' ')) :
    (parse cfg s : Out ParserError (AST F)) = parse cfg t := by
  unfold parse
  rw [← trim_filter, ← trim_filter, h]

omit [UTable] [FArith F] in
theorem isWhitespace_iff (c : Char) : isWhitespace c = true ↔ WhiteSpace c := by
  have key : ∀ d : Char, (c = d ↔ c.toNat = d.toNat) := fun d => ⟨fun h => h ▸ rfl, fun h => Char.ext (UInt32.toNat.inj h)⟩
  unfold WhiteSpace isWhitespace
  simp only [List.mem_cons, List.not_mem_nil, or_false, key, Bool.or_eq_true, Bool.and_eq_true, decide_eq_true_eq, beq_iff_eq]
  simp only [Char.reduceToNat]
  omega

/-- **C07** (outer whitespace): neither does any white space around the text. -/
theorem C07_outer (cfg : Cfg) (w1 s w2 : Str) (h1 : ∀ c ∈ w1, WhiteSpace c) (h2 : ∀ c ∈ w2, WhiteSpace c) :
    (parse cfg (w1 ++ s ++ w2) : Out ParserError (AST F)) = parse cfg s := by
  unfold parse stripBlanks
  rw [trim_pad (fun c hc => (isWhitespace_iff c).2 (h1 c hc)) (fun c hc => (isWhitespace_iff c).2 (h2 c hc))]

/-- **C07** (nothing else): a text that neither begins nor ends with white space and has no blanks is parsed as it is. -/
theorem C07_only (cfg : Cfg) (s : Str) (h1 : ∀ c, s.head? = some c → ¬ WhiteSpace c) (h2 : ∀ c, s.getLast? = some c → ¬ WhiteSpace c)
    (h3 : ' ' ∉ s) : (parse cfg s : Out ParserError (AST F)) = parseInner cfg s := by
  have hd : ∀ t : Str, (∀ c, t.head? = some c → ¬ WhiteSpace c) → t.dropWhile isWhitespace = t := by
    intro t ht
    match t with
    | [] => rfl
    | c :: t =>
      have : isWhitespace c = false := by
        rw [← Bool.not_eq_true, isWhitespace_iff]
        exact ht c rfl
      simp [List.dropWhile, this]
  unfold parse stripBlanks trim
  rw [hd s h1, hd s.reverse (by rw [List.head?_reverse]; exact h2), List.reverse_reverse, List.filter_eq_self.2]
  intro c hc
  simpa using fun h : c = ' ' => h3 (h ▸ hc)

example : ∀ c ∈ "\n\t\u00a0".toList, WhiteSpace c := by unfold WhiteSpace; decide

example : " 1 + 2".toList.filter (· != ' ') = "1+ 2 ".toList.filter (· != ' ') := by decide

/-! ## C08 -/

section
omit [UTable] [FArith F]

theorem count_dropWhile_ws {c : Char} (hc : isWhitespace c = false) (s : Str) :
    (s.dropWhile isWhitespace).count c = s.count c := by
  induction s with
  | nil => rfl
  | cons d s ih =>
    rw [List.dropWhile_cons]
    split
    · rename_i hd
      have : d ≠ c := by rintro rfl; rw [hc] at hd; cases hd
      rw [ih, List.count_cons_of_ne this]
    · rfl

theorem count_stripBlanks {c : Char} (hc : isWhitespace c = false) (s : Str) :
    (stripBlanks s).count c = s.count c := by
  have hne : c ≠ ' ' := by rintro rfl; simp [isWhitespace] at hc
  unfold stripBlanks trim
  rw [List.count_filter (by simpa using hne), List.count_reverse, count_dropWhile_ws hc, List.count_reverse,
    count_dropWhile_ws hc]

theorem parens_stripBlanks (s : Str) : parens (stripBlanks s) = parens s := by
  unfold parens
  rw [count_stripBlanks (by decide), count_stripBlanks (by decide)]

theorem stripBlanks_nil {s : Str} (h : ∀ c ∈ s, isWhitespace c = true) : stripBlanks s = [] := by
  have : s.dropWhile isWhitespace = [] := dropWhile_nil.2 h
  simp [stripBlanks, trim, this]

end

/-- **C08.** More opening than closing round parentheses: `UnmatchedOpenDelimiter`. -/
theorem C08_open (cfg : Cfg) (s : Str) (h : s.count ')' < s.count '(') :
    (parse cfg s : Out ParserError (AST F)) = .err .unmatchedOpenDelimiter := by
  have hp : 0 < parens (stripBlanks s) := by rw [parens_stripBlanks]; unfold parens; omega
  unfold parse
  rw [parseInner_eq, parseStep]
  have hne : (stripBlanks s).isEmpty = false := by
    cases h : stripBlanks s with
    | nil => rw [h] at hp; simp [parens] at hp
    | cons => rfl
  have := checkLoop_depth (stripBlanks s).length (stripBlanks s) 0 0 true
  rw [hne]
  simp only [Bool.false_eq_true, if_false]
  rw [if_pos (by omega)]

/-- **C08.** More closing than opening round parentheses: `UnmatchedCloseDelimiter`. -/
theorem C08_close (cfg : Cfg) (s : Str) (h : s.count '(' < s.count ')') :
    (parse cfg s : Out ParserError (AST F)) = .err .unmatchedCloseDelimiter := by
  have hp : parens (stripBlanks s) < 0 := by rw [parens_stripBlanks]; unfold parens; omega
  unfold parse
  rw [parseInner_eq, parseStep]
  have hne : (stripBlanks s).isEmpty = false := by
    cases h : stripBlanks s with
    | nil => rw [h] at hp; simp [parens] at hp
    | cons => rfl
  have := checkLoop_depth (stripBlanks s).length (stripBlanks s) 0 0 true
  rw [hne]
  simp only [Bool.false_eq_true, if_false]
  rw [if_neg (by omega), if_pos (by omega)]

/-- **C08.** Every accepted text has as many opening as closing round parentheses. -/
theorem C08_accepted (cfg : Cfg) (s : Str) (a : AST F) (h : parse cfg s = .ok a) :
    s.count '(' = s.count ')' := by
  rcases Nat.lt_trichotomy (s.count '(') (s.count ')') with h1 | h1 | h1
  · rw [C08_close cfg s h1] at h; cases h
  · exact h1
  · rw [C08_open cfg s h1] at h; cases h

/-- **C08.** A blank text is rejected with `EmptyExpr`. -/
theorem C08_blank (cfg : Cfg) (s : Str) (h : ∀ c ∈ s, WhiteSpace c) :
    (parse cfg s : Out ParserError (AST F)) = .err .emptyExpr := by
  unfold parse
  rw [stripBlanks_nil fun c hc => (isWhitespace_iff c).2 (h c hc), parseInner_eq]
  rfl

example : (parse .default "2*((3+4)".toList : Out ParserError (AST F)) = .err .unmatchedOpenDelimiter :=
  C08_open _ _ (by decide)

/-! ## C16 -/

section
omit [FArith F]

omit [UTable] in
theorem isOpOrEq_iff (c : Char) : isOpOrEq c = true ↔ c ∈ nameForbidden := by
  simp [isOpOrEq, nameForbidden, or_assoc]

omit [UTable] in
theorem braces_append (s t : Str) : braces (s ++ t) = braces s + braces t := by
  simp only [braces, List.count_append]; omega

omit [UTable] in
theorem braces_single (c : Char) :
    braces [c] = (if c = '{' then 1 else if c = '}' then -1 else 0) := by
  simp only [braces, List.count_cons, List.count_nil]
  by_cases h1 : c = '{'
  · subst h1; simp
  · by_cases h2 : c = '}'
    · subst h2; simp
    · simp [h1, h2]

theorem validNameLoop_iff (s : Str) (d : Int) (prev : Char) :
    validNameLoop s d prev = true ↔
      ∀ i c, s[i]? = some c → d + braces (s.take (i + 1)) = 0 →
        c ∉ nameForbidden ∧ (UTable.isNumeric c = true → (prev :: s)[i]? = some '_') := by
  induction s generalizing d prev with
  | nil => simp [validNameLoop]
  | cons x s ih =>
    have hd : (if (x == '}') = true then (if (x == '{') = true then d + 1 else d) - 1
        else (if (x == '{') = true then d + 1 else d)) = d + braces [x] := by
      rw [braces_single]
      by_cases h1 : x = '{'
      · subst h1; simp
      · by_cases h2 : x = '}'
        · subst h2; simp; omega
        · simp [h1, h2]
    have hstep : validNameLoop (x :: s) d prev = true ↔
        (d + braces [x] = 0 → x ∉ nameForbidden ∧ (UTable.isNumeric x = true → prev = '_')) ∧
          validNameLoop s (d + braces [x]) x = true := by
      rw [validNameLoop]
      simp only [hd]
      by_cases h0 : d + braces [x] = 0
      · by_cases hop : x ∈ nameForbidden
        · have h1 := (isOpOrEq_iff x).2 hop
          rw [h0, h1]
          simp [hop]
        · have h1 : isOpOrEq x = false := by
            cases h : isOpOrEq x with
            | false => rfl
            | true => exact absurd ((isOpOrEq_iff x).1 h) hop
          rw [h0, h1]
          by_cases hn : UTable.isNumeric x = true
          · rw [hn]
            by_cases hp : prev = '_'
            · simp [hp, hop]
            · simp [hp, hop]
          · simp [hn, hop]
      · simp [h0]
    rw [hstep, ih]
    constructor
    · rintro ⟨h1, h2⟩ i c hi hb
      cases i with
      | zero =>
        have hx : x = c := by simpa using hi
        subst hx
        have := h1 (by simpa using hb)
        exact ⟨this.1, fun hn => by simp [this.2 hn]⟩
      | succ i =>
        have hb' : d + braces [x] + braces (s.take (i + 1)) = 0 := by
          rw [List.take_succ_cons] at hb
          have : braces (x :: s.take (i + 1)) = braces [x] + braces (s.take (i + 1)) := braces_append [x] _
          omega
        have := h2 i c (by simpa using hi) hb'
        exact ⟨this.1, fun hn => by simpa using this.2 hn⟩
    · intro h
      refine ⟨fun hb => ?_, fun i c hi hb => ?_⟩
      · have := h 0 x (by simp) (by simpa using hb)
        exact ⟨this.1, fun hn => by simpa using this.2 hn⟩
      · have hb' : d + braces ((x :: s).take (i + 1 + 1)) = 0 := by
          rw [List.take_succ_cons]
          have : braces (x :: s.take (i + 1)) = braces [x] + braces (s.take (i + 1)) := braces_append [x] _
          omega
        have := h (i + 1) c (by simpa using hi) hb'
        exact ⟨this.1, fun hn => by simpa using this.2 hn⟩

/-- **C16.** On every non-empty string `is_valid_var_name` returns (no panic, no error), and it accepts
exactly the valid names. -/
theorem C16_valid_name {ε : Type} (s : Str) (h : s ≠ []) :
    ∃ b : Bool, (isValidVarName s : Out ε Bool) = .ok b ∧ (b = true ↔ ValidName s) := by
  obtain ⟨c, r, rfl⟩ := List.exists_cons_of_ne_nil h
  unfold isValidVarName
  rw [idx_lt (by simp), Out.ok_bind, List.getElem_cons_zero]
  by_cases hc : UTable.isAlphabetic c = true ∨ c = '\\'
  · have : (!UTable.isAlphabetic c && c != '\\') = false := by
      rcases hc with hc | hc <;> simp [hc]
    rw [this]
    refine ⟨_, rfl, ?_⟩
    rw [validNameLoop_iff]
    unfold ValidName
    constructor
    · intro h
      refine ⟨⟨c, r, rfl, hc⟩, fun i d hi hb => ?_⟩
      have := h i d hi (by omega)
      refine ⟨this.1, fun hn => ?_⟩
      have hu := this.2 hn
      cases i with
      | zero => simp at hu
      | succ j => exact ⟨j, rfl, by simpa using hu⟩
    · rintro ⟨_, h⟩ i d hi hb
      have := h i d hi (by omega)
      refine ⟨this.1, fun hn => ?_⟩
      obtain ⟨j, rfl, hj⟩ := this.2 hn
      simpa using hj
  · have : (!UTable.isAlphabetic c && c != '\\') = true := by
      simp only [not_or] at hc
      simp [hc.1, hc.2]
    rw [this]
    refine ⟨false, rfl, ?_⟩
    simp only [Bool.false_eq_true, false_iff]
    rintro ⟨⟨c', r', he, hc'⟩, _⟩
    cases he
    exact hc hc'

/-- **C16** (the exception): on the empty string it panics. -/
theorem C16_empty_panics {ε : Type} : (isValidVarName [] : Out ε Bool) = .panic := rfl

theorem nameOk_iff (s : Str) : NameOk s ↔ ValidName s := by
  unfold NameOk
  constructor
  · intro h
    have hne : s ≠ [] := by rintro rfl; cases h
    obtain ⟨b, hb, hv⟩ := C16_valid_name (ε := ParserError) s hne
    rw [hb] at h
    cases h
    exact hv.1 rfl
  · intro h
    have hne : s ≠ [] := by
      rintro rfl
      obtain ⟨c, r, he, _⟩ := h.1
      cases he
    obtain ⟨b, hb, hv⟩ := C16_valid_name (ε := ParserError) s hne
    rw [hb, hv.2 h]

end

example : letI := UTable.ascii; (isValidVarName "x_1{a+b}".toList : Out ParserError Bool) = .ok true := by decide
example : letI := UTable.ascii; (isValidVarName "x1".toList : Out ParserError Bool) = .ok false := by decide

/-! ## C06, C11 -/

section
omit [UTable]
theorem mem_stripBlanks {c : Char} {s : Str} (h : c ∈ stripBlanks s) : c ∈ s := by
  unfold stripBlanks trim at h
  have h := (List.mem_filter.1 h).1
  rw [List.mem_reverse] at h
  have h := (List.dropWhile_sublist _).subset h
  rw [List.mem_reverse] at h
  exact (List.dropWhile_sublist _).subset h

theorem ascii_stripBlanks {s : Str} (h : Ascii s) : Ascii (stripBlanks s) :=
  fun c hc => h c (mem_stripBlanks hc)
end

omit [UTable] [FArith F] in
theorem WFTree.mono {V W : Str → Prop} (h : ∀ n, V n → W n) {a : AST F} (ha : WFTree V a) : WFTree W a := by
  induction ha with
  | scalar s => exact .scalar s
  | vector v h1 _ ih => exact .vector v h1 ih
  | matrix m n h1 h2 h3 _ ih => exact .matrix m n h1 h2 h3 ih
  | list l h1 _ ih => exact .list l h1 ih
  | «variable» n hn => exact .variable n (h n hn)
  | function n args hn h1 _ ih => exact .function n args (h n hn) h1 ih
  | simple op l r _ _ ih1 ih2 => exact .simple op l r ih1 ih2
  | integral e x lo hi _ _ _ ih1 ih2 ih3 => exact .integral e x lo hi ih1 ih2 ih3
  | derivative e x a _ _ ih1 ih2 => exact .derivative e x a ih1 ih2
  | equation eqs vars _ _ ih1 ih2 => exact .equation eqs vars ih1 ih2

/-- **C06**: parsing an ASCII text never panics. -/
theorem C06_no_panic_ascii (cfg : Cfg) (s : Str) (h : Ascii s) :
    (parse cfg s : Out ParserError (AST F)) ≠ .panic := by
  have := parseInner_ind (F := F) cfg Ascii (fun s t hs ht c hc => hs c (ht hc))
    (fun x => Out.Safe (WFTree NameOk) x) (.err .emptyExpr) trivial
    (fun rec hrec s hs => parseStep_post hrec fun _ => .inl hs) (stripBlanks s) (ascii_stripBlanks h)
  exact Out.Safe.ne_panic this

/-- **C06**: nor does parsing a text of any characters without `[` and `(`. -/
theorem C06_no_panic_plain (cfg : Cfg) (s : Str) (h : ∀ c ∈ s, c ≠ '[' ∧ c ≠ '(') :
    (parse cfg s : Out ParserError (AST F)) ≠ .panic := by
  have := parseInner_ind (F := F) cfg (fun s => ∀ c ∈ s, c ≠ '[' ∧ c ≠ '(') (fun s t hs ht c hc => hs c (ht hc))
    (fun x => Out.Safe (WFTree NameOk) x) (.err .emptyExpr) trivial
    (fun rec hrec s hs => parseStep_post hrec fun _ => .inr ⟨fun hm => (hs _ hm).1 rfl, fun hm => (hs _ hm).2 rfl⟩)
    (stripBlanks s) (fun c hc => h c (mem_stripBlanks hc))
  exact Out.Safe.ne_panic this

example : ∀ c ∈ "2*ä^ö+|é|".toList, c ≠ '[' ∧ c ≠ '(' := by decide

/-- **C06** (the claim for all texts is false): `[ä]` and `äöü(x)` make the parser panic, whatever the
classification of non-ASCII characters. -/
theorem C06_no_panic_false (cfg : Cfg) :
    (parse cfg "[ä]".toList : Out ParserError (AST F)) = .panic ∧
    (parse cfg "äöü(x)".toList : Out ParserError (AST F)) = .panic := by
  have h1 : UTable.isAlphabetic '[' = false := UTable.alpha_ascii '[' (by decide)
  constructor
  · have hs : stripBlanks "[ä]".toList = ['[', 'ä', ']'] := by decide
    unfold parse
    rw [hs, parseInner_eq]
    have hsp : splitOp ['[', 'ä', ']'] = none := by rfl
    simp [parseStep, checkLoop, hsp, parseFunction, functionLookUp, startsWith, parseAdvanced, parseAtom,
      idx, Out.unwrap, h1, parseValue, byteLen, Char.utf8Size, List.isPrefixOf]
  · have hs : stripBlanks "äöü(x)".toList = ['ä', 'ö', 'ü', '(', 'x', ')'] := by decide
    unfold parse
    rw [hs, parseInner_eq]
    have hsp : splitOp ['ä', 'ö', 'ü', '(', 'x', ')'] = none := by rfl
    simp [parseStep, checkLoop, hsp, parseFunction, functionLookUp, startsWith, parseAdvanced, parseAtom,
      idx, Out.unwrap, byteLen, Char.utf8Size, List.isPrefixOf, findParen, slice]

/-- **C11.** Every tree returned by the parser is well formed: non-empty vectors, lists and argument
lists, non-empty rectangular matrices, valid variable and function names; for every text. -/
theorem C11_wellformed (cfg : Cfg) (s : Str) (a : AST F) (h : parse cfg s = .ok a) : WFTree ValidName a := by
  have := parseInner_ind (F := F) cfg (fun _ => True) (fun _ _ _ _ => trivial)
    (fun x => Out.Post False (WFTree NameOk) x) (.err .emptyExpr) trivial
    (fun rec hrec s _ => parseStep_post hrec fun h => h.elim) (stripBlanks s) trivial
  exact WFTree.mono (fun n => (nameOk_iff n).1) (this.of_ok h)

end MUL
