import Verif.Proofs.Scan
import Verif.Spec.Grammar
/-!
# Lemmas for C09: which operators the scan finds in the text of an expression
-/

set_option linter.unusedSimpArgs false

namespace MUL
open Spec

/-! ## lists of texts -/

theorem textAll_eq (es : List Ex) : textAll es = es.map Ex.text := by
  induction es with
  | nil => rfl
  | cons e es ih => simp [textAll, ih]

theorem textRows_eq (rows : List (List Ex)) :
    textRows rows = rows.map fun r => ['['] ++ commas (textAll r) ++ [']'] := by
  induction rows with
  | nil => rfl
  | cons e es ih => simp [textRows, ih]

theorem WFAll_iff [UTable] (es : List Ex) : WFAll es ↔ ∀ e ∈ es, e.WF := by
  induction es with
  | nil => simp [WFAll]
  | cons e es ih => simp [WFAll, ih]

theorem WFRows_iff [UTable] (rows : List (List Ex)) : WFRows rows ↔ ∀ r ∈ rows, ∀ e ∈ r, e.WF := by
  induction rows with
  | nil => simp [WFRows]
  | cons e es ih => simp only [WFRows, ih, WFAll_iff, List.forall_mem_cons]

theorem commas_cons_cons (a b : Str) (l : List Str) : commas (a :: b :: l) = a ++ ',' :: commas (b :: l) := by
  simp [commas, List.intercalate, List.intersperse_cons_cons]

theorem commas_single (a : Str) : commas [a] = a := by
  simp [commas, List.intercalate]

/-! ## balanced pieces of text -/

/-- Texts that can stand as an argument: balanced delimiters of each kind, no comma at the top level,
ASCII, no white space, not empty. -/
structure Good (s : Str) : Prop where
  ne : s ≠ []
  ascii : Ascii s
  noWs : ∀ c ∈ s, isWhitespace c = false
  p : ∀ j, 0 ≤ parens (s.take j)
  p0 : parens s = 0
  b : ∀ j, 0 ≤ brackets (s.take j)
  b0 : brackets s = 0
  k : ∀ j, 0 ≤ braces (s.take j)
  k0 : braces s = 0
  comma : ∀ i, s[i]? = some ',' → 0 < parens (s.take i) + brackets (s.take i) + braces (s.take i)

theorem depth_eq (s : Str) : depth s = parens s + brackets s + braces s := by
  have h1 : ∀ s : Str, (s.countP fun c => c == '(' || c == '[' || c == '{') =
      s.count '(' + s.count '[' + s.count '{' := by
    intro s
    induction s with
    | nil => rfl
    | cons c s ih =>
      simp only [List.countP_cons, List.count_cons, ih]
      by_cases h1 : c = '('
      · subst h1; simp; omega
      · by_cases h2 : c = '['
        · subst h2; simp; omega
        · by_cases h3 : c = '{'
          · subst h3; simp; omega
          · simp [h1, h2, h3]
  have h2 : ∀ s : Str, (s.countP fun c => c == ')' || c == ']' || c == '}') =
      s.count ')' + s.count ']' + s.count '}' := by
    intro s
    induction s with
    | nil => rfl
    | cons c s ih =>
      simp only [List.countP_cons, List.count_cons, ih]
      by_cases h1 : c = ')'
      · subst h1; simp; omega
      · by_cases h2 : c = ']'
        · subst h2; simp; omega
        · by_cases h3 : c = '}'
          · subst h3; simp; omega
          · simp [h1, h2, h3]
  unfold depth parens brackets braces
  rw [h1, h2]
  omega

/-- Splitting at the first top-level comma after a good piece. -/
theorem splitTop_piece (s : Str) (d : Int) (rest : Str)
    (hd : d + depth s = 0) (hc : ∀ i, s[i]? = some ',' → d + depth (s.take i) ≠ 0) :
    splitTop s d = (s, []) ∧
    splitTop (s ++ ',' :: rest) d = (s, (splitTop rest 0).1 :: (splitTop rest 0).2) := by
  induction s generalizing d with
  | nil =>
    have : d = 0 := by have : depth [] = 0 := rfl; omega
    subst this
    refine ⟨rfl, ?_⟩
    rw [List.nil_append, splitTop]
    have : depthOf ',' = 0 := by decide
    rw [this]
    simp
  | cons c s ih =>
    have hcons : depth (c :: s) = depthOf c + depth s := by
      have := depth_append [c] s
      rw [depth_single] at this
      exact this
    have h0 : ¬ (d = 0 ∧ c = ',') := by
      rintro ⟨rfl, rfl⟩
      exact hc 0 (by simp) rfl
    have := ih (d + depthOf c) (by omega) (by
      intro i hi
      have := hc (i + 1) (by simpa using hi)
      rw [List.take_succ_cons] at this
      have h2 := depth_append [c] (s.take i)
      rw [depth_single] at h2
      rw [List.singleton_append] at h2
      omega)
    constructor
    · rw [splitTop, if_neg h0, this.1]
    · rw [List.cons_append, splitTop, if_neg h0, this.2]

theorem Good.depth0 {s : Str} (h : Good s) : depth s = 0 := by
  rw [depth_eq, h.p0, h.b0, h.k0]; rfl

theorem Good.comma' {s : Str} (h : Good s) : ∀ i, s[i]? = some ',' → 0 + depth (s.take i) ≠ 0 := by
  intro i hi
  have := h.comma i hi
  rw [depth_eq]; omega

/-- Reading back a list of good arguments. -/
theorem getArgs_commas (ps : List Str) (hne : ps ≠ [])
    (h : ∀ p ∈ ps, depth p = 0 ∧ ∀ i, p[i]? = some ',' → 0 + depth (p.take i) ≠ 0) :
    getArgs (commas ps) = ps := by
  rw [getArgs_eq]
  induction ps with
  | nil => exact absurd rfl hne
  | cons a ps ih =>
    have ha := h a (by simp)
    cases ps with
    | nil =>
      rw [commas_single]
      rw [(splitTop_piece a 0 [] (by rw [ha.1]; rfl) ha.2).1]
    | cons b ps =>
      rw [commas_cons_cons, (splitTop_piece a 0 _ (by rw [ha.1]; rfl) ha.2).2]
      simp only
      rw [ih (by simp) fun p hp => h p (by simp [hp])]

theorem getArgs_good (ps : List Str) (hne : ps ≠ []) (h : ∀ p ∈ ps, Good p) : getArgs (commas ps) = ps :=
  getArgs_commas ps hne fun p hp => ⟨(h p hp).depth0, (h p hp).comma'⟩

/-- Balanced text, commas allowed anywhere. -/
structure Bal (s : Str) : Prop where
  ascii : Ascii s
  noWs : ∀ c ∈ s, isWhitespace c = false
  p : ∀ j, 0 ≤ parens (s.take j)
  p0 : parens s = 0
  b : ∀ j, 0 ≤ brackets (s.take j)
  b0 : brackets s = 0
  k : ∀ j, 0 ≤ braces (s.take j)
  k0 : braces s = 0

theorem Good.bal {s : Str} (h : Good s) : Bal s := ⟨h.ascii, h.noWs, h.p, h.p0, h.b, h.b0, h.k, h.k0⟩

theorem Bal.append {s t : Str} (hs : Bal s) (ht : Bal t) : Bal (s ++ t) where
  ascii := fun c hc => (List.mem_append.1 hc).elim (hs.ascii c) (ht.ascii c)
  noWs := fun c hc => (List.mem_append.1 hc).elim (hs.noWs c) (ht.noWs c)
  p := fun j => by
    rw [List.take_append, parens_append]
    have := hs.p j; have := ht.p (j - s.length); omega
  p0 := by rw [parens_append, hs.p0, ht.p0]; rfl
  b := fun j => by
    rw [List.take_append, brackets_append]
    have := hs.b j; have := ht.b (j - s.length); omega
  b0 := by rw [brackets_append, hs.b0, ht.b0]; rfl
  k := fun j => by
    rw [List.take_append, bracesAppend]
    have := hs.k j; have := ht.k (j - s.length); omega
  k0 := by rw [bracesAppend, hs.k0, ht.k0]; rfl

/-- A plain character: ASCII, no delimiter, no white space. -/
theorem bal_char (c : Char) (h1 : c.val < 128) (h2 : isWhitespace c = false)
    (h3 : c ∉ ['(', ')', '[', ']', '{', '}']) : Bal [c] := by
  simp only [List.mem_cons, List.not_mem_nil, or_false, not_or] at h3
  obtain ⟨a1, a2, a3, a4, a5, a6⟩ := h3
  have e1 : parens [c] = 0 := by rw [parens_cons]; simp [a1, a2, parens]
  have e2 : brackets [c] = 0 := by rw [brackets_cons]; simp [a3, a4, brackets]
  have e3 : braces [c] = 0 := by rw [braces_cons]; simp [a5, a6, braces]
  have hp : ∀ j, parens ([c].take j) = 0 ∧ brackets ([c].take j) = 0 ∧ braces ([c].take j) = 0 := by
    intro j
    cases j with
    | zero => exact ⟨rfl, rfl, rfl⟩
    | succ j => simp [e1, e2, e3]
  exact ⟨by simpa [Ascii] using h1, by simpa using h2, fun j => by rw [(hp j).1]; exact Int.le_refl 0, e1,
    fun j => by rw [(hp j).2.1]; exact Int.le_refl 0, e2, fun j => by rw [(hp j).2.2]; exact Int.le_refl 0, e3⟩

theorem bal_nil : Bal [] := by
  refine ⟨by simp [Ascii], by simp, ?_, rfl, ?_, rfl, ?_, rfl⟩ <;> intro j <;>
    (rw [List.take_nil]; exact Int.le_refl 0)

theorem bal_plain (s : Str) (h : ∀ c ∈ s, c.val < 128 ∧ isWhitespace c = false ∧ c ∉ ['(', ')', '[', ']', '{', '}']) :
    Bal s := by
  induction s with
  | nil => exact bal_nil
  | cons c s ih =>
    have h0 := h c (by simp)
    exact (bal_char c h0.1 h0.2.1 h0.2.2).append (ih fun c hc => h c (by simp [hc]))

theorem bal_commas (ps : List Str) (h : ∀ p ∈ ps, Bal p) : Bal (commas ps) := by
  induction ps with
  | nil => exact bal_nil
  | cons a ps ih =>
    cases ps with
    | nil => rw [commas_single]; exact h a (by simp)
    | cons b ps =>
      rw [commas_cons_cons]
      exact (h a (by simp)).append ((bal_char ',' (by decide) (by decide) (by decide)).append
        (ih fun p hp => h p (by simp [hp])))

/-- The three kinds of groups. -/
inductive Group : Char → Char → Prop
  | paren : Group '(' ')'
  | bracket : Group '[' ']'
  | brace : Group '{' '}'

/-- Total depth of a prefix of a group is positive except at the ends. -/
theorem group_depths {o c : Char} (hg : Group o c) {s : Str} (hs : Bal s) (j : Nat) (h0 : 0 < j)
    (hj : j ≤ s.length + 1) :
    0 ≤ parens ((o :: (s ++ [c])).take j) ∧ 0 ≤ brackets ((o :: (s ++ [c])).take j) ∧
    0 ≤ braces ((o :: (s ++ [c])).take j) ∧
    0 < parens ((o :: (s ++ [c])).take j) + brackets ((o :: (s ++ [c])).take j) + braces ((o :: (s ++ [c])).take j) := by
  obtain ⟨j, rfl⟩ : ∃ i, j = i + 1 := ⟨j - 1, by omega⟩
  have ht : (o :: (s ++ [c])).take (j + 1) = o :: s.take j := by
    rw [List.take_succ_cons, List.take_append_of_le_length (by omega)]
  rw [ht, parens_cons, brackets_cons, braces_cons]
  have := hs.p j; have := hs.b j; have := hs.k j
  cases hg
  · simp; omega
  · simp; omega
  · simp; omega

theorem bal_group {o c : Char} (hg : Group o c) {s : Str} (hs : Bal s) : Bal (o :: (s ++ [c])) := by
  have hfull : parens (o :: (s ++ [c])) = 0 ∧ brackets (o :: (s ++ [c])) = 0 ∧ braces (o :: (s ++ [c])) = 0 := by
    rw [parens_cons, brackets_cons, braces_cons, parens_append, brackets_append, bracesAppend, hs.p0, hs.b0, hs.k0]
    cases hg <;> decide
  have hpre : ∀ j, 0 ≤ parens ((o :: (s ++ [c])).take j) ∧ 0 ≤ brackets ((o :: (s ++ [c])).take j) ∧
    0 ≤ braces ((o :: (s ++ [c])).take j) := by
    intro j
    rcases Nat.eq_zero_or_pos j with rfl | h0
    · simp [parens, brackets, braces]
    · by_cases hj : j ≤ s.length + 1
      · have := group_depths hg hs j h0 hj
        exact ⟨this.1, this.2.1, this.2.2.1⟩
      · rw [List.take_of_length_le (by simp; omega), hfull.1, hfull.2.1, hfull.2.2]
        simp
  refine ⟨?_, ?_, fun j => (hpre j).1, hfull.1, fun j => (hpre j).2.1, hfull.2.1, fun j => (hpre j).2.2, hfull.2.2⟩
  · intro x hx
    simp only [List.mem_cons, List.mem_append, List.not_mem_nil, or_false] at hx
    rcases hx with rfl | hx | rfl
    · cases hg <;> decide
    · exact hs.ascii x hx
    · cases hg <;> decide
  · intro x hx
    simp only [List.mem_cons, List.mem_append, List.not_mem_nil, or_false] at hx
    rcases hx with rfl | hx | rfl
    · cases hg <;> decide
    · exact hs.noWs x hx
    · cases hg <;> decide

/-- No top-level comma. -/
def NoTopComma (s : Str) : Prop :=
  ∀ i, s[i]? = some ',' → 0 < parens (s.take i) + brackets (s.take i) + braces (s.take i)

theorem noTopComma_group {o c : Char} (hg : Group o c) {s : Str} (hs : Bal s) : NoTopComma (o :: (s ++ [c])) := by
  intro i hi
  rcases Nat.eq_zero_or_pos i with rfl | h0
  · simp at hi; subst hi; cases hg
  · by_cases hj : i ≤ s.length + 1
    · exact (group_depths hg hs i h0 hj).2.2.2
    · have hlen : (o :: (s ++ [c])).length = s.length + 2 := by simp
      have : i < (o :: (s ++ [c])).length := (List.getElem?_eq_some_iff.1 hi).1
      omega

theorem noTopComma_append {s t : Str} (hs : Bal s) (h1 : NoTopComma s) (h2 : NoTopComma t) :
    NoTopComma (s ++ t) := by
  intro i hi
  by_cases h : i < s.length
  · rw [List.take_append_of_le_length (by omega)]
    exact h1 i (by rwa [List.getElem?_append_left h] at hi)
  · have hi' : t[i - s.length]? = some ',' := by
      rwa [List.getElem?_append_right (by omega)] at hi
    have := h2 _ hi'
    rw [List.take_append, List.take_of_length_le (by omega), parens_append, brackets_append, bracesAppend,
      hs.p0, hs.b0, hs.k0]
    omega

theorem noTopComma_plain {s : Str} (h : ',' ∉ s) : NoTopComma s := by
  intro i hi
  exact absurd (List.mem_of_getElem? hi) h

theorem Bal.good {s : Str} (h : Bal s) (hne : s ≠ []) (hc : NoTopComma s) : Good s :=
  ⟨hne, h.ascii, h.noWs, h.p, h.p0, h.b, h.b0, h.k, h.k0, hc⟩

theorem Good.append {s t : Str} (hs : Good s) (ht : Good t) : Good (s ++ t) :=
  (hs.bal.append ht.bal).good (by simp [hs.ne]) (noTopComma_append hs.bal hs.comma ht.comma)

/-! ## names and numerals -/

theorem isDigit_ascii {c : Char} (h : c.isDigit = true) :
    c.val < 128 ∧ isWhitespace c = false ∧ c ∉ ['(', ')', '[', ']', '{', '}'] ∧ c ≠ ',' ∧ c ≠ '=' := by
  simp only [Char.isDigit, Bool.and_eq_true, decide_eq_true_eq] at h
  have h1 := h.1; have h2 := h.2
  rw [ge_iff_le, UInt32.le_iff_toNat_le] at h1
  rw [UInt32.le_iff_toNat_le] at h2
  simp at h1 h2
  refine ⟨?_, ?_, ?_, ?_, ?_⟩
  · rw [UInt32.lt_iff_toNat_lt]; simp; omega
  · simp only [isWhitespace, Char.toNat]
    simp
    omega
  · simp only [List.mem_cons, List.not_mem_nil, or_false, not_or]
    refine ⟨?_, ?_, ?_, ?_, ?_, ?_⟩ <;> (rintro rfl; revert h1 h2; decide)
  · rintro rfl; revert h1 h2; decide
  · rintro rfl; revert h1 h2; decide

variable [UTable]

theorem validName_head {n : Str} (h : ValidName n) : ∃ c r, n = c :: r ∧ (UTable.isAlphabetic c = true ∨ c = '\\') :=
  h.1

theorem nameShape_ne_nil {n : Str} (h : NameShape n) : n ≠ [] := by
  obtain ⟨c, r, rfl, _⟩ := validName_head h.1
  simp

theorem nameShape_bal {n : Str} (h : NameShape n) : Bal n := by
  obtain ⟨_, ha, hc, hk, hk0⟩ := h
  have hnone : ∀ c ∈ ['(', ')', '[', ']'], ∀ m : Str, m ⊆ n → m.count c = 0 := by
    intro c hcc m hm
    rw [List.count_eq_zero]
    intro hmem
    have := hc c (hm hmem)
    simp only [List.mem_cons, List.not_mem_nil, or_false] at hcc
    rcases hcc with rfl | rfl | rfl | rfl <;> simp at this
  have hp : ∀ m : Str, m ⊆ n → parens m = 0 ∧ brackets m = 0 := by
    intro m hm
    unfold parens brackets
    rw [hnone '(' (by simp) m hm, hnone ')' (by simp) m hm, hnone '[' (by simp) m hm, hnone ']' (by simp) m hm]
    simp
  refine ⟨ha, ?_, fun j => ?_, (hp n (List.Subset.refl _)).1, fun j => ?_, (hp n (List.Subset.refl _)).2, hk, hk0⟩
  · intro c hcm
    have h1 := hc c hcm
    have h2 := ha c hcm
    rw [UInt32.lt_iff_toNat_lt] at h2
    simp only [UInt32.toNat_ofNat] at h2
    cases hw : isWhitespace c with
    | false => rfl
    | true =>
      exfalso
      have h3 : c.toNat = 9 ∨ c.toNat = 10 ∨ c.toNat = 11 ∨ c.toNat = 12 ∨ c.toNat = 13 ∨ c.toNat = 32 := by
        simp only [isWhitespace, Bool.or_eq_true, Bool.and_eq_true, decide_eq_true_eq, beq_iff_eq] at hw
        have : c.toNat < 128 := h2
        omega
      have key : ∀ d : Char, c.toNat = d.toNat → c = d := fun d hd => Char.ext (UInt32.toNat_inj.1 hd)
      apply h1
      rcases h3 with h3 | h3 | h3 | h3 | h3 | h3
      · rw [key '\t' h3]; simp
      · rw [key '\n' h3]; simp
      · rw [key '\x0b' h3]; simp
      · rw [key '\x0c' h3]; simp
      · rw [key '\r' h3]; simp
      · rw [key ' ' h3]; simp
  · rw [(hp _ (List.take_subset j n)).1]; exact Int.le_refl 0
  · rw [(hp _ (List.take_subset j n)).2]; exact Int.le_refl 0

theorem nameShape_good {n : Str} (h : NameShape n) : Good n :=
  (nameShape_bal h).good (nameShape_ne_nil h) (noTopComma_plain fun hc => by simpa using h.2.2.1 ',' hc)

/-- A character does not start a hidden multiplication. -/
theorem isHiddenMult_false {cs : Str} {i : Nat} {last c : Char}
    (h : (last.isDigit = false ∧ last ≠ ')') ∨
      (UTable.isAlphabetic c = false ∧ c ≠ '\\' ∧ c ≠ '(' ∧ c ≠ '[')) : isHiddenMult cs i last c = false := by
  unfold isHiddenMult
  rcases h with ⟨h1, h2⟩ | ⟨h1, h2, h3, h4⟩
  · simp [h1, h2]
  · simp [h1, h2, h3, h4]

omit [UTable] in
theorem getElem?_pre (pre s post : Str) (j : Nat) (h : j < s.length) :
    (pre ++ s ++ post)[pre.length + j]? = s[j]? := by
  rw [List.append_assoc, List.getElem?_append_right (by omega), Nat.add_sub_cancel_left,
    List.getElem?_append_left h]

omit [UTable] in
theorem lastOr_take (d : Char) (s : Str) (j : Nat) (h0 : 0 < j) (hj : j ≤ s.length) :
    s[j - 1]? = some (lastOr d (s.take j)) := by
  unfold lastOr
  rw [List.getLast?_eq_getElem?]
  have hl : (s.take j).length = j := by simp; omega
  rw [hl]
  have : (s.take j)[j - 1]? = s[j - 1]? := by
    rw [List.getElem?_take_of_lt (by omega)]
  rw [this]
  have hlt : j - 1 < s.length := by omega
  simp [hlt]

/-- Behind any part of a name at brace depth zero no hidden multiplication is found. -/
theorem name_noHidden {n : Str} (hn : NameShape n) (pre post : Str) (j : Nat) (hj : j ≤ n.length)
    (hk : braces (n.take j) = 0) (c : Char) :
    isHiddenMult (pre ++ n ++ post) (pre.length + j) (lastOr '\\' (n.take j)) c = false := by
  rcases Nat.eq_zero_or_pos j with rfl | h0
  · apply isHiddenMult_false
    left
    simp
  · have hlast := lastOr_take '\\' n j h0 hj
    generalize lastOr '\\' (n.take j) = last at hlast
    have hmem := List.mem_of_getElem? hlast
    by_cases hd : last.isDigit = true
    · -- a digit: an underscore stands before it
      have hnum : UTable.isNumeric last = true := by
        rw [UTable.numeric_ascii last (hn.2.1 last hmem)]; exact hd
      have hv := (hn.1.2 (j - 1) last hlast (by rw [Nat.sub_add_cancel h0]; exact hk)).2 hnum
      obtain ⟨m, hm, hu⟩ := hv
      have hm0 : m ≠ 0 := by
        rintro rfl
        obtain ⟨c0, r, rfl, hc0⟩ := validName_head hn.1
        simp at hu
        subst hu
        have : UTable.isAlphabetic '_' = false := UTable.alpha_ascii '_' (by decide)
        rw [this] at hc0
        rcases hc0 with h | h
        · cases h
        · revert h; decide
      unfold isHiddenMult
      have hidx : (pre ++ n ++ post)[pre.length + j - 2]? = some '_' := by
        have : pre.length + j - 2 = pre.length + m := by omega
        rw [this, getElem?_pre _ _ _ _ (by omega)]
        exact hu
      have hpos : ((pre.length + j : Nat) : Int) - 2 > 0 := by omega
      rw [hidx]
      simp only [hpos, decide_true, beq_self_eq_true, Bool.and_self, if_true, ite_self]
    · apply isHiddenMult_false
      left
      refine ⟨by simpa using hd, ?_⟩
      rintro rfl
      have := hn.2.2.1 _ hmem
      simp at this

omit [UTable] in
theorem getOpSymbol_forbidden {c : Char} {o : SimpleOp} (h : getOpSymbol c = some o) : c ∈ nameForbidden := by
  unfold getOpSymbol at h
  simp only [nameForbidden, List.mem_cons, List.not_mem_nil, or_false]
  repeat' split at h
  all_goals simp_all

/-- If nothing is recorded at any character, nothing is recorded. -/
theorem opsLoop_nil (cs s : Str) (i : Nat) (last : Char) (p b k : Int)
    (h : ∀ j c, s[j]? = some c → scanChar cs (i + j) (lastOr last (s.take j)) c (p + parens (s.take j))
      (b + brackets (s.take j)) (k + braces (s.take j)) = []) :
    opsLoop cs s i last p b k = [] := by
  induction s generalizing i last p b k with
  | nil => rfl
  | cons c s ih =>
    rw [opsLoop_cons, ih]
    · have := h 0 c (by simp)
      have e1 : parens [] = 0 := rfl
      have e2 : brackets [] = 0 := rfl
      have e3 : braces [] = 0 := rfl
      simp only [List.take_zero, e1, e2, e3, Int.add_zero, Nat.add_zero, lastOr_nil] at this
      rw [this]; rfl
    · intro j x hj
      have := h (j + 1) x (by simpa using hj)
      rw [List.take_succ_cons, lastOr_cons] at this
      have h1 : parens (c :: s.take j) = parens [c] + parens (s.take j) := parens_append [c] _
      have h2 : brackets (c :: s.take j) = brackets [c] + brackets (s.take j) := brackets_append [c] _
      have h3 : braces (c :: s.take j) = braces [c] + braces (s.take j) := bracesAppend [c] _
      rw [h1, h2, h3, ← Int.add_assoc, ← Int.add_assoc, ← Int.add_assoc] at this
      have e : i + 1 + j = i + (j + 1) := by omega
      rw [e]
      exact this

theorem scanChar_nested {cs : Str} {i : Nat} {last c : Char} {p b k : Int}
    (h : ¬ (p = 0 ∧ b = 0 ∧ k = 0)) : scanChar cs i last c p b k = [] := by
  have hf : (p == 0 && b == 0 && k == 0) = false := by
    cases hh : (p == 0 && b == 0 && k == 0) with
    | false => rfl
    | true =>
      simp only [Bool.and_eq_true, beq_iff_eq] at hh
      exact absurd ⟨hh.1.1, hh.1.2, hh.2⟩ h
  simp only [scanChar, hf, Bool.false_and]
  cases getOpSymbol c <;> simp

theorem scanChar_plain {cs : Str} {i : Nat} {last c : Char} {p b k : Int}
    (h : isHiddenMult cs i last c = false) (h' : getOpSymbol c = none) : scanChar cs i last c p b k = [] := by
  simp [scanChar, h, h']

/-- No operator is found in a name. -/
theorem name_ops {n : Str} (hn : NameShape n) (pre post : Str) :
    opsLoop (pre ++ n ++ post) n pre.length '\\' 0 0 0 = [] := by
  apply opsLoop_nil
  intro j c hj
  have hlt : j < n.length := (List.getElem?_eq_some_iff.1 hj).1
  by_cases hk : braces (n.take j) = 0
  · apply scanChar_plain (name_noHidden hn pre post j (by omega) hk c)
    cases ho : getOpSymbol c with
    | none => rfl
    | some o =>
      exfalso
      have hf := getOpSymbol_forbidden ho
      have hnb : braces (n.take (j + 1)) = 0 := by
        rw [List.take_add_one, bracesAppend, hk, hj]
        simp only [Option.toList_some]
        rw [braces_cons]
        have : c ≠ '{' ∧ c ≠ '}' := by
          constructor <;> (rintro rfl; simp [getOpSymbol] at ho)
        simp [this.1, this.2, braces]
      exact (hn.1.2 j c hj hnb).1 hf
  · exact scanChar_nested fun h => hk (by have := h.2.2; omega)

/-- No operator is found in characters that are no operators and cannot follow a digit as a factor. -/
theorem plain_ops (cs s : Str) (i : Nat) (last : Char)
    (h : ∀ c ∈ s, getOpSymbol c = none ∧ UTable.isAlphabetic c = false ∧ c ≠ '\\' ∧ c ≠ '(' ∧ c ≠ '[') :
    opsLoop cs s i last 0 0 0 = [] := by
  apply opsLoop_nil
  intro j c hj
  have := h c (List.mem_of_getElem? hj)
  exact scanChar_plain (isHiddenMult_false (Or.inr this.2)) this.1

/-- No operator is found in a group. -/
theorem group_ops {o c : Char} (hg : Group o c) {s : Str} (hs : Bal s) (cs : Str) (i : Nat) (last : Char)
    (hh : isHiddenMult cs i last o = false) : opsLoop cs (o :: (s ++ [c])) i last 0 0 0 = [] := by
  rw [opsLoop_cons, scanChar_plain hh (by cases hg <;> decide), List.nil_append]
  apply opsLoop_nested
  intro j hj
  have := group_depths hg hs (j + 1) (by omega) (by simp at hj; omega)
  rw [List.take_succ_cons] at this
  have h1 : parens (o :: (s ++ [c]).take j) = parens [o] + parens ((s ++ [c]).take j) := parens_append [o] _
  have h2 : brackets (o :: (s ++ [c]).take j) = brackets [o] + brackets ((s ++ [c]).take j) := brackets_append [o] _
  have h3 : braces (o :: (s ++ [c]).take j) = braces [o] + braces ((s ++ [c]).take j) := bracesAppend [o] _
  rw [h1, h2, h3] at this
  omega

end MUL
