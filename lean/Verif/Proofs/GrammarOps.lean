import Verif.Proofs.GrammarScan
/-!
# Lemmas for C09: shape of texts, operators found in them
-/

set_option linter.unusedSimpArgs false

namespace MUL
open Spec

/-- Structural induction on concrete syntax. -/
theorem Ex.ind {P : Ex → Prop}
    (num : ∀ ip fp, P (.num ip fp)) (var : ∀ n, P (.var n)) (paren : ∀ e, P e → P (.paren e))
    (fn : ∀ n op e, P e → P (.fn n op e)) (root : ∀ a b, P a → P b → P (.root a b))
    (call : ∀ n args, (∀ e ∈ args, P e) → P (.call n args)) (vec : ∀ es, (∀ e ∈ es, P e) → P (.vec es))
    (mat : ∀ rows, (∀ r ∈ rows, ∀ e ∈ r, P e) → P (.mat rows)) (list : ∀ es, (∀ e ∈ es, P e) → P (.list es))
    (neg : ∀ e, P e → P (.neg e)) (bin : ∀ op l r, P l → P r → P (.bin op l r))
    (integ : ∀ e x lo hi, P e → P lo → P hi → P (.integ e x lo hi))
    (deriv : ∀ e x a, P e → P a → P (.deriv e x a))
    (eqs : ∀ ls rs vars, (∀ e ∈ ls, P e) → (∀ e ∈ rs, P e) → P (.eqs ls rs vars)) : ∀ e, P e
  | .num ip fp => num ip fp
  | .var n => var n
  | .paren e => paren e (Ex.ind num var paren fn root call vec mat list neg bin integ deriv eqs e)
  | .fn n op e => fn n op e (Ex.ind num var paren fn root call vec mat list neg bin integ deriv eqs e)
  | .root a b => root a b (Ex.ind num var paren fn root call vec mat list neg bin integ deriv eqs a)
      (Ex.ind num var paren fn root call vec mat list neg bin integ deriv eqs b)
  | .call n args => call n args fun e _ => Ex.ind num var paren fn root call vec mat list neg bin integ deriv eqs e
  | .vec es => vec es fun e _ => Ex.ind num var paren fn root call vec mat list neg bin integ deriv eqs e
  | .mat rows => mat rows fun r hr e he => Ex.ind num var paren fn root call vec mat list neg bin integ deriv eqs e
  | .list es => list es fun e _ => Ex.ind num var paren fn root call vec mat list neg bin integ deriv eqs e
  | .neg e => neg e (Ex.ind num var paren fn root call vec mat list neg bin integ deriv eqs e)
  | .bin op l r => bin op l r (Ex.ind num var paren fn root call vec mat list neg bin integ deriv eqs l)
      (Ex.ind num var paren fn root call vec mat list neg bin integ deriv eqs r)
  | .integ e x lo hi => integ e x lo hi (Ex.ind num var paren fn root call vec mat list neg bin integ deriv eqs e)
      (Ex.ind num var paren fn root call vec mat list neg bin integ deriv eqs lo)
      (Ex.ind num var paren fn root call vec mat list neg bin integ deriv eqs hi)
  | .deriv e x a => deriv e x a (Ex.ind num var paren fn root call vec mat list neg bin integ deriv eqs e)
      (Ex.ind num var paren fn root call vec mat list neg bin integ deriv eqs a)
  | .eqs ls rs vars => eqs ls rs vars
      (fun e _ => Ex.ind num var paren fn root call vec mat list neg bin integ deriv eqs e)
      (fun e _ => Ex.ind num var paren fn root call vec mat list neg bin integ deriv eqs e)
termination_by e => sizeOf e
decreasing_by
  all_goals simp_wf
  all_goals first
    | omega
    | (have := List.sizeOf_lt_of_mem (by assumption); omega)
    | (have := List.sizeOf_lt_of_mem hr; have := List.sizeOf_lt_of_mem he; omega)

/-! ## names -/

variable [UTable]

theorem nameShape_letters {n : Str} (hne : n ≠ []) (h : ∀ c ∈ n, c.isAlpha = true) : NameShape n := by
  have hα : ∀ c ∈ n, c.val < 128 ∧ c.isDigit = false ∧ 65 ≤ c.toNat ∧ c ≠ '{' ∧ c ≠ '}' ∧ c ≠ '^' ∧ c ≠ '[' ∧ c ≠ ']' := by
    intro c hc
    have hc := h c hc
    have h1 : (65 ≤ c.toNat ∧ c.toNat ≤ 90) ∨ (97 ≤ c.toNat ∧ c.toNat ≤ 122) := by
      simp only [Char.isAlpha, Char.isUpper, Char.isLower, Bool.or_eq_true, Bool.and_eq_true, decide_eq_true_eq] at hc
      simp only [ge_iff_le, UInt32.le_iff_toNat_le] at hc
      exact hc
    refine ⟨?_, ?_, by omega, ?_, ?_, ?_, ?_, ?_⟩
    · rw [UInt32.lt_iff_toNat_lt]; simp; have : c.val.toNat = c.toNat := rfl; omega
    · cases hd : c.isDigit with
      | false => rfl
      | true =>
        simp only [Char.isDigit, Bool.and_eq_true, decide_eq_true_eq, ge_iff_le, UInt32.le_iff_toNat_le] at hd
        have h2 := hd.2
        have : c.val.toNat = c.toNat := rfl
        simp at h2
        omega
    all_goals rintro rfl; revert h1; decide
  have hbr : ∀ m : Str, m ⊆ n → braces m = 0 := by
    intro m hm
    unfold braces
    rw [List.count_eq_zero.2 fun hx => (hα _ (hm hx)).2.2.2.1 rfl,
      List.count_eq_zero.2 fun hx => (hα _ (hm hx)).2.2.2.2.1 rfl]
    rfl
  refine ⟨⟨?_, ?_⟩, fun c hc => (hα c hc).1, ?_, ?_, hbr n (List.Subset.refl _)⟩
  · obtain ⟨c, r, rfl⟩ := List.exists_cons_of_ne_nil hne
    refine ⟨c, r, rfl, Or.inl ?_⟩
    rw [UTable.alpha_ascii c (hα c (by simp)).1]
    exact h c (by simp)
  · intro i c hi _
    have hc := hα c (List.mem_of_getElem? hi)
    constructor
    · intro hf
      simp only [nameForbidden, List.mem_cons, List.not_mem_nil, or_false] at hf
      rcases hf with rfl | rfl | rfl | rfl | rfl | rfl | rfl | rfl | rfl <;> simp at hc
    · intro hn
      rw [UTable.numeric_ascii c hc.1, hc.2.1] at hn
      cases hn
  · intro c hc hf
    have hc := hα c hc
    simp only [List.mem_cons, List.not_mem_nil, or_false] at hf
    rcases hf with rfl | rfl | rfl | rfl | rfl | rfl | rfl | rfl | rfl | rfl | rfl | rfl <;> simp at hc
  · intro j
    rw [hbr _ (List.take_subset j n)]
    exact Int.le_refl 0

theorem builtin_shape {n : Str} {op : SimpleOp} (h : (n, op) ∈ builtins) : NameShape n := by
  simp only [builtins, List.mem_cons, Prod.mk.injEq, List.not_mem_nil, or_false] at h
  rcases h with ⟨rfl, _⟩ | ⟨rfl, _⟩ | ⟨rfl, _⟩ | ⟨rfl, _⟩ | ⟨rfl, _⟩ | ⟨rfl, _⟩ | ⟨rfl, _⟩ | ⟨rfl, _⟩ | ⟨rfl, _⟩ |
    ⟨rfl, _⟩ | ⟨rfl, _⟩ <;> exact nameShape_letters (by decide) (by decide)

/-- A text `name(inner)`. -/
theorem call_good {n s : Str} (hn : NameShape n) (hs : Bal s) : Good (n ++ ['('] ++ s ++ [')']) := by
  have e : n ++ ['('] ++ s ++ [')'] = n ++ ('(' :: (s ++ [')'])) := by simp
  rw [e]
  exact (nameShape_good hn).append
    ((bal_group .paren hs).good (by simp) (noTopComma_group .paren hs))

theorem call_ops {n s : Str} (hn : NameShape n) (hs : Bal s) (pre post : Str) :
    opsLoop (pre ++ (n ++ ['('] ++ s ++ [')']) ++ post) (n ++ ['('] ++ s ++ [')']) pre.length '\\' 0 0 0 = [] := by
  have e : n ++ ['('] ++ s ++ [')'] = n ++ ('(' :: (s ++ [')'])) := by simp
  rw [e, opsLoop_append]
  have h1 := name_ops hn pre (('(' :: (s ++ [')'])) ++ post)
  have ec : pre ++ n ++ (('(' :: (s ++ [')'])) ++ post) = pre ++ (n ++ '(' :: (s ++ [')'])) ++ post := by simp
  rw [ec] at h1
  rw [h1, List.nil_append, (nameShape_bal hn).p0, (nameShape_bal hn).b0, (nameShape_bal hn).k0]
  apply group_ops .paren hs
  have h2 := name_noHidden hn pre (('(' :: (s ++ [')'])) ++ post) n.length (Nat.le_refl _)
    (by rw [List.take_length]; exact (nameShape_bal hn).k0) '('
  rw [ec, List.take_length] at h2
  exact h2

omit [UTable] in
theorem group_good {o c : Char} (hg : Group o c) {s : Str} (hs : Bal s) : Good ([o] ++ s ++ [c]) := by
  have e : [o] ++ s ++ [c] = o :: (s ++ [c]) := by simp
  rw [e]
  exact (bal_group hg hs).good (by simp) (noTopComma_group hg hs)

theorem group_ops' {o c : Char} (hg : Group o c) {s : Str} (hs : Bal s) (pre post : Str) :
    opsLoop (pre ++ ([o] ++ s ++ [c]) ++ post) ([o] ++ s ++ [c]) pre.length '\\' 0 0 0 = [] := by
  have e : [o] ++ s ++ [c] = o :: (s ++ [c]) := by simp
  rw [e]
  exact group_ops hg hs _ _ _ (isHiddenMult_false (Or.inl (by decide)))

/-! ## texts are good -/

omit [UTable] in
theorem binop_good {op : BinOp} {l r : Str} (hl : Good l) (hr : Good r) : Good (l ++ op.text ++ r) := by
  cases op
  all_goals first
    | (have e : BinOp.juxt.text = [] := rfl
       rw [e, List.append_nil]; exact hl.append hr)
    | (refine (hl.append ?_).append hr
       exact (bal_char _ (by decide) (by decide) (by decide)).good (by decide) (noTopComma_plain (by decide)))

omit [UTable] in
theorem num_plain {ip : Str} {fp : Option Str} (h1 : ∀ c ∈ ip, c.isDigit = true)
    (h2 : ∀ f, fp = some f → ∀ c ∈ f, c.isDigit = true) :
    ∀ c ∈ (Ex.num ip fp).text, c.isDigit = true ∨ c = '.' := by
  intro c hc
  simp only [Ex.text, List.mem_append] at hc
  rcases hc with hc | hc
  · exact Or.inl (h1 c hc)
  · cases fp with
    | none => simp at hc
    | some f =>
      simp only [List.mem_cons] at hc
      rcases hc with rfl | hc
      · exact Or.inr rfl
      · exact Or.inl (h2 f rfl c hc)

omit [UTable] in
theorem num_good {ip : Str} {fp : Option Str} (h1 : ∀ c ∈ ip, c.isDigit = true)
    (h2 : ∀ f, fp = some f → ∀ c ∈ f, c.isDigit = true) (h3 : ip ≠ [] ∨ ∃ f, fp = some f ∧ f ≠ []) :
    Good (Ex.num ip fp).text := by
  have hp := num_plain h1 h2
  have hx : ∀ c ∈ (Ex.num ip fp).text, c.val < 128 ∧ isWhitespace c = false ∧ c ∉ ['(', ')', '[', ']', '{', '}'] ∧ c ≠ ',' := by
    intro c hc
    rcases hp c hc with h | rfl
    · have := isDigit_ascii h
      exact ⟨this.1, this.2.1, this.2.2.1, this.2.2.2.1⟩
    · decide
  refine (bal_plain _ fun c hc => ⟨(hx c hc).1, (hx c hc).2.1, (hx c hc).2.2.1⟩).good ?_ ?_
  · rcases h3 with h | ⟨f, rfl, hf⟩
    · simp [Ex.text, h]
    · simp [Ex.text]
  · exact noTopComma_plain fun hc => (hx _ hc).2.2.2 rfl

omit [UTable] in
theorem eqEntry_good {l r : Str} (hl : Good l) (hr : Good r) : Good (l ++ ['='] ++ r) :=
  (hl.append ((bal_char '=' (by decide) (by decide) (by decide)).good (by decide)
    (noTopComma_plain (by decide)))).append hr

theorem eqs_good {ls rs : List Str} {vars : List Str} (hl : ∀ s ∈ ls, Good s) (hr : ∀ s ∈ rs, Good s)
    (hv : ∀ v ∈ vars, NameShape v) :
    ∀ s ∈ (List.zipWith (fun l r => l ++ ['='] ++ r) ls rs) ++ vars, Good s := by
  intro s hs
  rw [List.mem_append] at hs
  rcases hs with hs | hs
  · induction ls generalizing rs with
    | nil => simp at hs
    | cons l ls ih =>
      cases rs with
      | nil => simp at hs
      | cons r rs =>
        simp only [List.zipWith_cons_cons, List.mem_cons] at hs
        rcases hs with rfl | hs
        · exact eqEntry_good (hl l (by simp)) (hr r (by simp))
        · exact ih (fun s hs => hl s (by simp [hs])) (fun s hs => hr s (by simp [hs])) hs
  · exact nameShape_good (hv s hs)

omit [UTable] in
theorem good_rows {rows : List (List Ex)} (ih : ∀ r ∈ rows, ∀ e ∈ r, Good e.text) :
    ∀ s ∈ textRows rows, Good s := by
  intro s hs
  rw [textRows_eq, List.mem_map] at hs
  obtain ⟨r, hr, rfl⟩ := hs
  refine group_good .bracket (bal_commas _ fun p hp => ?_)
  rw [textAll_eq, List.mem_map] at hp
  obtain ⟨e, he, rfl⟩ := hp
  exact (ih r hr e he).bal

omit [UTable] in
theorem good_all {es : List Ex} (ih : ∀ e ∈ es, Good e.text) : ∀ s ∈ textAll es, Good s := by
  intro s hs
  rw [textAll_eq, List.mem_map] at hs
  obtain ⟨e, he, rfl⟩ := hs
  exact ih e he

theorem shape_root : NameShape "root".toList := nameShape_letters (by decide) (by decide)
theorem shape_I : NameShape "I".toList := nameShape_letters (by decide) (by decide)
theorem shape_D : NameShape "D".toList := nameShape_letters (by decide) (by decide)
theorem shape_eq : NameShape "eq".toList := nameShape_letters (by decide) (by decide)

theorem good_text (e : Ex) : e.WF → Good e.text := by
  induction e using Ex.ind with
  | num ip fp => rintro ⟨h1, h2, h3⟩; exact num_good h1 h2 h3
  | var n => exact nameShape_good
  | paren e ih => intro h; exact group_good .paren (ih h).bal
  | fn n op e ih => rintro ⟨h1, h2⟩; exact call_good (builtin_shape h1) (ih h2).bal
  | root a b iha ihb =>
    rintro ⟨h1, h2⟩
    refine call_good shape_root (bal_commas _ fun p hp => ?_)
    simp only [List.mem_cons, List.not_mem_nil, or_false] at hp
    rcases hp with rfl | rfl
    · exact (iha h1).bal
    · exact (ihb h2).bal
  | call n args ih =>
    rintro ⟨h1, h2, h3, h4⟩
    rw [WFAll_iff] at h4
    exact call_good h1 (bal_commas _ fun p hp => (good_all (fun e he => ih e he (h4 e he)) p hp).bal)
  | vec es ih =>
    rintro ⟨h1, h2, h3⟩
    rw [WFAll_iff] at h2
    exact group_good .bracket (bal_commas _ fun p hp => (good_all (fun e he => ih e he (h2 e he)) p hp).bal)
  | mat rows ih =>
    rintro ⟨h1, h2, h3⟩
    rw [WFRows_iff] at h2
    exact group_good .bracket (bal_commas _ fun p hp =>
      (good_rows (fun r hr e he => ih r hr e he (h2 r hr e he)) p hp).bal)
  | list es ih =>
    rintro ⟨h1, h2⟩
    rw [WFAll_iff] at h2
    exact group_good .brace (bal_commas _ fun p hp => (good_all (fun e he => ih e he (h2 e he)) p hp).bal)
  | neg e ih =>
    rintro ⟨h1, h2⟩
    exact ((bal_char '-' (by decide) (by decide) (by decide)).good (by decide)
      (noTopComma_plain (by decide))).append (ih h1)
  | bin op l r ihl ihr =>
    rintro ⟨h1, h2, _⟩
    exact binop_good (ihl h1) (ihr h2)
  | integ e x lo hi ihe ihl ihh =>
    rintro ⟨h1, h2, h3, h4⟩
    refine call_good shape_I (bal_commas _ fun p hp => ?_)
    simp only [List.mem_cons, List.not_mem_nil, or_false] at hp
    rcases hp with rfl | rfl | rfl | rfl
    · exact (ihe h1).bal
    · exact nameShape_bal h2
    · exact (ihl h3).bal
    · exact (ihh h4).bal
  | deriv e x a ihe iha =>
    rintro ⟨h1, h2, h3⟩
    refine call_good shape_D (bal_commas _ fun p hp => ?_)
    simp only [List.mem_cons, List.not_mem_nil, or_false] at hp
    rcases hp with rfl | rfl | rfl
    · exact (ihe h1).bal
    · exact nameShape_bal h2
    · exact (iha h3).bal
  | eqs ls rs vars ihl ihr =>
    rintro ⟨_, h1, h2, _, _, h3⟩
    rw [WFAll_iff] at h1 h2
    exact call_good shape_eq (bal_commas _ fun p hp =>
      (eqs_good (good_all fun e he => ihl e he (h1 e he)) (good_all fun e he => ihr e he (h2 e he)) h3 p hp).bal)

/-! ## operators -/

/-- The previous character only matters for a hidden multiplication at the first character. -/
theorem opsLoop_last (cs : Str) (c : Char) (s : Str) (i : Nat) (last : Char) :
    opsLoop cs (c :: s) i last 0 0 0 =
      (if isHiddenMult cs i last c then [⟨.hiddenMult, i, 0, 0⟩] else []) ++ opsLoop cs (c :: s) i '\\' 0 0 0 := by
  rw [opsLoop_cons, opsLoop_cons]
  have h0 : isHiddenMult cs i '\\' c = false := isHiddenMult_false (Or.inl (by decide))
  rw [← List.append_assoc]
  simp [scanChar, h0]

/-- A minus sign at the front of an expression is a negation or deeper inside an operator application. -/
theorem startsNeg (e : Ex) : e.WF → e.text.head? = some '-' → e.level ≤ 4 := by
  have hname : ∀ n t : Str, NameShape n → (n ++ t).head? ≠ some '-' := by
    intro n t hn h
    obtain ⟨c, r, rfl, hc⟩ := validName_head hn.1
    simp at h
    subst h
    have : UTable.isAlphabetic '-' = false := UTable.alpha_ascii '-' (by decide)
    rw [this] at hc
    rcases hc with h | h
    · cases h
    · revert h; decide
  induction e using Ex.ind with
  | num ip fp =>
    rintro ⟨h1, h2, h3⟩ h
    exfalso
    have := num_plain h1 h2 '-' (List.mem_of_mem_head? (by simpa using h))
    revert this; decide
  | var n => intro hn h; exact absurd (by simpa [Ex.text] using h) (hname n [] hn)
  | paren e ih => intro _ h; simp [Ex.text] at h
  | fn n op e ih => rintro ⟨h1, _⟩ h; exact absurd (by simpa [Ex.text] using h) (hname n ('(' :: (e.text ++ [')'])) (builtin_shape h1))
  | root a b iha ihb => rintro _ h; simp [Ex.text] at h
  | call n args ih => rintro ⟨h1, _⟩ h; exact absurd (by simpa [Ex.text] using h) (hname n ('(' :: (commas (textAll args) ++ [')'])) h1)
  | vec es ih => intro _ h; simp [Ex.text] at h
  | mat rows ih => intro _ h; simp [Ex.text] at h
  | list es ih => intro _ h; simp [Ex.text] at h
  | neg e ih => intro _ _; simp [Ex.level]
  | bin op l r ihl ihr =>
    rintro ⟨h1, h2, h3, _⟩ h
    have hl : l.text.head? = some '-' := by
      have := (good_text l h1).ne
      obtain ⟨c, t, hc⟩ := List.exists_cons_of_ne_nil this
      rw [Ex.text, hc] at h
      rw [hc]; simpa using h
    have := ihl h1 hl
    have hle : op.level ≤ l.level := by
      split at h3
      · exact h3.1
      · exact Nat.le_of_lt h3.1
    simp only [Ex.level]; omega
  | integ e x lo hi ihe ihl ihh => intro _ h; simp [Ex.text] at h
  | deriv e x a ihe iha => intro _ h; simp [Ex.text] at h
  | eqs ls rs vars ihl ihr => intro _ h; simp [Ex.text] at h

omit [UTable] in
theorem idxOf_binop (op : BinOp) : opTypes.idxOf op.op = op.level := by cases op <;> decide

/-- The operators found in the text of an operator application. -/
theorem bin_ops {op : BinOp} {l r : Str} (hl : Good l) (hr : Good r) (pre post : Str) :
    ∃ mid : List OpAt, (∀ o ∈ mid, o = ⟨op.op, pre.length + l.length, 0, op.text.length⟩) ∧
      (pre = [] → post = [] → (op = .juxt → Juxtaposable l r) → mid = [⟨op.op, l.length, 0, op.text.length⟩]) ∧
      opsLoop (pre ++ (l ++ op.text ++ r) ++ post) (l ++ op.text ++ r) pre.length '\\' 0 0 0 =
        opsLoop (pre ++ l ++ (op.text ++ r ++ post)) l pre.length '\\' 0 0 0 ++ (mid ++
          opsLoop ((pre ++ l ++ op.text) ++ r ++ post) r (pre ++ l ++ op.text).length '\\' 0 0 0) := by
  have hlp : 0 < l.length := List.length_pos_iff.2 hl.ne
  have hrp : 0 < r.length := List.length_pos_iff.2 hr.ne
  have ec : pre ++ (l ++ op.text ++ r) ++ post = pre ++ l ++ (op.text ++ r ++ post) := by simp
  have ec2 : pre ++ (l ++ op.text ++ r) ++ post = (pre ++ l ++ op.text) ++ r ++ post := by simp
  generalize hcs : pre ++ (l ++ op.text ++ r) ++ post = cs at *
  have hlen : cs.length = pre.length + l.length + op.text.length + r.length + post.length := by
    rw [← hcs]; simp; omega
  obtain ⟨c, r', hr'⟩ := List.exists_cons_of_ne_nil hr.ne
  rw [List.append_assoc, opsLoop_append, hl.p0, hl.b0, hl.k0, ← ec, ← ec2]
  simp only [Int.add_zero]
  by_cases hj : op = .juxt
  · subst hj
    have et : BinOp.juxt.text = [] := rfl
    rw [et, List.nil_append, hr', opsLoop_last]
    refine ⟨if isHiddenMult cs (pre.length + l.length) (lastOr '\\' l) c then
      [⟨.hiddenMult, pre.length + l.length, 0, 0⟩] else [], ?_, ?_, by simp⟩
    · intro o ho
      split at ho
      · exact List.mem_singleton.1 ho
      · simp at ho
    · rintro rfl rfl hJ
      obtain ⟨a, b, l', r'', rfl, hb, hu, hab⟩ := hJ rfl
      rw [if_pos]
      · simp [BinOp.op]
      · cases hb
        have hla : lastOr '\\' (l' ++ [a]) = a := by rw [lastOr_append]; rfl
        rw [hla]
        unfold isHiddenMult
        have hc1 : (a.isDigit && (UTable.isAlphabetic c || c == '\\' || c == '(' || c == '[') || a == ')' && c == '(') = true := by
          rcases hab with ⟨h1, h2⟩ | ⟨h1, h2⟩
          · rw [h1]
            rcases h2 with h2 | rfl | rfl | rfl
            · have : UTable.isAlphabetic c = true := by
                rw [UTable.alpha_ascii]; exact h2
                exact hr.ascii c (by simp [hr'])
              simp [this]
            · simp
            · simp
            · simp
          · simp [h1, h2]
        rw [if_pos hc1, if_neg]
        simp only [Bool.and_eq_true, beq_iff_eq, decide_eq_true_eq, not_and]
        intro hpos hcu
        apply hu
        have : cs = l' ++ ([a] ++ c :: r') := by rw [← hcs]; simp [et, hr']
        rw [this] at hcu
        have hl2 : l'.length ≠ 0 := by simp at hpos; omega
        simp only [List.length_nil, Nat.zero_add, List.length_append, List.length_singleton] at hcu
        rw [List.getElem?_append_left (by omega)] at hcu
        rw [List.getLast?_eq_getElem?]
        rw [← hcu]; congr 1
  · -- an operator symbol
    obtain ⟨s, hs, hsym, hsp, hsd, hss⟩ : ∃ s, op.text = [s] ∧ getOpSymbol s = some op.op ∧
        (UTable.isAlphabetic s = false ∧ s ≠ '\\' ∧ s ≠ '(' ∧ s ≠ '[') ∧ (s.isDigit = false ∧ s ≠ ')') ∧
        (parens [s] = 0 ∧ brackets [s] = 0 ∧ braces [s] = 0) := by
      cases op
      case juxt => exact absurd rfl hj
      all_goals exact ⟨_, rfl, rfl, ⟨UTable.alpha_ascii _ (by decide), by decide, by decide, by decide⟩, by decide, by decide⟩
    rw [hs, List.singleton_append, opsLoop_cons, hss.1, hss.2.1, hss.2.2]
    simp only [Int.add_zero]
    have hlast : opsLoop cs r (pre.length + l.length + 1) s 0 0 0 = opsLoop cs r (pre ++ l ++ [s]).length '\\' 0 0 0 := by
      rw [hr', opsLoop_last, isHiddenMult_false (Or.inl hsd)]
      simp
      congr 1
    rw [hlast]
    refine ⟨scanChar cs (pre.length + l.length) (lastOr '\\' l) s 0 0 0, ?_, ?_, rfl⟩
    · intro o ho
      rw [scanChar, isHiddenMult_false (Or.inr hsp), hsym] at ho
      have h0 : (pre.length + l.length == 0) = false := beq_false_of_ne (by omega)
      rw [h0] at ho
      simp at ho
      exact ho.2
    · rintro rfl rfl _
      rw [scanChar, isHiddenMult_false (Or.inr hsp), hsym]
      have hl1 : op.text.length = 1 := by rw [hs]; rfl
      have h0 : (([] : Str).length + l.length == 0) = false := beq_false_of_ne (by omega)
      have h1 : (([] : Str).length + l.length != cs.length - 1) = true := by
        simp only [List.length_nil, Nat.zero_add] at hlen ⊢
        simp; omega
      rw [h0, h1]
      simp

theorem num_ops {ip : Str} {fp : Option Str} (h1 : ∀ c ∈ ip, c.isDigit = true)
    (h2 : ∀ f, fp = some f → ∀ c ∈ f, c.isDigit = true) (cs : Str) (i : Nat) (last : Char) :
    opsLoop cs (Ex.num ip fp).text i last 0 0 0 = [] := by
  apply plain_ops
  intro c hc
  rcases num_plain h1 h2 c hc with h | rfl
  · have hd := isDigit_ascii h
    have hne : ∀ d : Char, d.isDigit = false → c ≠ d := by rintro d hd rfl; rw [h] at hd; cases hd
    refine ⟨?_, ?_, hne _ (by decide), hne _ (by decide), hne _ (by decide)⟩
    · unfold getOpSymbol
      simp [hne '?' (by decide), hne '+' (by decide), hne '-' (by decide), hne '&' (by decide), hne '*' (by decide),
        hne '/' (by decide), hne '^' (by decide), hne '#' (by decide)]
    · rw [UTable.alpha_ascii c hd.1]
      cases ha : c.isAlpha with
      | false => rfl
      | true =>
        exfalso
        simp only [Char.isDigit, Bool.and_eq_true, decide_eq_true_eq, ge_iff_le, UInt32.le_iff_toNat_le] at h
        simp only [Char.isAlpha, Char.isUpper, Char.isLower, Bool.or_eq_true, Bool.and_eq_true, decide_eq_true_eq,
          ge_iff_le, UInt32.le_iff_toNat_le] at ha
        simp at h ha
        omega
  · exact ⟨by decide, UTable.alpha_ascii _ (by decide), by decide, by decide, by decide⟩

/-- All operators found in the text of an expression bind at least as strongly as the expression;
the exception is a leading minus sign that does not stand at the beginning of the scanned text. -/
theorem ops_level (e : Ex) : e.WF → ∀ pre post : Str,
    ∀ o ∈ opsLoop (pre ++ e.text ++ post) e.text pre.length '\\' 0 0 0,
      e.level ≤ opTypes.idxOf o.op ∨ (e.text.head? = some '-' ∧ pre ≠ [] ∧ o.op = .sub) := by
  have hnil : ∀ {l : List OpAt} {P : OpAt → Prop}, l = [] → ∀ o ∈ l, P o := by
    intro l P h o ho; rw [h] at ho; cases ho
  induction e using Ex.ind with
  | num ip fp =>
    rintro ⟨h1, h2, h3⟩ pre post
    exact hnil (num_ops h1 h2 _ _ _)
  | var n => intro hn pre post; exact hnil (name_ops hn pre post)
  | paren e ih => intro h pre post; exact hnil (group_ops' .paren (good_text e h).bal pre post)
  | fn n op e ih =>
    rintro ⟨h1, h2⟩ pre post
    exact hnil (call_ops (builtin_shape h1) (good_text e h2).bal pre post)
  | root a b iha ihb =>
    rintro ⟨h1, h2⟩ pre post
    refine hnil (call_ops shape_root (bal_commas _ fun p hp => ?_) pre post)
    simp only [List.mem_cons, List.not_mem_nil, or_false] at hp
    rcases hp with rfl | rfl
    · exact (good_text a h1).bal
    · exact (good_text b h2).bal
  | call n args ih =>
    rintro ⟨h1, h2, h3, h4⟩ pre post
    rw [WFAll_iff] at h4
    exact hnil (call_ops h1 (bal_commas _ fun p hp => (good_all (fun e he => good_text e (h4 e he)) p hp).bal) pre post)
  | vec es ih =>
    rintro ⟨h1, h2, h3⟩ pre post
    rw [WFAll_iff] at h2
    exact hnil (group_ops' .bracket (bal_commas _ fun p hp => (good_all (fun e he => good_text e (h2 e he)) p hp).bal) pre post)
  | mat rows ih =>
    rintro ⟨h1, h2, h3⟩ pre post
    rw [WFRows_iff] at h2
    exact hnil (group_ops' .bracket (bal_commas _ fun p hp =>
      (good_rows (fun r hr e he => good_text e (h2 r hr e he)) p hp).bal) pre post)
  | list es ih =>
    rintro ⟨h1, h2⟩ pre post
    rw [WFAll_iff] at h2
    exact hnil (group_ops' .brace (bal_commas _ fun p hp => (good_all (fun e he => good_text e (h2 e he)) p hp).bal) pre post)
  | neg e ih =>
    rintro ⟨h1, h2⟩ pre post o ho
    have hne : e.text.head? ≠ some '-' := fun h => by have := startsNeg e h1 h; omega
    obtain ⟨c, t, hc⟩ := List.exists_cons_of_ne_nil (good_text e h1).ne
    have ec : pre ++ (Ex.neg e).text ++ post = (pre ++ ['-']) ++ e.text ++ post := by simp [Ex.text]
    have et : (Ex.neg e).text = '-' :: e.text := rfl
    rw [ec, et, opsLoop_cons, List.mem_append] at ho
    have b1 : parens ['-'] = 0 := by decide
    have b2 : brackets ['-'] = 0 := by decide
    have b3 : braces ['-'] = 0 := by decide
    rw [b1, b2, b3] at ho
    simp only [Int.add_zero] at ho
    rcases ho with ho | ho
    · rw [scanChar, isHiddenMult_false (Or.inr ⟨UTable.alpha_ascii _ (by decide), by decide, by decide, by decide⟩)] at ho
      simp only [getOpSymbol] at ho
      simp at ho
      by_cases hp : pre = []
      · subst hp
        simp at ho
        left
        rw [ho.2]; exact Nat.le_refl 4
      · simp [hp] at ho
        right
        rw [ho.2]
        exact ⟨rfl, hp, rfl⟩
    · rw [hc, opsLoop_last, isHiddenMult_false (Or.inl (by decide)), ← hc] at ho
      have := ih h1 (pre ++ ['-']) post o (by simpa using ho)
      rcases this with h | h
      · left; simp only [Ex.level]; omega
      · exact absurd h.1 hne
  | bin op l r ihl ihr =>
    rintro ⟨h1, h2, h3, h4, h5⟩ pre post o ho
    have hle : op.level ≤ l.level ∧ op.level ≤ r.level := by
      split at h3 <;> omega
    obtain ⟨mid, hm, _, he⟩ := bin_ops (op := op) (good_text l h1) (good_text r h2) pre post
    rw [Ex.text] at ho ⊢
    rw [he, List.mem_append, List.mem_append] at ho
    obtain ⟨c, t, hc⟩ := List.exists_cons_of_ne_nil (good_text l h1).ne
    rcases ho with ho | ho | ho
    · rcases ihl h1 _ _ o ho with h | ⟨h, h', h''⟩
      · left; simp only [Ex.level]; omega
      · right
        refine ⟨?_, h', h''⟩
        rw [hc] at h ⊢; simpa using h
    · left
      rw [hm o ho]
      simp only [Ex.level]
      rw [idxOf_binop]
    · rcases ihr h2 _ _ o ho with h | ⟨h, _, _⟩
      · left; simp only [Ex.level]; omega
      · left
        have : op = .add := by
          by_cases hop : op = .add
          · exact hop
          · exact absurd h (h4 hop)
        subst this
        exact Nat.zero_le _
  | integ e x lo hi ihe ihl ihh =>
    rintro ⟨h1, h2, h3, h4⟩ pre post
    refine hnil (call_ops shape_I (bal_commas _ fun p hp => ?_) pre post)
    simp only [List.mem_cons, List.not_mem_nil, or_false] at hp
    rcases hp with rfl | rfl | rfl | rfl
    · exact (good_text e h1).bal
    · exact nameShape_bal h2
    · exact (good_text lo h3).bal
    · exact (good_text hi h4).bal
  | deriv e x a ihe iha =>
    rintro ⟨h1, h2, h3⟩ pre post
    refine hnil (call_ops shape_D (bal_commas _ fun p hp => ?_) pre post)
    simp only [List.mem_cons, List.not_mem_nil, or_false] at hp
    rcases hp with rfl | rfl | rfl
    · exact (good_text e h1).bal
    · exact nameShape_bal h2
    · exact (good_text a h3).bal
  | eqs ls rs vars ihl ihr =>
    rintro ⟨_, h1, h2, _, _, h3⟩ pre post
    rw [WFAll_iff] at h1 h2
    exact hnil (call_ops shape_eq (bal_commas _ fun p hp =>
      (eqs_good (good_all fun e he => good_text e (h1 e he)) (good_all fun e he => good_text e (h2 e he)) h3 p hp).bal) pre post)

/-! ## choice of the operator to split at -/

omit [UTable] in
theorem findSome?_split {α β : Type} {f : α → Option β} {l l1 l2 : List α} {a : α} {b : β} (h : l = l1 ++ a :: l2)
    (h1 : ∀ x ∈ l1, f x = none) (h2 : f a = some b) : l.findSome? f = some b := by
  subst h
  rw [List.findSome?_append]
  have : l1.findSome? f = none := by simpa [List.findSome?_eq_none_iff] using h1
  rw [this]; simp [h2]

omit [UTable] in
theorem highestOp_eq (ops : List OpAt) (h : Nat) :
    ops.foldl (fun h i => let j := opTypes.idxOf i.op; if j < h then j else h) h =
      (ops.map fun i => opTypes.idxOf i.op).foldl min h := by
  induction ops generalizing h with
  | nil => rfl
  | cons o ops ih =>
    simp only [List.foldl_cons, List.map_cons]
    rw [ih]
    congr 1
    simp only [Nat.min_def]
    split <;> split <;> omega

omit [UTable] in
theorem foldl_min_eq (l : List Nat) (h k : Nat) (hk : k ∈ l) (hl : ∀ x ∈ l, k ≤ x) : l.foldl min h = min h k := by
  have hlow : ∀ (l : List Nat) (h m : Nat), m ≤ h → (∀ x ∈ l, m ≤ x) → m ≤ l.foldl min h := by
    intro l
    induction l with
    | nil => intro h m hm _; exact hm
    | cons a l ih =>
      intro h m hm hl
      exact ih _ _ (Nat.le_min.2 ⟨hm, hl a (by simp)⟩) fun x hx => hl x (by simp [hx])
  have hup : ∀ (l : List Nat) (h : Nat), l.foldl min h ≤ h ∧ ∀ x ∈ l, l.foldl min h ≤ x := by
    intro l
    induction l with
    | nil => intro h; simp
    | cons a l ih =>
      intro h
      have := ih (min h a)
      refine ⟨Nat.le_trans this.1 (Nat.min_le_left _ _), fun x hx => ?_⟩
      rcases List.mem_cons.1 hx with rfl | hx
      · exact Nat.le_trans this.1 (Nat.min_le_right _ _)
      · exact this.2 x hx
  apply Nat.le_antisymm
  · exact Nat.le_min.2 ⟨(hup l h).1, (hup l h).2 k hk⟩
  · exact hlow l h _ (Nat.min_le_left _ _) fun x hx => Nat.le_trans (Nat.min_le_right _ _) (hl x hx)

/-- The operator at which the text is split. -/
theorem splitOp_of {cs : Str} {A B : List OpAt} {o : OpAt} (h : opsInExpr cs = A ++ o :: B)
    (hm : o.op ∈ opTypes)
    (hlr : if o.op = .sub ∨ o.op = .mult then
        (∀ x ∈ A, opTypes.idxOf o.op ≤ opTypes.idxOf x.op) ∧ (∀ x ∈ B, opTypes.idxOf o.op < opTypes.idxOf x.op)
      else (∀ x ∈ A, opTypes.idxOf o.op < opTypes.idxOf x.op) ∧ (∀ x ∈ B, opTypes.idxOf o.op ≤ opTypes.idxOf x.op)) :
    splitOp cs = some o := by
  have hge : ∀ x ∈ A ++ o :: B, opTypes.idxOf o.op ≤ opTypes.idxOf x.op := by
    intro x hx
    rw [List.mem_append, List.mem_cons] at hx
    split at hlr
    · rcases hx with hx | rfl | hx
      · exact hlr.1 x hx
      · exact Nat.le_refl _
      · exact Nat.le_of_lt (hlr.2 x hx)
    · rcases hx with hx | rfl | hx
      · exact Nat.le_of_lt (hlr.1 x hx)
      · exact Nat.le_refl _
      · exact hlr.2 x hx
  have hh : highestOp (A ++ o :: B) = min 7 (opTypes.idxOf o.op) := by
    unfold highestOp
    rw [highestOp_eq]
    apply foldl_min_eq
    · simp
    · intro x hx
      rw [List.mem_map] at hx
      obtain ⟨y, hy, rfl⟩ := hx
      exact hge y hy
  have hkey : ∀ ops : List OpAt, (∀ x, x ∈ ops ↔ x ∈ A ++ o :: B) → (ops.find? fun i => i.op == o.op) = some o →
      (opTypes.findSome? fun t => ops.find? fun i => i.op == t) = some o := by
    intro ops hops hfind
    have hsplit : opTypes = opTypes.take (opTypes.idxOf o.op) ++ o.op :: opTypes.drop (opTypes.idxOf o.op + 1) := by
      have hlt : opTypes.idxOf o.op < opTypes.length := List.idxOf_lt_length_iff.2 hm
      conv_lhs => rw [← List.take_append_drop (opTypes.idxOf o.op) opTypes, List.drop_eq_getElem_cons hlt]
      congr 2
      exact List.getElem_idxOf hlt
    refine findSome?_split hsplit ?_ hfind
    intro t ht
    rw [List.find?_eq_none]
    intro x hx hxt
    have hxt : x.op = t := by simpa using hxt
    have h1 := hge x ((hops x).1 hx)
    have h2 : opTypes.idxOf t < opTypes.idxOf o.op := by
      have : ∀ k ≤ 10, ∀ t ∈ opTypes.take k, opTypes.idxOf t < k := by decide
      exact this _ (List.idxOf_le_length (a := o.op) (l := opTypes)) t ht
    rw [hxt] at h1
    omega
  have hidx : (opTypes.idxOf o.op = 1 ∨ opTypes.idxOf o.op = 3) ↔ (o.op = .sub ∨ o.op = .mult) := by
    cases o.op <;> decide
  unfold splitOp
  rw [h]
  simp only [hh]
  by_cases hs : o.op = .sub ∨ o.op = .mult
  · rw [if_pos hs] at hlr
    have hi := hidx.2 hs
    have hc : (min 7 (opTypes.idxOf o.op) == 1 || min 7 (opTypes.idxOf o.op) == 3) = true := by
      rcases hi with hi | hi <;> rw [hi] <;> decide
    rw [if_pos hc]
    apply hkey
    · intro x; simp [or_comm, or_assoc, or_left_comm]
    · rw [List.reverse_append, List.reverse_cons, List.append_assoc, List.find?_append]
      have : (B.reverse.find? fun i => i.op == o.op) = none := by
        rw [List.find?_eq_none]
        intro x hx hxo
        have := hlr.2 x (by simpa using hx)
        have hxo : x.op = o.op := by simpa using hxo
        rw [hxo] at this; omega
      rw [this]
      simp
  · rw [if_neg hs] at hlr
    have hi : ¬ (opTypes.idxOf o.op = 1 ∨ opTypes.idxOf o.op = 3) := fun h => hs (hidx.1 h)
    have hc : (min 7 (opTypes.idxOf o.op) == 1 || min 7 (opTypes.idxOf o.op) == 3) = false := by
      simp; omega
    rw [if_neg (by rw [hc]; simp)]
    apply hkey
    · intro x; rfl
    · rw [List.find?_append]
      have : (A.find? fun i => i.op == o.op) = none := by
        rw [List.find?_eq_none]
        intro x hx hxo
        have := hlr.1 x hx
        have hxo : x.op = o.op := by simpa using hxo
        rw [hxo] at this; omega
      rw [this]
      simp

theorem splitOp_none {cs : Str} (h : opsInExpr cs = []) : splitOp cs = none := by
  unfold splitOp
  rw [h]
  decide

end MUL
