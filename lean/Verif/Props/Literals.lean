import Verif.Props.Grammar
/-!
# C14: exactly which texts are numbers
-/

namespace MUL
open Out Spec

set_option linter.unusedSectionVars false

/-- The texts that are numbers, with mantissa and exponent: digits; digits around a point; digits followed by `.e` or `.E` and the
digits of an exponent. -/
inductive Spec.Literal : Str → Nat → Int → Prop
  | whole (ip : Str) : ip ≠ [] → (∀ c ∈ ip, c.isDigit = true) → Spec.Literal ip (decimal ip) 0
  | point (ip fp : Str) : ip ++ fp ≠ [] → (∀ c ∈ ip, c.isDigit = true) → (∀ c ∈ fp, c.isDigit = true) →
      Spec.Literal (ip ++ '.' :: fp) (decimal (ip ++ fp)) (-(fp.length : Int))
  | exponent (ip : Str) (c : Char) (ds : Str) : ip ≠ [] → (c = 'e' ∨ c = 'E') → ds ≠ [] → (∀ c ∈ ip, c.isDigit = true) →
      (∀ c ∈ ds, c.isDigit = true) → Spec.Literal (ip ++ '.' :: c :: ds) (decimal ip) (decimal ds)

section
variable [UTable] {F : Type} [FArith F]

theorem ops_of_splitOp_none {cs : Str} (h : splitOp cs = none) : opsInExpr cs = [] := by
  cases ho : opsInExpr cs with
  | nil => rfl
  | cons o os =>
    exfalso
    have hmem : o ∈ opsInExpr cs := by rw [ho]; simp
    have hop : o.op ∈ opTypes := by
      have : ∀ (s : Str) (i : Nat) (last : Char) (p b k : Int), ∀ o ∈ opsLoop cs s i last p b k, o.op ∈ opTypes := by
        intro s
        induction s with
        | nil => intro i last p b k o ho; simp [opsLoop] at ho
        | cons c s ih =>
          intro i last p b k o ho
          rw [opsLoop_cons, List.mem_append] at ho
          rcases ho with ho | ho
          · unfold scanChar at ho
            rw [List.mem_append] at ho
            rcases ho with ho | ho
            · split at ho
              · simp only [List.mem_singleton] at ho; subst ho; show SimpleOp.hiddenMult ∈ opTypes; decide
              · simp at ho
            · split at ho
              · rename_i o' ho'
                have : o' ∈ opTypes := by
                  unfold getOpSymbol at ho'
                  repeat' split at ho'
                  all_goals first | cases ho'; decide | cases ho'
                split at ho
                · split at ho
                  · simp only [List.mem_singleton] at ho; subst ho; show SimpleOp.neg ∈ opTypes; decide
                  · simp only [List.mem_singleton] at ho; subst ho; exact this
                · simp at ho
              · simp at ho
          · exact ih _ _ _ _ _ o ho
      exact this _ _ _ _ _ _ o hmem
    unfold splitOp at h
    simp only [List.findSome?_eq_none_iff] at h
    have := h o.op hop
    rw [List.find?_eq_none] at this
    split at this
    · exact this o (by simpa using hmem) (by simp)
    · exact this o hmem (by simp)

set_option hygiene false in
local macro "not_number" : tactic =>
  `(tactic| repeat' first | (simp; done) | (refine hb _ _ fun _ => ?_) | split | dsimp only)

/-- What parsing returns if it is a number. -/
theorem scalar_inv {cfg : Cfg} {cs : Str} {a : F} (h : parseInner cfg cs = .ok (.scalar a)) :
    opsInExpr cs = [] ∧ (parseF64 cs : Option F) = some a ∧ ∃ c r, cs = c :: r ∧ UTable.isAlphabetic c = false := by
  rw [parseInner_eq] at h
  unfold parseStep at h
  split at h
  · cases h
  rename_i hne
  generalize hcl : checkLoop cs.length cs 0 0 true = dc at h
  obtain ⟨depth, check⟩ := dc
  simp only at h
  split at h
  · cases h
  split at h
  · cases h
  obtain ⟨c, r, rfl⟩ : ∃ c r, cs = c :: r := by
    cases cs with
    | nil => simp at hne
    | cons c r => exact ⟨c, r, rfl⟩
  have i0 : (idx (c :: r) 0 : Out ParserError Char) = .ok c := rfl
  obtain ⟨cl, i1⟩ : ∃ cl, (idx (c :: r) ((c :: r).length - 1) : Out ParserError Char) = .ok cl := ⟨_, idx_lt (by simp)⟩
  rw [i0, i1] at h
  simp only [ok_bind] at h
  have hb : ∀ {α : Type} (x : Out ParserError α) (f : α → Out ParserError (AST F)), (∀ y, f y ≠ .ok (.scalar a)) →
      (x >>= f) ≠ .ok (.scalar a) := by
    intro α x f hf
    cases x with
    | ok x => exact hf x
    | _ => simp
  split at h
  · refine absurd h ?_
    not_number
  · split at h
    · refine absurd h ?_
      not_number
    · rename_i hsplit
      refine ⟨ops_of_splitOp_none hsplit, ?_⟩
      split at h
      · exfalso
        rename_i res hres
        subst h
        unfold parseFunction at hres
        split at hres
        · cases hres
        · simp only [Option.some.injEq] at hres
          refine absurd hres ?_
          not_number
      · split at h
        · exfalso
          rename_i res hres
          subst h
          unfold parseAdvanced at hres
          split at hres
          · simp only [Option.some.injEq] at hres
            refine absurd hres ?_
            not_number
          · split at hres
            · simp only [Option.some.injEq] at hres
              refine absurd hres ?_
              not_number
            · split at hres
              · simp only [Option.some.injEq] at hres
                refine absurd hres ?_
                not_number
              · cases hres
        · unfold parseAtom at h
          rw [i0, i1] at h
          simp only [ok_bind] at h
          split at h
          · refine absurd h ?_
            not_number
          · split at h
            · refine absurd h ?_
              not_number
            · rename_i halpha
              split at h
              · refine absurd h ?_
                not_number
              · unfold parseValue at h
                split at h
                · split at h
                  · rename_i f hf
                    refine ⟨?_, c, r, rfl, ?_⟩
                    · cases h; exact hf
                    · simp only [Bool.or_eq_true, not_or] at halpha
                      simpa using halpha.1
                  · cases h
                · refine absurd h ?_
                  not_number

/-! ### From the text to the literal -/

omit [UTable] [FArith F] in
theorem lower_alpha {c d : Char} (h : c.toLower = d) (hd : d.isLower = true) : c.isAlpha = true := by
  unfold Char.toLower at h
  split at h
  · rename_i hu
    unfold Char.isAlpha Char.isUpper
    simp only [Bool.or_eq_true, Bool.and_eq_true, decide_eq_true_eq]
    left
    exact hu
  · subst h
    unfold Char.isAlpha
    rw [hd, Bool.or_true]

omit [UTable] [FArith F] in
theorem alpha_ascii' {c : Char} (h : c.isAlpha = true) : c.val < 128 := by
  simp only [Char.isAlpha, Char.isUpper, Char.isLower, Bool.or_eq_true, Bool.and_eq_true, decide_eq_true_eq, ge_iff_le,
    UInt32.le_iff_toNat_le] at h
  rw [UInt32.lt_iff_toNat_lt]
  simp at h ⊢
  omega

/-- Between digits and points nothing opens or closes. -/
theorem plain_depth {s : Str} (h : ∀ c ∈ s, c.isDigit = true ∨ c = '.') : parens s = 0 ∧ brackets s = 0 ∧ braces s = 0 := by
  induction s with
  | nil => exact ⟨rfl, rfl, rfl⟩
  | cons c s ih =>
    obtain ⟨a1, a2, a3⟩ := ih fun d hd => h d (by simp [hd])
    have hc : ∀ d ∈ ['(', ')', '[', ']', '{', '}'], c ≠ d := by
      intro d hd hcd
      subst hcd
      rcases h c (by simp) with h | h
      · exact (isDigit_ascii h).2.2.1 hd
      · subst h; revert hd; decide
    rw [parens_cons, brackets_cons, braces_cons, a1, a2, a3]
    simp [hc '(' (by simp), hc ')' (by simp), hc '[' (by simp), hc ']' (by simp), hc '{' (by simp), hc '}' (by simp)]

/-- A letter after a digit starts a factor. -/
theorem hidden_after_digit {pre : Str} {d c : Char} {post : Str} (h : ∀ x ∈ pre, x.isDigit = true ∨ x = '.') (hd : d.isDigit = true)
    (hc : UTable.isAlphabetic c = true) : opsInExpr (pre ++ d :: c :: post) ≠ [] := by
  intro ho
  unfold opsInExpr at ho
  have hpd : ∀ x ∈ pre ++ [d], x.isDigit = true ∨ x = '.' := by
    intro x hx
    rcases List.mem_append.1 hx with hx | hx
    · exact h x hx
    · simp only [List.mem_singleton] at hx
      subst hx
      exact .inl hd
  generalize hcs : pre ++ d :: c :: post = cs at ho
  have e : cs = (pre ++ [d]) ++ (c :: post) := by rw [← hcs]; simp
  replace ho : opsLoop cs ((pre ++ [d]) ++ (c :: post)) 0 '\\' 0 0 0 = [] := by rw [← e]; exact ho
  rw [opsLoop_append, List.append_eq_nil_iff, opsLoop_cons, List.append_eq_nil_iff] at ho
  have h2 := ho.2.1
  obtain ⟨a1, a2, a3⟩ := plain_depth hpd
  rw [a1, a2, a3, lastOr_append, lastOr_cons, lastOr_nil] at h2
  unfold scanChar at h2
  rw [List.append_eq_nil_iff] at h2
  have h3 := h2.1
  have hidden : isHiddenMult cs (0 + (pre ++ [d]).length) d c = true := by
    unfold isHiddenMult
    simp only [hd, hc, Bool.true_or, Bool.and_self, if_true]
    rw [if_neg]
    rintro hcon
    simp only [Bool.and_eq_true, decide_eq_true_eq, beq_iff_eq] at hcon
    obtain ⟨g1, g2⟩ := hcon
    have g3 : (pre ++ [d])[0 + (pre ++ [d]).length - 2]? = some '_' := by
      rw [e, List.getElem?_append_left (by omega)] at g2
      exact g2
    rcases hpd _ (List.mem_of_getElem? g3) with h | h
    · revert h; decide
    · revert h; decide
  rw [hidden] at h3
  simp at h3

/-- A sign that is not the last character is an operator. -/
theorem sign_is_operator {pre : Str} {d e : Char} {post : Str} (h : parens pre = 0 ∧ brackets pre = 0 ∧ braces pre = 0)
    (hd : d = '-' ∨ d = '+') : opsInExpr (pre ++ d :: e :: post) ≠ [] := by
  intro ho
  unfold opsInExpr at ho
  generalize hcs : pre ++ d :: e :: post = cs at ho
  have e' : cs = pre ++ (d :: e :: post) := hcs.symm
  replace ho : opsLoop cs (pre ++ (d :: e :: post)) 0 '\\' 0 0 0 = [] := by rw [← e']; exact ho
  rw [opsLoop_append, List.append_eq_nil_iff, opsLoop_cons, List.append_eq_nil_iff] at ho
  have h2 := ho.2.1
  rw [h.1, h.2.1, h.2.2] at h2
  unfold scanChar at h2
  rw [List.append_eq_nil_iff] at h2
  have h3 := h2.2
  have hlen : (0 + pre.length != cs.length - 1) = true := by
    rw [← hcs]
    simp
  rcases hd with rfl | rfl
  · simp only [getOpSymbol, hlen] at h3
    simp at h3
    split at h3 <;> simp at h3
  · simp only [getOpSymbol, hlen] at h3
    simp at h3

theorem literal_of_scalar {cs : Str} {a : F} (ho : opsInExpr cs = []) (hp : (parseF64 cs : Option F) = some a)
    (hc : ∃ c r, cs = c :: r ∧ UTable.isAlphabetic c = false) : ∃ m e, Literal cs m e ∧ a = FArith.ofDec m e := by
  obtain ⟨c, r, rfl, hα⟩ := hc
  -- no sign
  have hsign : ¬ (c = '-' ∨ c = '+') := by
    intro hs
    cases r with
    | nil =>
      rcases hs with rfl | rfl <;> · unfold parseF64 parseNumber at hp; simp at hp
    | cons d r => exact sign_is_operator (pre := []) ⟨rfl, rfl, rfl⟩ hs ho
  simp only [not_or] at hsign
  unfold parseF64 at hp
  simp only [beq_false_of_ne hsign.1, beq_false_of_ne hsign.2, Bool.or_self, Bool.false_eq_true, if_false] at hp
  split at hp
  · rename_i m e hnum
    refine ⟨m, e, ?_, by simpa using hp.symm⟩
    clear hp hα hsign
    generalize hcs : c :: r = cs at ho hnum
    clear hcs
    unfold parseNumber at hnum
    have hip : ∀ x ∈ cs.takeWhile Char.isDigit, x.isDigit = true := fun x hx => List.all_eq_true.1 List.all_takeWhile x hx
    have hsplit := List.takeWhile_append_dropWhile (p := Char.isDigit) (l := cs)
    generalize cs.takeWhile Char.isDigit = ip at hnum hip hsplit
    generalize cs.dropWhile Char.isDigit = q at hnum hsplit
    subst hsplit
    have hexp : ∀ (t : Str) (k : Int), parseExp t = some k → t = [] ∧ k = 0 ∨ ∃ x ds, t = x :: ds ∧ (x = 'e' ∨ x = 'E') ∧
        ((∃ d d' ds', ds = d :: d' :: ds' ∧ (d = '-' ∨ d = '+')) ∨ (ds ≠ [] ∧ (∀ y ∈ ds, y.isDigit = true) ∧ k = decimal ds)) := by
      intro t k ht
      unfold parseExp at ht
      split at ht
      · left
        exact ⟨rfl, by simpa using ht.symm⟩
      · rename_i x t
        split at ht
        · rename_i hx
          right
          refine ⟨x, t, rfl, by simpa using hx, ?_⟩
          split at ht
          · cases ht
          · rename_i d t
            by_cases hd : d = '-' ∨ d = '+'
            · left
              have hd' : (d == '-' || d == '+') = true := by simpa using hd
              cases t with
              | nil => simp [hd'] at ht
              | cons d' t => exact ⟨d, d', t, rfl, hd⟩
            · right
              have hd3 : (d == '+') = false := by simpa using fun h => hd (Or.inr h)
              have hd2 : (d == '-') = false := by simpa using fun h => hd (Or.inl h)
              simp only [hd3, hd2, Bool.or_self, Bool.false_eq_true, if_false] at ht
              split at ht
              · cases ht
              · rename_i hne
                simp only [List.isEmpty_cons, Bool.false_or, Bool.not_eq_true', Bool.not_eq_false] at hne
                refine ⟨by simp, ?_, ?_⟩
                · simpa [List.all_eq_true] using hne
                · rw [← digitsVal_eq]
                  simpa using ht.symm
        · cases ht
    have hletter : ∀ x : Char, x = 'e' ∨ x = 'E' → UTable.isAlphabetic x = true := by
      rintro x (rfl | rfl)
      · exact UTable.alpha_ascii 'e' (by decide)
      · exact UTable.alpha_ascii 'E' (by decide)
    have hplain : ∀ (s : Str), (∀ x ∈ s, x.isDigit = true) → ∀ x ∈ s, x.isDigit = true ∨ x = '.' := fun s h x hx => .inl (h x hx)
    by_cases hq : ∃ q', q = '.' :: q'
    · obtain ⟨q, rfl⟩ := hq
      simp only at hnum
      have hfp : ∀ x ∈ q.takeWhile Char.isDigit, x.isDigit = true := fun x hx => List.all_eq_true.1 List.all_takeWhile x hx
      have hsplit := List.takeWhile_append_dropWhile (p := Char.isDigit) (l := q)
      generalize q.takeWhile Char.isDigit = fp at hnum hfp hsplit
      generalize q.dropWhile Char.isDigit = t at hnum hsplit
      subst hsplit
      split at hnum
      · cases hnum
      · rename_i hne
        have hne : ip ++ fp ≠ [] := by simpa using hne
        split at hnum
        · rename_i k hk
          simp only [Option.some.injEq, Prod.mk.injEq] at hnum
          obtain ⟨rfl, rfl⟩ := hnum
          rw [digitsVal_eq]
          rcases hexp _ _ hk with ⟨rfl, rfl⟩ | ⟨x, ds, rfl, hx, hds⟩
          · have := Literal.point ip fp hne hip hfp
            simpa using this
          · -- the exponent follows the point directly
            have hfp0 : fp = [] := by
              by_contra hfp0
              obtain ⟨pre, d, hpd⟩ : ∃ pre d, fp = pre ++ [d] := ⟨_, _, (List.dropLast_append_getLast hfp0).symm⟩
              refine hidden_after_digit (pre := ip ++ '.' :: pre) (d := d) (c := x) (post := ds) ?_ ?_ (hletter x hx) ?_
              · intro y hy
                rcases List.mem_append.1 hy with hy | hy
                · exact .inl (hip y hy)
                · rcases List.mem_cons.1 hy with rfl | hy
                  · exact .inr rfl
                  · exact .inl (hfp y (by rw [hpd]; simp [hy]))
              · exact hfp d (by rw [hpd]; simp)
              · rw [← ho, hpd]
                simp
            subst hfp0
            rcases hds with ⟨d, d', ds', rfl, hd⟩ | ⟨hds0, hds, rfl⟩
            · exfalso
              refine sign_is_operator (pre := ip ++ ['.', x]) (d := d) (e := d') (post := ds') ?_ hd ?_
              · rw [parens_append, brackets_append, bracesAppend]
                obtain ⟨a1, a2, a3⟩ := plain_depth (hplain ip hip)
                rw [a1, a2, a3]
                rcases hx with rfl | rfl <;> decide
              · rw [← ho]
                simp
            · have := Literal.exponent ip x ds (by simpa using hne) hx hds0 hip hds
              simpa using this
        · cases hnum
    · have hq' : ∀ r', q = '.' :: r' → False := fun r' h => hq ⟨r', h⟩
      simp only at hnum
      rw [List.append_nil] at hnum
      split at hnum
      · cases hnum
      · rename_i hne
        have hne : ip ≠ [] := by simpa using hne
        split at hnum
        · rename_i k hk
          simp only [Option.some.injEq, Prod.mk.injEq] at hnum
          obtain ⟨rfl, rfl⟩ := hnum
          rw [digitsVal_eq]
          rcases hexp _ _ hk with ⟨rfl, rfl⟩ | ⟨x, ds, rfl, hx, hds⟩
          · have := Literal.whole ip hne hip
            simpa using this
          · exfalso
            obtain ⟨pre, d, rfl⟩ : ∃ pre d, ip = pre ++ [d] := ⟨_, _, (List.dropLast_append_getLast hne).symm⟩
            refine hidden_after_digit (pre := pre) (d := d) (c := x) (post := ds) (fun y hy => .inl (hip y (by simp [hy])))
              (hip d (by simp)) (hletter x hx) ?_
            rw [← ho]
            simp
        · cases hnum
  · -- words start with a letter
    exfalso
    have key : c.isAlpha = true → False := by
      intro h
      rw [UTable.alpha_ascii c (alpha_ascii' h), h] at hα
      cases hα
    simp only [List.map_cons, beq_iff_eq, List.cons.injEq, Bool.or_eq_true] at hp
    split at hp
    · rename_i h
      exact key (lower_alpha h.1 (by decide))
    · split at hp
      · rename_i h
        rcases h with h | h
        · exact key (lower_alpha h.1 (by decide))
        · exact key (lower_alpha h.1 (by decide))
      · cases hp

/-! ### From the literal to the tree -/

omit [UTable] in
theorem parseF64_exponent {ip ds : Str} {c : Char} (h0 : ip ≠ []) (hc : c = 'e' ∨ c = 'E') (hd0 : ds ≠ [])
    (h1 : ∀ x ∈ ip, x.isDigit = true) (h2 : ∀ x ∈ ds, x.isDigit = true) :
    (parseF64 (ip ++ '.' :: c :: ds) : Option F) = some (FArith.ofDec (decimal ip) (decimal ds)) := by
  have hcd : c.isDigit = false := by rcases hc with rfl | rfl <;> decide
  have hnum : parseNumber (ip ++ '.' :: c :: ds) = some (decimal ip, (decimal ds : Int)) := by
    unfold parseNumber
    have hk := takeWhile_digits (t := '.' :: c :: ds) h1 (Or.inr ⟨_, rfl⟩)
    simp only [hk.1, hk.2]
    rw [List.takeWhile_cons_of_neg (by simp [hcd]), List.dropWhile_cons_of_neg (by simp [hcd])]
    have hexp : parseExp (c :: ds) = some (decimal ds : Int) := by
      obtain ⟨d, t, rfl⟩ := List.exists_cons_of_ne_nil hd0
      have hdd := h2 d (by simp)
      have e1 : (d == '-') = false := beq_false_of_ne (digit_ne hdd (by decide))
      have e2 : (d == '+') = false := beq_false_of_ne (digit_ne hdd (by decide))
      have e3 : (c == 'e' || c == 'E') = true := by simpa using hc
      have e4 : (d :: t).all Char.isDigit = true := List.all_eq_true.2 h2
      unfold parseExp
      simp only [e3, e1, e2, Bool.or_self, Bool.false_eq_true, if_false, if_true, List.isEmpty_cons, Bool.false_or, e4, Bool.not_true]
      rw [digitsVal_eq]
    rw [hexp]
    simp [h0, digitsVal_eq]
  obtain ⟨d, t, rfl⟩ := List.exists_cons_of_ne_nil h0
  have hdd := h1 d (by simp)
  rw [List.cons_append] at hnum ⊢
  unfold parseF64
  simp only [beq_false_of_ne (digit_ne hdd (show Char.isDigit '-' = false by decide)),
    beq_false_of_ne (digit_ne hdd (show Char.isDigit '+' = false by decide)), Bool.or_self, Bool.false_eq_true, if_false]
  rw [hnum]

theorem parse_exponent {cfg : Cfg} {ip ds : Str} {c : Char} (h0 : ip ≠ []) (hc : c = 'e' ∨ c = 'E') (hd0 : ds ≠ [])
    (h1 : ∀ x ∈ ip, x.isDigit = true) (h2 : ∀ x ∈ ds, x.isDigit = true) :
    parseInner cfg (ip ++ '.' :: c :: ds) = .ok (.scalar (FArith.ofDec (decimal ip) (decimal ds)) : AST F) := by
  have hval := parseF64_exponent (F := F) h0 hc hd0 h1 h2
  have hp : ∀ x ∈ ip ++ '.' :: c :: ds, x.isDigit = true ∨ x = '.' ∨ x = 'e' ∨ x = 'E' := by
    intro x hx
    simp only [List.mem_append, List.mem_cons] at hx
    rcases hx with hx | rfl | rfl | hx
    · exact .inl (h1 x hx)
    · exact .inr (.inl rfl)
    · exact .inr (.inr hc)
    · exact .inl (h2 x hx)
  have hx : ∀ x ∈ ip ++ '.' :: c :: ds, x.val < 128 ∧ isWhitespace x = false ∧ x ∉ ['(', ')', '[', ']', '{', '}'] ∧ x ≠ ',' := by
    intro x hx
    rcases hp x hx with h | rfl | rfl | rfl
    · have := isDigit_ascii h
      exact ⟨this.1, this.2.1, this.2.2.1, this.2.2.2.1⟩
    · decide
    · decide
    · decide
  have hg : Good (ip ++ '.' :: c :: ds) := (bal_plain _ fun x h => ⟨(hx x h).1, (hx x h).2.1, (hx x h).2.2.1⟩).good (by simp)
    (noTopComma_plain fun h => (hx _ h).2.2.2 rfl)
  have hno : ∀ d : Char, d ∈ ['(', ')', '[', ']', '{', '}'] → d ∉ ip ++ '.' :: c :: ds := fun d hd hm => (hx d hm).2.2.1 hd
  have hops : opsLoop (ip ++ '.' :: c :: ds) (ip ++ '.' :: c :: ds) 0 '\\' 0 0 0 = [] := by
    have hplain : ∀ s : Str, (∀ x ∈ s, x.isDigit = true ∨ x = '.') → ∀ (cs : Str) (i : Nat) (last : Char), opsLoop cs s i last 0 0 0 = [] := by
      intro s hs cs i last
      apply plain_ops
      intro x hx
      rcases hs x hx with h | rfl
      · have hne : ∀ d : Char, d.isDigit = false → x ≠ d := by rintro d hd rfl; rw [h] at hd; cases hd
        refine ⟨?_, ?_, hne _ (by decide), hne _ (by decide), hne _ (by decide)⟩
        · unfold getOpSymbol
          simp [hne '?' (by decide), hne '+' (by decide), hne '-' (by decide), hne '&' (by decide), hne '*' (by decide),
            hne '/' (by decide), hne '^' (by decide), hne '#' (by decide)]
        · rw [UTable.alpha_ascii x (isDigit_ascii h).1]
          cases ha : x.isAlpha with
          | false => rfl
          | true =>
            exfalso
            simp only [Char.isDigit, Bool.and_eq_true, decide_eq_true_eq, ge_iff_le, UInt32.le_iff_toNat_le] at h
            simp only [Char.isAlpha, Char.isUpper, Char.isLower, Bool.or_eq_true, Bool.and_eq_true, decide_eq_true_eq,
              ge_iff_le, UInt32.le_iff_toNat_le] at ha
            simp at h ha
            omega
      · exact ⟨by decide, UTable.alpha_ascii _ (by decide), by decide, by decide, by decide⟩
    generalize hcs : ip ++ '.' :: c :: ds = cs
    have e : ip ++ '.' :: c :: ds = (ip ++ ['.']) ++ (c :: ds) := by simp
    have hpre : ∀ x ∈ ip ++ ['.'], x.isDigit = true ∨ x = '.' := by
      intro x hx
      rcases List.mem_append.1 hx with hx | hx
      · exact .inl (h1 x hx)
      · exact .inr (by simpa using hx)
    have hc0 : parens [c] = 0 ∧ brackets [c] = 0 ∧ braces [c] = 0 := by rcases hc with rfl | rfl <;> decide
    obtain ⟨a1, a2, a3⟩ := plain_depth hpre
    conv => lhs; rw [← hcs, e]
    rw [opsLoop_append, opsLoop_cons, hplain _ hpre, a1, a2, a3, hc0.1, hc0.2.1, hc0.2.2]
    simp only [Int.add_zero]
    rw [hplain ds fun x hx => .inl (h2 x hx)]
    rw [lastOr_append, lastOr_cons, lastOr_nil]
    unfold scanChar
    rw [isHiddenMult_false (Or.inl ⟨by decide, by decide⟩)]
    rcases hc with rfl | rfl <;> simp [getOpSymbol]
  have hhead : ∀ d : Char, d ∈ ['(', ')', '[', ']', '{', '}'] → (ip ++ '.' :: c :: ds).head? ≠ some d :=
    fun d hd h => hno d hd (List.mem_of_mem_head? (by simpa using h))
  rw [parseInner_eq, step_atom hg (hhead '(' (by decide)) hops]
  have hnf := no_function' (F := F) (rec := parseInner cfg) (hno '(' (by decide))
  rw [hnf.1, hnf.2]
  simp only
  have hcont : ∀ d : Char, d ∈ ['(', ')', '[', ']', '{', '}'] → (ip ++ '.' :: c :: ds).contains d = false := by
    intro d hd
    cases h : (ip ++ '.' :: c :: ds).contains d with
    | false => rfl
    | true => exact absurd (by simpa using h) (hno d hd)
  have hv : parseValue cfg (parseInner cfg) (ip ++ '.' :: c :: ds) = .ok (.scalar (FArith.ofDec (decimal ip) (decimal ds)) : AST F) := by
    unfold parseValue
    rw [hcont '[' (by decide), hval]
    rfl
  obtain ⟨d, r, rfl⟩ := List.exists_cons_of_ne_nil h0
  have hd := h1 d (by simp)
  unfold parseAtom
  rw [hcont '(' (by decide), hv]
  have hcα : UTable.isAlphabetic d = false ∧ d ≠ '\\' ∧ d ≠ '{' := by
    refine ⟨?_, digit_ne hd (by decide), digit_ne hd (by decide)⟩
    rw [UTable.alpha_ascii d (isDigit_ascii hd).1]
    cases ha : d.isAlpha with
    | false => rfl
    | true =>
      exfalso
      simp only [Char.isDigit, Bool.and_eq_true, decide_eq_true_eq, ge_iff_le, UInt32.le_iff_toNat_le] at hd
      simp only [Char.isAlpha, Char.isUpper, Char.isLower, Bool.or_eq_true, Bool.and_eq_true, decide_eq_true_eq,
        ge_iff_le, UInt32.le_iff_toNat_le] at ha
      simp at hd ha
      omega
  rw [List.cons_append]
  have i0 : (idx (d :: (r ++ '.' :: c :: ds)) 0 : Out ParserError Char) = .ok d := rfl
  obtain ⟨cl, i1⟩ : ∃ cl, (idx (d :: (r ++ '.' :: c :: ds)) ((d :: (r ++ '.' :: c :: ds)).length - 1) : Out ParserError Char) = .ok cl :=
    ⟨_, idx_lt (by simp)⟩
  rw [i0, i1]
  simp [hcα.1, hcα.2.1, hcα.2.2]

theorem literal_no_blank {s : Str} {m : Nat} {e : Int} (h : Literal s m e) : ∀ c ∈ s, isWhitespace c = false := by
  intro c hc
  cases h with
  | whole ip h0 h1 => exact (isDigit_ascii (h1 c hc)).2.1
  | point ip fp h0 h1 h2 =>
    simp only [List.mem_append, List.mem_cons] at hc
    rcases hc with hc | rfl | hc
    · exact (isDigit_ascii (h1 c hc)).2.1
    · decide
    · exact (isDigit_ascii (h2 c hc)).2.1
  | exponent ip x ds h0 hx hd h1 h2 =>
    simp only [List.mem_append, List.mem_cons] at hc
    rcases hc with hc | rfl | rfl | hc
    · exact (isDigit_ascii (h1 c hc)).2.1
    · decide
    · rcases hx with rfl | rfl <;> decide
    · exact (isDigit_ascii (h2 c hc)).2.1

/-- **C14.** A text without white space is read as a number exactly if it is a literal, and then as the number it spells. In
particular `1e5` is none (it is `1*e5`), but `1.e5` is. -/
theorem C14_exactly (cfg : Cfg) (s : Str) (hs : ∀ c ∈ s, ¬ WhiteSpace c) (a : F) :
    parse cfg s = .ok (.scalar a) ↔ ∃ m e, Literal s m e ∧ a = FArith.ofDec m e := by
  replace hs : ∀ c ∈ s, isWhitespace c = false := fun c hc => by
    rw [← Bool.not_eq_true, isWhitespace_iff]
    exact hs c hc
  constructor
  · intro h
    unfold parse at h
    rw [stripBlanks_good hs] at h
    obtain ⟨h1, h2, h3⟩ := scalar_inv h
    exact literal_of_scalar h1 h2 h3
  · rintro ⟨m, e, h, rfl⟩
    cases h with
    | whole ip h0 h1 => exact (C14_numeral cfg s [] h1 (by simp)).1 h0
    | point ip fp h0 h1 h2 =>
      have h0' : ip ≠ [] ∨ fp ≠ [] := by
        by_contra hc
        push Not at hc
        exact h0 (by rw [hc.1, hc.2]; rfl)
      rw [(C14_numeral cfg ip fp h1 h2).2 h0']
      have : decimal (ip ++ fp) = decimal ip * 10 ^ fp.length + decimal fp := by
        unfold decimal
        rw [List.reverse_append, List.map_append, Nat.ofDigits_append]
        simp only [List.length_map, List.length_reverse]
        ring
      rw [this]
    | exponent ip x ds h0 hx hd h1 h2 =>
      unfold parse
      rw [stripBlanks_good hs]
      exact parse_exponent h0 hx hd h1 h2

/-- `5.e3` is 5000. -/
example (cfg : Cfg) : parse cfg "5.e3".toList = .ok (.scalar (FArith.ofDec 5 3) : AST F) :=
  (C14_exactly cfg _ (by unfold WhiteSpace; decide) _).2 ⟨5, 3, .exponent ['5'] 'e' ['3'] (by decide) (by decide) (by decide) (by decide) (by decide), rfl⟩

/-! ## C12: brackets in brackets -/

/-- **C12.** A bracket one of whose entries is itself a matrix literal is rejected, whatever the other entries are. -/
theorem C12_nested (cfg : Cfg) (es : List Ex) (hwf : ∀ e ∈ es, e.WF) (hm : ∃ rows, Ex.mat rows ∈ es) :
    (parse cfg (Ex.vec es).text : Out ParserError (AST F)) = .err (.parseValue (Ex.vec es).text) := by
  obtain ⟨rows, hm⟩ := hm
  have hgood := good_all fun e he => good_text e (hwf e he)
  have hg : Good (Ex.vec es).text := group_good .bracket (bal_commas _ fun p hp => (hgood p hp).bal)
  unfold parse
  rw [stripBlanks_good hg.noWs]
  have et : (Ex.vec es).text = ['['] ++ commas (textAll es) ++ [']'] := rfl
  rw [et, step_bracket (by rw [textAll_eq]; simpa using List.ne_nil_of_mem hm) hgood
    (mapM_texts fun e he => parse_text cfg e (hwf e he))]
  have h2 : (treeAll cfg es : List (AST F)).any AST.isMatrix = true := by
    rw [treeAll_eq, List.any_eq_true]
    exact ⟨_, List.mem_map_of_mem hm, rfl⟩
  rw [h2]
  simp

/-- **C12.** A bracket that mixes inner lists with other entries is rejected with `NotRectMatrix`. -/
theorem C12_mixed (cfg : Cfg) (es : List Ex) (hwf : ∀ e ∈ es, e.WF) (hv : ∃ r, Ex.vec r ∈ es) (hn : ∀ rows, Ex.mat rows ∉ es)
    (hx : ∃ e ∈ es, e.isBracket = false) :
    (parse cfg (Ex.vec es).text : Out ParserError (AST F)) = .err .notRectMatrix := by
  obtain ⟨r, hv⟩ := hv
  have hgood := good_all fun e he => good_text e (hwf e he)
  have hg : Good (Ex.vec es).text := group_good .bracket (bal_commas _ fun p hp => (hgood p hp).bal)
  unfold parse
  rw [stripBlanks_good hg.noWs]
  have et : (Ex.vec es).text = ['['] ++ commas (textAll es) ++ [']'] := rfl
  rw [et, step_bracket (by rw [textAll_eq]; simpa using List.ne_nil_of_mem hv) hgood
    (mapM_texts fun e he => parse_text cfg e (hwf e he))]
  have h1 : (treeAll cfg es : List (AST F)).any AST.isVector = true := by
    rw [treeAll_eq, List.any_eq_true]
    exact ⟨_, List.mem_map_of_mem hv, rfl⟩
  have h2 : (treeAll cfg es : List (AST F)).any AST.isMatrix = false := by
    rw [treeAll_eq, List.any_eq_false]
    simp only [List.mem_map]
    rintro _ ⟨e, he, rfl⟩
    by_cases hb : e.isBracket = false
    · rw [(tree_notBracket hb).2]; simp
    · cases e <;> simp [Ex.isBracket] at hb
      · simp [Ex.tree, AST.isMatrix]
      · exact absurd he (hn _)
  rw [h1, h2]
  have h3 : (treeAll cfg es : List (AST F)).mapM asRow = .err .notRectMatrix := by
    clear h1 h2 et hg hgood hv hn r
    induction es with
    | nil => obtain ⟨e, he, _⟩ := hx; cases he
    | cons e es ih =>
      simp only [treeAll, List.mapM_cons]
      by_cases hb : e.isBracket = false
      · have : asRow (e.tree cfg : AST F) = .err .notRectMatrix := by
          cases e <;> simp [Ex.tree, asRow, Ex.isBracket] at hb ⊢
        rw [this]; rfl
      · have hx' : ∃ e ∈ es, e.isBracket = false := by
          obtain ⟨e', he', hb'⟩ := hx
          rcases List.mem_cons.1 he' with rfl | h
          · exact absurd hb' hb
          · exact ⟨e', h, hb'⟩
        rw [ih (fun e he => hwf e (by simp [he])) hx']
        cases e <;> simp [Ex.isBracket] at hb <;> rfl
  rw [h3]
  rfl

/-- `[[[1,2],[3,4]]]` and `[[1,2],3]` are rejected. -/
example (cfg : Cfg) : (parse cfg "[[[1,2],[3,4]]]".toList : Out ParserError (AST F)) = .err (.parseValue "[[[1,2],[3,4]]]".toList) ∧
    (parse cfg "[[1,2],3]".toList : Out ParserError (AST F)) = .err .notRectMatrix := by
  have w : ∀ c : Char, c.isDigit = true → (Ex.num [c] none).WF := fun c hc => ⟨by simpa using hc, nofun, .inl (by simp)⟩
  refine ⟨C12_nested cfg [.mat [[.num "1".toList none, .num "2".toList none], [.num "3".toList none, .num "4".toList none]]] ?_ ⟨_, .head _⟩,
    C12_mixed cfg [.vec [.num "1".toList none, .num "2".toList none], .num "3".toList none] ?_ ⟨_, .head _⟩ (by simp) ⟨.num "3".toList none, by simp, rfl⟩⟩
  · intro e he
    simp at he
    subst he
    exact ⟨by simp, ⟨⟨w _ (by decide), w _ (by decide), trivial⟩, ⟨w _ (by decide), w _ (by decide), trivial⟩, trivial⟩, 2, by decide,
      by simp [Ex.isBracket]⟩
  · intro e he
    simp at he
    rcases he with rfl | rfl
    · exact ⟨by simp, ⟨w _ (by decide), w _ (by decide), trivial⟩, by simp [Ex.isBracket]⟩
    · exact w _ (by decide)

end
end MUL
