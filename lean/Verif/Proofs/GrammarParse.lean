import Verif.Proofs.GrammarOps
import Verif.Props.ParserBasics
/-!
# Lemmas for C09: the parser reads the text of an expression back
-/

set_option linter.unusedSimpArgs false

namespace MUL
open Spec

/-- What the first loop of the parser checks: no parenthesis group ends before the end of the text. -/
theorem checkLoop_check (n : Nat) (s : Str) (i : Nat) (d : Int) (b : Bool) :
    (checkLoop n s i d b).2 = true ↔
      b = true ∧ ∀ j, s[j]? = some ')' → d + parens (s.take (j + 1)) = 0 → i + j = n - 1 := by
  induction s generalizing i d b with
  | nil => simp [checkLoop]
  | cons c s ih =>
    have hd : (if (c == ')') = true then (if (c == '(') = true then d + 1 else d) - 1
        else (if (c == '(') = true then d + 1 else d)) = d + parens [c] := by
      rw [parens_cons]
      by_cases h1 : c = '('
      · subst h1; simp [parens]
      · by_cases h2 : c = ')'
        · subst h2; simp [parens]; omega
        · simp [h1, h2, parens]
    have hcons : ∀ t : Str, parens (c :: t) = parens [c] + parens t := fun t => parens_append [c] t
    rw [checkLoop]
    simp only [hd]
    rw [ih]
    constructor
    · rintro ⟨h1, h2⟩
      by_cases hh : (c == ')' && d + parens [c] == 0 && i != n - 1) = true
      · rw [if_pos hh] at h1; cases h1
      · rw [if_neg hh] at h1
        refine ⟨h1, fun j hj hp => ?_⟩
        cases j with
        | zero =>
          simp at hj; subst hj
          simp only [Nat.zero_add, List.take_succ_cons, List.take_zero] at hp
          simp [hp] at hh
          omega
        | succ j =>
          have := h2 j (by simpa using hj) (by rw [List.take_succ_cons, hcons] at hp; omega)
          omega
    · rintro ⟨h1, h2⟩
      refine ⟨?_, fun j hj hp => ?_⟩
      · by_cases hh : (c == ')' && d + parens [c] == 0 && i != n - 1) = true
        · exfalso
          simp only [Bool.and_eq_true, beq_iff_eq, bne_iff_ne, ne_eq] at hh
          have := h2 0 (by simp [hh.1.1]) (by simpa using hh.1.2)
          exact hh.2 (by omega)
        · rw [if_neg hh]; exact h1
      · have := h2 (j + 1) (by simpa using hj) (by rw [List.take_succ_cons, hcons]; omega)
        omega

variable [UTable] {F : Type} [FArith F]

theorem step_paren {cfg : Cfg} {rec : Str → Out ParserError (AST F)} {s : Str} (hs : Bal s) :
    parseStep cfg rec (['('] ++ s ++ [')']) =
      (rec s >>= fun l => .ok (.simple .parenths l (.scalar (FArith.ofInt 0)))) := by
  have e : ['('] ++ s ++ [')'] = '(' :: (s ++ [')']) := by simp
  rw [e]
  have hb := bal_group .paren hs
  have hd := checkLoop_depth ('(' :: (s ++ [')'])).length ('(' :: (s ++ [')'])) 0 0 true
  rw [hb.p0] at hd
  have hc : (checkLoop ('(' :: (s ++ [')'])).length ('(' :: (s ++ [')'])) 0 0 true).2 = true := by
    rw [checkLoop_check]
    refine ⟨rfl, fun j hj hp => ?_⟩
    by_cases hle : j + 1 ≤ s.length + 1
    · have h1 := group_depths .paren hs (j + 1) (by omega) hle
      rw [List.take_succ_cons] at h1 hp
      rw [List.take_append_of_le_length (by omega)] at h1 hp
      rw [parens_cons] at hp
      have := hs.p j
      simp at hp
      omega
    · have hl : ('(' :: (s ++ [')'])).length = s.length + 2 := by simp
      have := (List.getElem?_eq_some_iff.1 hj).1
      omega
  unfold parseStep
  simp only [List.isEmpty_cons, Bool.false_eq_true, if_false]
  rw [if_neg (by omega), if_neg (by omega), hc]
  have i0 : (idx ('(' :: (s ++ [')'])) 0 : Out ParserError Char) = .ok '(' := rfl
  have i1 : (idx ('(' :: (s ++ [')'])) (('(' :: (s ++ [')'])).length - 1) : Out ParserError Char) = .ok ')' := by
    unfold idx
    have : ('(' :: (s ++ [')'])).length - 1 = s.length + 1 := by simp
    rw [this]
    simp [Out.unwrap]
  rw [i0, i1]
  simp only [Out.ok_bind, beq_self_eq_true, Bool.and_self, if_true]
  have i2 : (slice ('(' :: (s ++ [')'])) 1 (('(' :: (s ++ [')'])).length - 1) : Out ParserError Str) = .ok s := by
    rw [slice_ok (by simp) (by omega)]
    have : ('(' :: (s ++ [')'])).length - 1 = s.length + 1 := by simp
    rw [this]
    simp
  rw [i2]
  rfl

/-- Not a parenthesised text: the parser goes on with the operators. -/
theorem step_noParen' {cfg : Cfg} {rec : Str → Out ParserError (AST F)} {cs : Str} (hne : cs ≠ []) (hp0 : parens cs = 0)
    (h : cs.head? = some '(' → ∃ j, cs[j]? = some ')' ∧ parens (cs.take (j + 1)) = 0 ∧ j ≠ cs.length - 1) :
    parseStep cfg rec cs =
      (match splitOp cs with
        | some i => do
          let leftS ← slice cs 0 (i.pos - i.skipL)
          let rightS ← slice cs (i.pos + i.skipR) cs.length
          let r ← rec rightS
          if leftS.isEmpty then .ok (.simple i.op (.scalar (FArith.ofInt 0)) r)
          else do
            let l ← rec leftS
            .ok (.simple i.op l r)
        | none =>
          match parseFunction rec cs with
          | some res => res
          | none =>
            match parseAdvanced rec cs with
            | some res => res
            | none => parseAtom cfg rec cs) := by
  obtain ⟨c, r, rfl⟩ := List.exists_cons_of_ne_nil hne
  have hd := checkLoop_depth (c :: r).length (c :: r) 0 0 true
  rw [hp0] at hd
  rw [parseStep]
  simp only [List.isEmpty_cons, Bool.false_eq_true, if_false]
  rw [if_neg (by omega), if_neg (by omega)]
  have i0 : (idx (c :: r) 0 : Out ParserError Char) = .ok c := rfl
  have i1 : ∃ cl, (idx (c :: r) ((c :: r).length - 1) : Out ParserError Char) = .ok cl := ⟨_, idx_lt (by simp)⟩
  obtain ⟨cl, i1⟩ := i1
  rw [i0, i1]
  simp only [Out.ok_bind]
  rw [if_neg ?_]
  · rfl
  intro hh
  simp only [Bool.and_eq_true, beq_iff_eq] at hh
  obtain ⟨⟨h1, rfl⟩, _⟩ := hh
  obtain ⟨j, hj, hp, hne⟩ := h rfl
  have := ((checkLoop_check _ _ _ _ _).1 h1).2 j hj (by omega)
  omega

theorem step_noParen {cfg : Cfg} {rec : Str → Out ParserError (AST F)} {cs : Str} (hg : Good cs)
    (h : cs.head? = some '(' → ∃ j, cs[j]? = some ')' ∧ parens (cs.take (j + 1)) = 0 ∧ j ≠ cs.length - 1) :
    parseStep cfg rec cs =
      (match splitOp cs with
        | some i => do
          let leftS ← slice cs 0 (i.pos - i.skipL)
          let rightS ← slice cs (i.pos + i.skipR) cs.length
          let r ← rec rightS
          if leftS.isEmpty then .ok (.simple i.op (.scalar (FArith.ofInt 0)) r)
          else do
            let l ← rec leftS
            .ok (.simple i.op l r)
        | none =>
          match parseFunction rec cs with
          | some res => res
          | none =>
            match parseAdvanced rec cs with
            | some res => res
            | none => parseAtom cfg rec cs) :=
  step_noParen' hg.ne hg.p0 h

/-- The group at the front of a text that starts with a parenthesis closes. -/
theorem front_group (e : Ex) : e.WF → e.text.head? = some '(' →
    ∃ j, e.text[j]? = some ')' ∧ parens (e.text.take (j + 1)) = 0 := by
  have hname : ∀ n t : Str, NameShape n → (n ++ t).head? ≠ some '(' := by
    intro n t hn h
    obtain ⟨c, r, rfl, hc⟩ := validName_head hn.1
    simp at h
    subst h
    have : UTable.isAlphabetic '(' = false := UTable.alpha_ascii '(' (by decide)
    rw [this] at hc
    rcases hc with h | h
    · cases h
    · revert h; decide
  induction e using Ex.ind with
  | num ip fp =>
    rintro ⟨h1, h2, h3⟩ h
    exfalso
    have := num_plain h1 h2 '(' (List.mem_of_mem_head? (by simpa using h))
    revert this; decide
  | var n => intro hn h; exact absurd (by simpa [Ex.text] using h) (hname n [] hn)
  | paren e ih =>
    intro hw _
    have hg := good_text e hw
    refine ⟨e.text.length + 1, ?_, ?_⟩
    · simp [Ex.text]
    · have : (Ex.paren e).text = '(' :: (e.text ++ [')']) := by simp [Ex.text]
      rw [this, List.take_of_length_le (by simp)]
      exact (bal_group .paren hg.bal).p0
  | fn n op e ih => rintro ⟨h1, _⟩ h; exact absurd (by simpa [Ex.text] using h) (hname n ('(' :: (e.text ++ [')'])) (builtin_shape h1))
  | root a b iha ihb => rintro _ h; simp [Ex.text] at h
  | call n args ih => rintro ⟨h1, _⟩ h; exact absurd (by simpa [Ex.text] using h) (hname n ('(' :: (commas (textAll args) ++ [')'])) h1)
  | vec es ih => intro _ h; simp [Ex.text] at h
  | mat rows ih => intro _ h; simp [Ex.text] at h
  | list es ih => intro _ h; simp [Ex.text] at h
  | neg e ih => intro _ h; simp [Ex.text] at h
  | bin op l r ihl ihr =>
    rintro ⟨h1, h2, _⟩ h
    obtain ⟨c, t, hc⟩ := List.exists_cons_of_ne_nil (good_text l h1).ne
    have hl : l.text.head? = some '(' := by
      rw [Ex.text, hc] at h
      rw [hc]; simpa using h
    obtain ⟨j, hj, hp⟩ := ihl h1 hl
    have hlt := (List.getElem?_eq_some_iff.1 hj).1
    refine ⟨j, ?_, ?_⟩
    · rw [Ex.text, List.append_assoc, List.getElem?_append_left hlt]; exact hj
    · rw [Ex.text, List.append_assoc, List.take_append_of_le_length (by omega)]; exact hp
  | integ e x lo hi ihe ihl ihh => intro _ h; simp [Ex.text] at h
  | deriv e x a ihe iha => intro _ h; simp [Ex.text] at h
  | eqs ls rs vars ihl ihr => intro _ h; simp [Ex.text] at h

/-! ## operators -/

theorem parse_bin {cfg : Cfg} {op : BinOp} {l r : Ex} (hw : (Ex.bin op l r).WF)
    (hl : parseInner cfg l.text = .ok (l.tree cfg : AST F)) (hr : parseInner cfg r.text = .ok (r.tree cfg : AST F)) :
    parseInner cfg (Ex.bin op l r).text = .ok ((Ex.bin op l r).tree cfg : AST F) := by
  have hg := good_text _ hw
  obtain ⟨h1, h2, h3, h4, h5⟩ := hw
  have hgl := good_text l h1
  have hgr := good_text r h2
  have hlp : 0 < l.text.length := List.length_pos_iff.2 hgl.ne
  have hrp : 0 < r.text.length := List.length_pos_iff.2 hgr.ne
  have hlen : (Ex.bin op l r).text.length = l.text.length + op.text.length + r.text.length := by
    simp [Ex.text]; omega
  rw [parseInner_eq, step_noParen hg]
  · have hsp : splitOp (Ex.bin op l r).text = some ⟨op.op, l.text.length, 0, op.text.length⟩ := by
      obtain ⟨mid, hm, hm', he⟩ := bin_ops (op := op) hgl hgr [] []
      rw [hm' rfl rfl h5] at he
      have hops : opsInExpr (Ex.bin op l r).text =
          opsLoop (l.text ++ (op.text ++ r.text)) l.text 0 '\\' 0 0 0 ++ ⟨op.op, l.text.length, 0, op.text.length⟩ ::
          opsLoop (l.text ++ (op.text ++ r.text)) r.text (l.text.length + op.text.length) '\\' 0 0 0 := by
        unfold opsInExpr
        rw [Ex.text]
        simpa using he
      refine splitOp_of hops ?_ ?_
      · show op.op ∈ opTypes
        cases op <;> decide
      · have hA : ∀ x ∈ opsLoop (l.text ++ (op.text ++ r.text)) l.text 0 '\\' 0 0 0, l.level ≤ opTypes.idxOf x.op := by
          intro x hx
          rcases ops_level l h1 [] (op.text ++ r.text) x (by simpa using hx) with h | h
          · exact h
          · exact absurd rfl h.2.1
        have hB : ∀ x ∈ opsLoop (l.text ++ (op.text ++ r.text)) r.text (l.text.length + op.text.length) '\\' 0 0 0,
            r.level ≤ opTypes.idxOf x.op ∨ op = .add := by
          intro x hx
          rcases ops_level r h2 (l.text ++ op.text) [] x (by simpa using hx) with h | h
          · exact Or.inl h
          · right
            by_cases ho : op = .add
            · exact ho
            · exact absurd h.1 (h4 ho)
        simp only [idxOf_binop]
        have hassoc : (op.op = .sub ∨ op.op = .mult) ↔ op.leftAssoc = true := by cases op <;> decide
        by_cases hla : op.leftAssoc = true
        · rw [if_pos (hassoc.2 hla)]
          rw [if_pos hla] at h3
          refine ⟨fun x hx => by have := hA x (by simpa using hx); omega, fun x hx => ?_⟩
          rcases hB x (by simpa using hx) with h | h
          · omega
          · subst h; cases hla
        · rw [if_neg (fun h => hla (hassoc.1 h))]
          rw [if_neg hla] at h3
          refine ⟨fun x hx => by have := hA x (by simpa using hx); omega, fun x hx => ?_⟩
          rcases hB x (by simpa using hx) with h | h
          · omega
          · subst h; exact Nat.zero_le _
    rw [hsp]
    simp only
    rw [slice_ok (by omega) (by omega), slice_ok (by omega) (by omega)]
    have e1 : ((Ex.bin op l r).text.take (l.text.length - 0)).drop 0 = l.text := by
      simp [Ex.text]
    have e2 : ((Ex.bin op l r).text.take (Ex.bin op l r).text.length).drop (l.text.length + op.text.length) = r.text := by
      rw [List.take_length, Ex.text, List.drop_append]
      simp
    rw [e1, e2]
    simp only [Out.ok_bind]
    rw [hr, hl]
    have : l.text.isEmpty = false := by simpa using hgl.ne
    rw [this]
    rfl
  · intro hh
    obtain ⟨c, t, hc⟩ := List.exists_cons_of_ne_nil hgl.ne
    have hl' : l.text.head? = some '(' := by
      rw [Ex.text, hc] at hh
      rw [hc]; simpa using hh
    obtain ⟨j, hj, hp⟩ := front_group l h1 hl'
    have hlt := (List.getElem?_eq_some_iff.1 hj).1
    refine ⟨j, ?_, ?_, by omega⟩
    · rw [Ex.text, List.append_assoc, List.getElem?_append_left hlt]; exact hj
    · rw [Ex.text, List.append_assoc, List.take_append_of_le_length (by omega)]; exact hp

theorem parse_neg {cfg : Cfg} {e : Ex} (hw : (Ex.neg e).WF)
    (he : parseInner cfg e.text = .ok (e.tree cfg : AST F)) :
    parseInner cfg (Ex.neg e).text = .ok ((Ex.neg e).tree cfg : AST F) := by
  have hg := good_text _ hw
  obtain ⟨h1, h2⟩ := hw
  have hge := good_text e h1
  have hep : 0 < e.text.length := List.length_pos_iff.2 hge.ne
  have et : (Ex.neg e).text = '-' :: e.text := rfl
  rw [parseInner_eq, step_noParen hg (by intro h; simp [et] at h)]
  have hne : e.text.head? ≠ some '-' := fun h => by have := startsNeg e h1 h; omega
  obtain ⟨c, t, hc⟩ := List.exists_cons_of_ne_nil hge.ne
  have hsp : splitOp (Ex.neg e).text = some ⟨.neg, 0, 0, 1⟩ := by
    have hops : opsInExpr (Ex.neg e).text = [] ++ ⟨.neg, 0, 0, 1⟩ ::
        opsLoop (['-'] ++ e.text ++ []) e.text ['-'].length '\\' 0 0 0 := by
      unfold opsInExpr
      rw [et, opsLoop_cons]
      have b1 : parens ['-'] = 0 := by decide
      have b2 : brackets ['-'] = 0 := by decide
      have b3 : braces ['-'] = 0 := by decide
      rw [b1, b2, b3]
      simp only [Int.add_zero]
      have hs : scanChar ('-' :: e.text) 0 '\\' '-' 0 0 0 = [⟨.neg, 0, 0, 1⟩] := by
        rw [scanChar, isHiddenMult_false (Or.inr ⟨UTable.alpha_ascii _ (by decide), by decide, by decide, by decide⟩)]
        simp [getOpSymbol]
        omega
      rw [hs]
      have : opsLoop ('-' :: e.text) e.text (0 + 1) '-' 0 0 0 = opsLoop (['-'] ++ e.text ++ []) e.text ['-'].length '\\' 0 0 0 := by
        conv_lhs => rw [hc, opsLoop_last, isHiddenMult_false (Or.inl (by decide)), ← hc]
        simp
      rw [this]
      rfl
    refine splitOp_of hops (by decide) ?_
    rw [if_neg (by decide)]
    refine ⟨by simp, fun x hx => ?_⟩
    rcases ops_level e h1 ['-'] [] x hx with h | h
    · have : opTypes.idxOf SimpleOp.neg = 4 := by decide
      simp only [this]; omega
    · exact absurd h.1 hne
  rw [hsp]
  simp only
  rw [slice_ok (by omega) (by omega), slice_ok (by rw [et]; simp) (by omega)]
  have e2 : ((Ex.neg e).text.take (Ex.neg e).text.length).drop (0 + 1) = e.text := by
    rw [List.take_length, et]; simp
  rw [e2]
  simp only [Out.ok_bind]
  rw [he]
  rfl

/-! ## atoms -/

omit [UTable] in
/-- A text `name(…` starts with `m(` only if the names agree. -/
theorem startsWith_name {n m t : Str} (hn : '(' ∉ n) (hm : '(' ∉ m) :
    startsWith (n ++ ['('] ++ t) (m ++ ['(']) = true ↔ m = n := by
  unfold startsWith
  rw [List.isPrefixOf_iff_prefix]
  constructor
  · rintro ⟨r, hr⟩
    have key : ∀ (s u : Str), '(' ∉ s → (s ++ '(' :: u).takeWhile (· != '(') = s := by
      intro s u hs
      rw [List.takeWhile_append_of_pos (by
        intro c hc
        simp only [bne_iff_ne, ne_eq]
        rintro rfl
        exact hs hc)]
      simp
    have h1 := key m r hm
    have h2 := key n t hn
    have : m ++ '(' :: r = n ++ '(' :: t := by simpa using hr
    rw [this, h2] at h1
    exact h1.symm
  · rintro rfl
    exact ⟨t, by simp⟩

omit [UTable] in
theorem functionLookUp_eq : functionLookUp =
    [("sin", SimpleOp.sin), ("cos", .cos), ("tan", .tan), ("abs", .abs), ("sqrt", .sqrt), ("root", .root), ("ln", .ln),
     ("arcsin", .arcsin), ("arccos", .arccos), ("arctan", .arctan), ("det", .det), ("inv", .inv)].map
      fun (p : String × SimpleOp) => (p.2, p.1.toList ++ ['(']) := by decide

omit [UTable] in
theorem lookUp_paren {x : SimpleOp × Str} (h : x ∈ functionLookUp) : ∃ m : Str, x.2 = m ++ ['('] ∧ '(' ∉ m ∧ m ∈ reserved := by
  have : ∀ x ∈ functionLookUp, x.2 = x.2.dropLast ++ ['('] ∧ '(' ∉ x.2.dropLast ∧ x.2.dropLast ∈ reserved := by decide
  exact ⟨_, this x h⟩

omit [UTable] in
/-- The built-in function a text `name(…` starts with. -/
theorem lookUp_name {n t : Str} (hn : '(' ∉ n) :
    (functionLookUp.find? fun i => startsWith (n ++ ['('] ++ t) i.2) =
      functionLookUp.find? fun i => i.2 == n ++ ['('] := by
  have key : ∀ l : List (SimpleOp × Str), (∀ x ∈ l, x ∈ functionLookUp) →
      (l.find? fun i => startsWith (n ++ ['('] ++ t) i.2) = l.find? fun i => i.2 == n ++ ['('] := by
    intro l
    induction l with
    | nil => intro _; rfl
    | cons x l ih =>
      intro hx
      have hb : startsWith (n ++ ['('] ++ t) x.2 = (x.2 == n ++ ['(']) := by
        obtain ⟨m, hm, hmp, _⟩ := lookUp_paren (hx x (by simp))
        rw [hm, Bool.eq_iff_iff, startsWith_name hn hmp]
        simp
      simp only [List.find?_cons, hb]
      rw [ih fun y hy => hx y (by simp [hy])]
  exact key _ fun _ h => h

omit [UTable] in
theorem startsWith_head {c d : Char} {s p : Str} (h : c ≠ d) : startsWith (c :: s) (d :: p) = false := by
  simp [startsWith, List.isPrefixOf, Ne.symm h]

omit [UTable] in
/-- Texts that start with something else than a letter are no function calls. -/
theorem no_function {rec : Str → Out ParserError (AST F)} {c : Char} {s : Str} (h : c.isAlpha = false) :
    parseFunction rec (c :: s) = none ∧ parseAdvanced rec (c :: s) = none := by
  have hne : ∀ d : Char, d.isAlpha = true → c ≠ d := by rintro d hd rfl; rw [h] at hd; cases hd
  constructor
  · have : (functionLookUp.find? fun i => startsWith (c :: s) i.2) = none := by
      rw [List.find?_eq_none]
      intro x hx
      have : ∃ d p, x.2 = d :: p ∧ d.isAlpha = true := by
        have key : ∀ x ∈ functionLookUp, (x.2.headD '(').isAlpha = true ∧ x.2 ≠ [] := by decide
        obtain ⟨h1, h2⟩ := key x hx
        obtain ⟨d, p, hd⟩ := List.exists_cons_of_ne_nil h2
        exact ⟨d, p, hd, by rw [hd] at h1; exact h1⟩
      obtain ⟨d, p, hd, hα⟩ := this
      rw [hd, startsWith_head (hne d hα)]
      simp
    simp [parseFunction, this]
  · have h1 : startsWith (c :: s) "I(".toList = false := startsWith_head (hne 'I' (by decide))
    have h2 : startsWith (c :: s) "D(".toList = false := startsWith_head (hne 'D' (by decide))
    have h3 : startsWith (c :: s) "eq(".toList = false := startsWith_head (hne 'e' (by decide))
    unfold parseAdvanced
    rw [h1, h2, h3]
    rfl

omit [UTable] in
theorem no_function' {rec : Str → Out ParserError (AST F)} {s : Str} (h : '(' ∉ s) :
    parseFunction rec s = none ∧ parseAdvanced rec s = none := by
  have hf : ∀ m : Str, startsWith s (m ++ ['(']) = false := by
    intro m
    cases hh : startsWith s (m ++ ['(']) with
    | false => rfl
    | true =>
      obtain ⟨r, rfl⟩ := startsWith_length hh
      exact absurd (by simp) h
  constructor
  · have : (functionLookUp.find? fun i => startsWith s i.2) = none := by
      rw [List.find?_eq_none]
      intro x hx
      obtain ⟨m, hm, _⟩ := lookUp_paren hx
      rw [hm, hf]; simp
    simp [parseFunction, this]
  · have h1 : startsWith s "I(".toList = false := hf ['I']
    have h2 : startsWith s "D(".toList = false := hf ['D']
    have h3 : startsWith s "eq(".toList = false := hf ['e', 'q']
    unfold parseAdvanced
    rw [h1, h2, h3]
    rfl

/-- A text that is no parenthesised text and in which no operator is found. -/
theorem step_atom {cfg : Cfg} {rec : Str → Out ParserError (AST F)} {cs : Str} (hg : Good cs)
    (h : cs.head? ≠ some '(') (ho : opsLoop cs cs 0 '\\' 0 0 0 = []) :
    parseStep cfg rec cs =
      (match parseFunction rec cs with
          | some res => res
          | none =>
            match parseAdvanced rec cs with
            | some res => res
            | none => parseAtom cfg rec cs) := by
  rw [step_noParen hg fun hh => absurd hh h, splitOp_none ho]

theorem name_head {n t : Str} (hn : NameShape n) : (n ++ t).head? ≠ some '(' := by
  intro h
  obtain ⟨c, r, rfl, hc⟩ := validName_head hn.1
  simp at h
  subst h
  have : UTable.isAlphabetic '(' = false := UTable.alpha_ascii '(' (by decide)
  rw [this] at hc
  rcases hc with h | h
  · cases h
  · revert h; decide

theorem name_noParen {n : Str} (hn : NameShape n) : '(' ∉ n := fun h => by simpa using hn.2.2.1 '(' h

/-- `name(inner)` without operators outside. -/
theorem step_call {cfg : Cfg} {rec : Str → Out ParserError (AST F)} {n s : Str} (hn : NameShape n) (hs : Bal s) :
    parseStep cfg rec (n ++ ['('] ++ s ++ [')']) =
      (match parseFunction rec (n ++ ['('] ++ s ++ [')']) with
          | some res => res
          | none =>
            match parseAdvanced rec (n ++ ['('] ++ s ++ [')']) with
            | some res => res
            | none => parseAtom cfg rec (n ++ ['('] ++ s ++ [')'])) := by
  have := call_ops hn hs [] []
  simp only [List.nil_append, List.append_nil, List.length_nil] at this
  refine step_atom (call_good hn hs) ?_ this
  have := name_head (t := ['('] ++ s ++ [')']) hn
  simpa using this

omit [UTable] in
theorem slice_call {n s : Str} :
    (slice (n ++ ['('] ++ s ++ [')']) (n ++ ['(']).length ((n ++ ['('] ++ s ++ [')']).length - 1) : Out ParserError Str) = .ok s := by
  rw [slice_ok (by simp) (by omega)]
  congr 1
  have : (n ++ ['('] ++ s ++ [')']).length - 1 = (n ++ ['('] ++ s).length := by simp
  rw [this, List.take_left', List.drop_left']
  · rfl
  · rfl

theorem parse_fn {cfg : Cfg} {n : Str} {op : SimpleOp} {e : Ex} (hw : (Ex.fn n op e).WF)
    (he : parseInner cfg e.text = .ok (e.tree cfg : AST F)) :
    parseInner cfg (Ex.fn n op e).text = .ok ((Ex.fn n op e).tree cfg : AST F) := by
  obtain ⟨h1, h2⟩ := hw
  have hn := builtin_shape h1
  rw [parseInner_eq]
  have et : (Ex.fn n op e).text = n ++ ['('] ++ e.text ++ [')'] := rfl
  rw [et, step_call hn (good_text e h2).bal]
  have hf : parseFunction (parseInner cfg) (n ++ ['('] ++ e.text ++ [')']) =
      some (.ok (.simple op (e.tree cfg : AST F) (.scalar (FArith.ofInt 0)))) := by
    unfold parseFunction
    have hl := lookUp_name (t := e.text ++ [')']) (name_noParen hn)
    rw [← List.append_assoc] at hl
    rw [hl]
    have key : ∀ x ∈ builtins, (functionLookUp.find? fun i => i.2 == x.1 ++ ['(']) = some (x.2, x.1 ++ ['(']) ∧ x.2 ≠ .root := by
      decide
    obtain ⟨k1, k2⟩ := key (n, op) h1
    simp only at k1 k2
    rw [k1]
    simp only
    rw [if_neg k2, slice_call]
    simp only [Out.ok_bind, he]
  rw [hf]
  rfl

theorem parse_root {cfg : Cfg} {a b : Ex} (hw : (Ex.root a b).WF)
    (ha : parseInner cfg a.text = .ok (a.tree cfg : AST F)) (hb : parseInner cfg b.text = .ok (b.tree cfg : AST F)) :
    parseInner cfg (Ex.root a b).text = .ok ((Ex.root a b).tree cfg : AST F) := by
  obtain ⟨h1, h2⟩ := hw
  have hgs : ∀ p ∈ [a.text, b.text], Good p := by
    intro p hp
    simp only [List.mem_cons, List.not_mem_nil, or_false] at hp
    rcases hp with rfl | rfl
    · exact good_text a h1
    · exact good_text b h2
  rw [parseInner_eq]
  have et : (Ex.root a b).text = "root".toList ++ ['('] ++ commas [a.text, b.text] ++ [')'] := rfl
  rw [et, step_call shape_root (bal_commas _ fun p hp => (hgs p hp).bal)]
  have hf : parseFunction (parseInner cfg) ("root".toList ++ ['('] ++ commas [a.text, b.text] ++ [')']) =
      some (.ok (.simple .root (a.tree cfg : AST F) (b.tree cfg))) := by
    unfold parseFunction
    have hl := lookUp_name (t := commas [a.text, b.text] ++ [')']) (name_noParen shape_root)
    rw [← List.append_assoc] at hl
    rw [hl]
    have k1 : (functionLookUp.find? fun i => i.2 == "root".toList ++ ['(']) = some (.root, "root".toList ++ ['(']) := by
      decide
    rw [k1]
    simp only
    rw [if_pos trivial, slice_call]
    simp only [Out.ok_bind]
    rw [getArgs_good _ (by simp) hgs]
    simp [idx, Out.unwrap, ha, hb]
  rw [hf]
  rfl

omit [UTable] in
/-- No built-in function starts the text `name(…` unless the name is reserved. -/
theorem call_notBuiltin {rec : Str → Out ParserError (AST F)} {n t : Str} (hn : '(' ∉ n) (hr : n ∉ builtins.map Prod.fst)
    (hr2 : n ≠ "root".toList) : parseFunction rec (n ++ ['('] ++ t) = none := by
  unfold parseFunction
  rw [lookUp_name hn]
  have : (functionLookUp.find? fun i => i.2 == n ++ ['(']) = none := by
    rw [List.find?_eq_none]
    intro x hx he
    have key : ∀ x ∈ functionLookUp, x.2.dropLast ∈ builtins.map Prod.fst ∨ x.2.dropLast = "root".toList := by decide
    have he : x.2 = n ++ ['('] := by simpa using he
    have := key x hx
    rw [he, List.dropLast_concat] at this
    exact this.elim hr hr2
  rw [this]

theorem mapM_texts {cfg : Cfg} {es : List Ex} (h : ∀ e ∈ es, parseInner cfg e.text = .ok (e.tree cfg : AST F)) :
    (textAll es).mapM (parseInner cfg) = .ok (treeAll cfg es : List (AST F)) := by
  induction es with
  | nil => rfl
  | cons e es ih =>
    simp only [textAll, treeAll, List.mapM_cons]
    rw [h e (by simp), ih fun e he => h e (by simp [he])]
    rfl

omit [UTable] in
theorem idx_last {s : Str} {c : Char} : (idx (s ++ [c]) ((s ++ [c]).length - 1) : Out ParserError Char) = .ok c := by
  unfold idx
  simp [Out.unwrap]

omit [UTable] in
theorem byteLen_ascii' {s : Str} (h : Ascii s) : byteLen s = s.length := byteLen_ascii s h

theorem parse_call {cfg : Cfg} {n : Str} {args : List Ex} (hw : (Ex.call n args).WF)
    (h : ∀ e ∈ args, parseInner cfg e.text = .ok (e.tree cfg : AST F)) :
    parseInner cfg (Ex.call n args).text = .ok ((Ex.call n args).tree cfg : AST F) := by
  obtain ⟨hn, hres, hne, hargs⟩ := hw
  rw [WFAll_iff] at hargs
  have hgs : ∀ p ∈ textAll args, Good p := good_all fun e he => good_text e (hargs e he)
  have hnp := name_noParen hn
  rw [parseInner_eq]
  have et : (Ex.call n args).text = n ++ ['('] ++ commas (textAll args) ++ [')'] := rfl
  rw [et, step_call hn (bal_commas _ fun p hp => (hgs p hp).bal)]
  simp only [reserved, List.mem_append, List.mem_cons, List.not_mem_nil, or_false, not_or] at hres
  obtain ⟨hr1, hr2, hr3, hr4, hr5⟩ := hres
  have hpf := call_notBuiltin (F := F) (rec := parseInner cfg) (t := commas (textAll args) ++ [')']) hnp hr1 hr2
  rw [← List.append_assoc] at hpf
  have hadv : parseAdvanced (F := F) (parseInner cfg) (n ++ ['('] ++ commas (textAll args) ++ [')']) = none := by
    have key : ∀ m : Str, '(' ∉ m → n ≠ m → startsWith (n ++ ['('] ++ commas (textAll args) ++ [')']) (m ++ ['(']) = false := by
      intro m hm hne
      cases hh : startsWith (n ++ ['('] ++ commas (textAll args) ++ [')']) (m ++ ['(']) with
      | false => rfl
      | true =>
        rw [List.append_assoc (n ++ ['('])] at hh
        exact absurd ((startsWith_name hnp hm).1 hh).symm hne
    have k1 : startsWith (n ++ ['('] ++ commas (textAll args) ++ [')']) "I(".toList = false := key ['I'] (by decide) hr3
    have k2 : startsWith (n ++ ['('] ++ commas (textAll args) ++ [')']) "D(".toList = false := key ['D'] (by decide) hr4
    have k3 : startsWith (n ++ ['('] ++ commas (textAll args) ++ [')']) "eq(".toList = false := key ['e', 'q'] (by decide) hr5
    unfold parseAdvanced
    rw [k1, k2, k3]
    rfl
  rw [hpf, hadv]
  simp only
  have htw : (n ++ ['('] ++ commas (textAll args) ++ [')']).takeWhile (· != '(') = n := by
    rw [List.append_assoc, List.append_assoc, List.takeWhile_append_of_pos (by
        intro c hc
        simp only [bne_iff_ne, ne_eq]
        rintro rfl
        exact hnp hc)]
    simp
  have hfp : findParen (n ++ ['('] ++ commas (textAll args) ++ [')']) = n.length := by
    unfold findParen
    rw [htw]
    exact byteLen_ascii' hn.2.1
  have hnl : 0 < n.length := List.length_pos_iff.2 (nameShape_ne_nil hn)
  unfold parseAtom
  have i0 : ∃ c0, (idx (n ++ ['('] ++ commas (textAll args) ++ [')']) 0 : Out ParserError Char) = .ok c0 := ⟨_, idx_lt (by simp; omega)⟩
  obtain ⟨c0, i0⟩ := i0
  rw [i0, idx_last, htw, hfp]
  simp only [Out.ok_bind]
  rw [if_pos (by have : n.length ≠ 0 := by omega
                 simp [nameShape_ne_nil hn])]
  have hsl := slice_call (n := n) (s := commas (textAll args))
  rw [List.length_append, List.length_singleton] at hsl
  rw [hsl]
  simp only [Out.ok_bind, parseAll]
  rw [getArgs_good _ (by simpa [textAll_eq] using hne) hgs, mapM_texts h]
  simp only [Out.ok_bind]
  have hv : (isValidVarName n : Out ParserError Bool) = .ok true := (nameOk_iff n).2 hn.1
  rw [hv]
  rfl

theorem parse_var {cfg : Cfg} {n : Str} (hn : NameShape n) :
    parseInner cfg n = .ok (.variable n : AST F) := by
  rw [parseInner_eq, step_atom (nameShape_good hn) (by simpa using name_head (t := []) hn)
    (by simpa using name_ops hn [] [])]
  have hnf := no_function' (F := F) (rec := parseInner cfg) (name_noParen hn)
  rw [hnf.1, hnf.2]
  simp only
  unfold parseAtom
  have hv : (isValidVarName n : Out ParserError Bool) = .ok true := (nameOk_iff n).2 hn.1
  have hc : n.contains '(' = false := by
    cases h : n.contains '(' with
    | false => rfl
    | true => exact absurd (by simpa using h) (name_noParen hn)
  obtain ⟨c, r, rfl, hcα⟩ := validName_head hn.1
  have i0 : (idx (c :: r) 0 : Out ParserError Char) = .ok c := rfl
  have i1 : ∃ cl, (idx (c :: r) ((c :: r).length - 1) : Out ParserError Char) = .ok cl := ⟨_, idx_lt (by simp)⟩
  obtain ⟨cl, i1⟩ := i1
  rw [i0, i1, hc, hv]
  simp only [Out.ok_bind, Bool.false_and, Bool.false_eq_true, if_false]
  rw [if_pos]
  · rfl
  · rcases hcα with h | h <;> simp [h]

omit [UTable] in
theorem digit_ne {c d : Char} (h : c.isDigit = true) (hd : d.isDigit = false) : c ≠ d := by
  rintro rfl; rw [h] at hd; cases hd

omit [UTable] in
theorem takeWhile_digits {s t : Str} (h : ∀ c ∈ s, c.isDigit = true) (ht : t = [] ∨ ∃ r, t = '.' :: r) :
    (s ++ t).takeWhile Char.isDigit = s ∧ (s ++ t).dropWhile Char.isDigit = t := by
  have hd : Char.isDigit '.' = false := by decide
  rw [List.takeWhile_append_of_pos h, List.dropWhile_append_of_pos h]
  rcases ht with rfl | ⟨r, rfl⟩
  · simp
  · simp [hd]

omit [UTable] in
theorem parseF64_num {ip : Str} {fp : Option Str} (h1 : ∀ c ∈ ip, c.isDigit = true)
    (h2 : ∀ f, fp = some f → ∀ c ∈ f, c.isDigit = true) (h3 : ip ≠ [] ∨ ∃ f, fp = some f ∧ f ≠ []) :
    (parseF64 (Ex.num ip fp).text : Option F) =
      some (FArith.ofDec (digitsVal (ip ++ fp.getD [])) (-((fp.getD []).length : Int))) := by
  have hg := num_good h1 h2 h3
  have hp := num_plain h1 h2
  have hnum : parseNumber (Ex.num ip fp).text = some (digitsVal (ip ++ fp.getD []), -((fp.getD []).length : Int)) := by
    unfold parseNumber
    have hne : (ip ++ fp.getD []).isEmpty = false := by
      rcases h3 with h | ⟨f, rfl, hf⟩
      · simp [h]
      · simp [hf]
    cases fp with
    | none =>
      have hk := takeWhile_digits (t := []) h1 (Or.inl rfl)
      simp only [List.append_nil] at hk
      simp only [Ex.text, List.append_nil, hk.1, hk.2]
      simp only [Option.getD_none, List.append_nil] at hne ⊢
      rw [hne]
      simp [parseExp]
    | some f =>
      have hk := takeWhile_digits (t := '.' :: f) h1 (Or.inr ⟨f, rfl⟩)
      simp only [Ex.text, hk.1, hk.2]
      have hf := takeWhile_digits (t := []) (h2 f rfl) (Or.inl rfl)
      simp only [List.append_nil] at hf
      rw [hf.1, hf.2]
      simp only [Option.getD_some] at hne ⊢
      rw [hne]
      simp [parseExp]
  obtain ⟨c, r, hc⟩ := List.exists_cons_of_ne_nil hg.ne
  have hcd : c ≠ '-' ∧ c ≠ '+' := by
    rcases hp c (by rw [hc]; simp) with h | rfl
    · exact ⟨digit_ne h (by decide), digit_ne h (by decide)⟩
    · decide
  rw [hc] at hnum ⊢
  unfold parseF64
  simp only [beq_false_of_ne hcd.1, beq_false_of_ne hcd.2, Bool.or_self, Bool.false_eq_true, if_false]
  rw [hnum]

theorem parse_num {cfg : Cfg} {ip : Str} {fp : Option Str} (hw : (Ex.num ip fp).WF) :
    parseInner cfg (Ex.num ip fp).text = .ok ((Ex.num ip fp).tree cfg : AST F) := by
  obtain ⟨h1, h2, h3⟩ := id hw
  have hg := num_good h1 h2 h3
  have hp := num_plain h1 h2
  have hno : ∀ d : Char, d.isDigit = false → d ≠ '.' → d ∉ (Ex.num ip fp).text := by
    intro d hd hdot hm
    rcases hp d hm with h | h
    · rw [hd] at h; cases h
    · exact hdot h
  have hops := num_ops h1 h2 (Ex.num ip fp).text 0 '\\'
  have hhead : ∀ d : Char, d.isDigit = false → d ≠ '.' → (Ex.num ip fp).text.head? ≠ some d :=
    fun d hd hdot h => hno d hd hdot (List.mem_of_mem_head? (by simpa using h))
  rw [parseInner_eq, step_atom hg (hhead '(' (by decide) (by decide)) hops]
  have hnf := no_function' (F := F) (rec := parseInner cfg) (hno '(' (by decide) (by decide))
  rw [hnf.1, hnf.2]
  simp only
  have hcont : ∀ d : Char, d.isDigit = false → d ≠ '.' → (Ex.num ip fp).text.contains d = false := by
    intro d hd hdot
    cases h : (Ex.num ip fp).text.contains d with
    | false => rfl
    | true => exact absurd (by simpa using h) (hno d hd hdot)
  have hval : parseValue cfg (parseInner cfg) (Ex.num ip fp).text = .ok ((Ex.num ip fp).tree cfg : AST F) := by
    unfold parseValue
    rw [hcont '[' (by decide) (by decide), parseF64_num h1 h2 h3]
    rfl
  obtain ⟨c, r, hc⟩ := List.exists_cons_of_ne_nil hg.ne
  unfold parseAtom
  rw [hcont '(' (by decide) (by decide), hval]
  have hcp := hp c (by rw [hc]; simp)
  have hcα : UTable.isAlphabetic c = false ∧ c ≠ '\\' ∧ c ≠ '{' := by
    rcases hcp with h | rfl
    · refine ⟨?_, digit_ne h (by decide), digit_ne h (by decide)⟩
      rw [UTable.alpha_ascii c (isDigit_ascii h).1]
      cases ha : c.isAlpha with
      | false => rfl
      | true =>
        exfalso
        simp only [Char.isDigit, Bool.and_eq_true, decide_eq_true_eq, ge_iff_le, UInt32.le_iff_toNat_le] at h
        simp only [Char.isAlpha, Char.isUpper, Char.isLower, Bool.or_eq_true, Bool.and_eq_true, decide_eq_true_eq,
          ge_iff_le, UInt32.le_iff_toNat_le] at ha
        simp at h ha
        omega
    · exact ⟨UTable.alpha_ascii _ (by decide), by decide, by decide⟩
  rw [hc]
  have i0 : (idx (c :: r) 0 : Out ParserError Char) = .ok c := rfl
  have i1 : ∃ cl, (idx (c :: r) ((c :: r).length - 1) : Out ParserError Char) = .ok cl := ⟨_, idx_lt (by simp)⟩
  obtain ⟨cl, i1⟩ := i1
  rw [i0, i1]
  simp [hcα.1, hcα.2.1, hcα.2.2]

/-! ## lists, vectors, matrices -/

omit [UTable] in
theorem slice_group {o c : Char} {s : Str} :
    (slice ([o] ++ s ++ [c]) 1 (([o] ++ s ++ [c]).length - 1) : Out ParserError Str) = .ok s := by
  rw [slice_ok (by simp) (by omega)]
  congr 1
  have : ([o] ++ s ++ [c]).length - 1 = ([o] ++ s).length := by simp
  rw [this, List.take_left']
  · simp
  · rfl

theorem parse_list {cfg : Cfg} {es : List Ex} (hw : (Ex.list es).WF)
    (h : ∀ e ∈ es, parseInner cfg e.text = .ok (e.tree cfg : AST F)) :
    parseInner cfg (Ex.list es).text = .ok ((Ex.list es).tree cfg : AST F) := by
  obtain ⟨hne, hall⟩ := hw
  rw [WFAll_iff] at hall
  have hgs : ∀ p ∈ textAll es, Good p := good_all fun e he => good_text e (hall e he)
  have hb := bal_commas _ fun p hp => (hgs p hp).bal
  have et : (Ex.list es).text = ['{'] ++ commas (textAll es) ++ ['}'] := rfl
  have hops := group_ops' .brace hb [] []
  simp only [List.nil_append, List.append_nil, List.length_nil] at hops
  rw [parseInner_eq, et, step_atom (group_good .brace hb) (by simp) hops]
  have hnf := no_function (F := F) (rec := parseInner cfg) (c := '{') (s := commas (textAll es) ++ ['}']) (by decide)
  have ec : ['{'] ++ commas (textAll es) ++ ['}'] = '{' :: (commas (textAll es) ++ ['}']) := by simp
  rw [ec, hnf.1, hnf.2, ← ec]
  simp only
  unfold parseAtom
  have i0 : (idx (['{'] ++ commas (textAll es) ++ ['}']) 0 : Out ParserError Char) = .ok '{' := rfl
  rw [i0, idx_last]
  simp only [Out.ok_bind]
  have hα : UTable.isAlphabetic '{' = false := UTable.alpha_ascii _ (by decide)
  rw [if_neg (by simp), hα, if_neg (by decide), if_pos (by decide), slice_group]
  simp only [Out.ok_bind, parseAll]
  rw [getArgs_good _ (by simpa [textAll_eq] using hne) hgs, mapM_texts h]
  rfl

/-- The parser on a bracketed list, given what it does on the entries. -/
theorem step_bracket {cfg : Cfg} {ps : List Str} {ts : List (AST F)} (hne : ps ≠ []) (hgs : ∀ p ∈ ps, Good p)
    (h : ps.mapM (parseInner cfg) = .ok ts) :
    parseInner cfg (['['] ++ commas ps ++ [']']) =
      (if !(ts.any AST.isVector) && !(ts.any AST.isMatrix) then .ok (.vector ts)
        else if !(ts.any AST.isMatrix) && !!(ts.any AST.isVector) then do
            let outputM ← ts.mapM asRow
            let m0 ← idx outputM 0
            if outputM.any fun r => r.length != m0.length then .err .notRectMatrix
            else if cfg.rowMajor then .ok (.matrix outputM)
            else do
              let cm ← colMatrix outputM
              .ok (.matrix cm)
        else .err (.parseValue (['['] ++ commas ps ++ [']']))) := by
  have hb := bal_commas _ fun p hp => (hgs p hp).bal
  have hg := group_good .bracket hb
  have hops := group_ops' .bracket hb [] []
  simp only [List.nil_append, List.append_nil, List.length_nil] at hops
  rw [parseInner_eq, step_atom hg (by simp) hops]
  have hnf := no_function (F := F) (rec := parseInner cfg) (c := '[') (s := commas ps ++ [']']) (by decide)
  have ec : ['['] ++ commas ps ++ [']'] = '[' :: (commas ps ++ [']']) := by simp
  rw [ec, hnf.1, hnf.2, ← ec]
  simp only
  have i0 : (idx (['['] ++ commas ps ++ [']']) 0 : Out ParserError Char) = .ok '[' := rfl
  have hα : UTable.isAlphabetic '[' = false := UTable.alpha_ascii _ (by decide)
  have hbl : byteLen (['['] ++ commas ps ++ [']']) = (['['] ++ commas ps ++ [']']).length := byteLen_ascii' hg.ascii
  have hatom : parseAtom cfg (parseInner cfg) (['['] ++ commas ps ++ [']']) =
      (parseValue cfg (parseInner cfg) (['['] ++ commas ps ++ [']']) : Out ParserError (AST F)) := by
    unfold parseAtom
    rw [i0, idx_last]
    simp only [Out.ok_bind]
    rw [if_neg (by simp), hα, if_neg (by decide), if_neg (by decide)]
  rw [hatom]
  unfold parseValue
  rw [hbl, i0, idx_last, if_neg (by simp), if_pos (by simp)]
  simp only [Out.ok_bind, ne_eq, not_true_eq_false, if_false]
  rw [slice_group]
  simp only [Out.ok_bind]
  rw [getArgs_good _ hne hgs]
  obtain ⟨p, ps', rfl⟩ := List.exists_cons_of_ne_nil hne
  have ip : (idx (p :: ps') 0 : Out ParserError Str) = .ok p := rfl
  rw [ip]
  simp only [Out.ok_bind]
  have hpne : p.isEmpty = false := by simpa using (hgs p (by simp)).ne
  rw [hpne]
  simp only [Bool.false_eq_true, if_false, parseAll]
  rw [h]
  rfl

omit [UTable] in
theorem treeAll_eq {cfg : Cfg} (es : List Ex) : (treeAll cfg es : List (AST F)) = es.map (Ex.tree cfg) := by
  induction es with
  | nil => rfl
  | cons e es ih => simp [treeAll, ih]

omit [UTable] in
theorem treeRows_eq {cfg : Cfg} (rows : List (List Ex)) :
    (treeRows cfg rows : List (List (AST F))) = rows.map (treeAll cfg) := by
  induction rows with
  | nil => rfl
  | cons e es ih => simp [treeRows, ih]

omit [UTable] in
theorem tree_notBracket {cfg : Cfg} {e : Ex} (h : e.isBracket = false) :
    AST.isVector (e.tree cfg : AST F) = false ∧ AST.isMatrix (e.tree cfg : AST F) = false := by
  cases e <;> simp [Ex.tree, AST.isVector, AST.isMatrix, Ex.isBracket] at h ⊢

theorem parse_vec {cfg : Cfg} {es : List Ex} (hne : es ≠ []) (hall : ∀ e ∈ es, e.WF)
    (hbr : ∀ e ∈ es, e.isBracket = false)
    (h : ∀ e ∈ es, parseInner cfg e.text = .ok (e.tree cfg : AST F)) :
    parseInner cfg (['['] ++ commas (textAll es) ++ [']']) = .ok (.vector (treeAll cfg es) : AST F) := by
  rw [step_bracket (by simpa [textAll_eq] using hne) (good_all fun e he => good_text e (hall e he)) (mapM_texts h)]
  have h1 : (treeAll cfg es : List (AST F)).any AST.isVector = false := by
    rw [treeAll_eq, List.any_eq_false]
    simp only [List.mem_map]
    rintro _ ⟨e, he, rfl⟩
    rw [(tree_notBracket (hbr e he)).1]; simp
  have h2 : (treeAll cfg es : List (AST F)).any AST.isMatrix = false := by
    rw [treeAll_eq, List.any_eq_false]
    simp only [List.mem_map]
    rintro _ ⟨e, he, rfl⟩
    rw [(tree_notBracket (hbr e he)).2]; simp
  rw [h1, h2]
  rfl

omit [UTable] [FArith F] in
theorem mapM_asRow (l : List (List (AST F))) : (l.map AST.vector).mapM asRow = .ok l := by
  induction l with
  | nil => rfl
  | cons a l ih =>
    simp only [List.map_cons, List.mapM_cons, ih]
    rfl

omit [UTable] [FArith F] in
theorem colMatrix_eq (m : List (List (AST F))) (n : Nat) (hm : m ≠ []) (hr : ∀ r ∈ m, r.length = n) :
    colMatrix m = .ok (transpose n m) := by
  obtain ⟨r0, m', rfl⟩ := List.exists_cons_of_ne_nil hm
  unfold colMatrix
  have i0 : (idx (r0 :: m') 0 : Out ParserError (List (AST F))) = .ok r0 := rfl
  rw [i0]
  simp only [Out.ok_bind]
  rw [hr r0 (by simp)]
  generalize r0 :: m' = m at hr
  have hin : ∀ i ∈ List.range n, ((List.range m.length).mapM fun j => do
      let r ← (idx m j : Out ParserError (List (AST F)))
      idx r i) = .ok (m.filterMap fun r => r[i]?) := by
    intro i hi
    rw [List.mem_range] at hi
    have : ∀ (k : Nat) (m2 : List (List (AST F))), (∀ r ∈ m2, r.length = n) → (∀ j, m2[j]? = m[k + j]?) →
        ((List.range' k m2.length).mapM fun j => do
          let r ← (idx m j : Out ParserError (List (AST F)))
          idx r i) = .ok (m2.filterMap fun r => r[i]?) := by
      intro k m2
      induction m2 generalizing k with
      | nil => intro _ _; rfl
      | cons r m2 ih =>
        intro hr2 hj
        have hk : m[k]? = some r := by have := hj 0; simpa using this.symm
        have hri : i < r.length := by rw [hr2 r (by simp)]; exact hi
        rw [List.length_cons, List.range'_succ, List.mapM_cons]
        have e1 : (idx m k : Out ParserError (List (AST F))) = .ok r := by simp [idx, hk, Out.unwrap]
        have e2 : (idx r i : Out ParserError (AST F)) = .ok r[i] := idx_lt hri
        rw [e1]
        simp only [Out.ok_bind]
        rw [e2]
        simp only [Out.ok_bind]
        rw [ih (k + 1) (fun r hr => hr2 r (by simp [hr])) (fun j => by
          have := hj (j + 1)
          rw [List.getElem?_cons_succ] at this
          rw [this]; congr 1; omega)]
        simp [List.filterMap_cons, hri]
    have := this 0 m hr (fun j => by simp)
    rw [List.range_eq_range']
    exact this
  rw [Out.mapM_congr hin]
  unfold transpose
  exact Out.mapM_ok_of_forall fun _ _ => rfl

theorem parse_mat {cfg : Cfg} {rows : List (List Ex)} (hw : (Ex.mat rows).WF)
    (h : ∀ r ∈ rows, ∀ e ∈ r, parseInner cfg e.text = .ok (e.tree cfg : AST F)) :
    parseInner cfg (Ex.mat rows).text = .ok ((Ex.mat rows).tree cfg : AST F) := by
  obtain ⟨hne, hall, n, hn, hr⟩ := hw
  rw [WFRows_iff] at hall
  have hrows : (textRows rows).mapM (parseInner cfg) = .ok ((treeRows cfg rows : List (List (AST F))).map AST.vector) := by
    clear hne
    induction rows with
    | nil => rfl
    | cons r rows ih =>
      simp only [textRows, treeRows, List.map_cons, List.mapM_cons]
      have hr0 := hr r (by simp)
      rw [parse_vec (by rintro rfl; simp at hr0; omega) (hall r (by simp)) hr0.2 (h r (by simp)),
        ih (fun r hr => h r (by simp [hr])) (fun r hr => hall r (by simp [hr])) (fun x hx => hr x (by simp [hx]))]
      rfl
  have et : (Ex.mat rows).text = ['['] ++ commas (textRows rows) ++ [']'] := rfl
  rw [et, step_bracket (by simpa [textRows_eq] using hne)
    (good_rows fun r hr e he => good_text e (hall r hr e he)) hrows]
  obtain ⟨r0, rows', rfl⟩ := List.exists_cons_of_ne_nil hne
  have h1 : ((treeRows cfg (r0 :: rows') : List (List (AST F))).map AST.vector).any AST.isVector = true := by
    simp [treeRows, AST.isVector]
  have h2 : ((treeRows cfg (r0 :: rows') : List (List (AST F))).map AST.vector).any AST.isMatrix = false := by
    rw [List.any_eq_false]
    simp only [List.mem_map]
    rintro _ ⟨e, he, rfl⟩
    simp [AST.isMatrix]
  rw [h1, h2, mapM_asRow]
  simp only [Bool.not_true, Bool.not_false, Bool.and_true, Bool.false_eq_true, if_false, Bool.not_not, Bool.and_self, if_true,
    Out.ok_bind]
  have i0 : (idx (treeRows cfg (r0 :: rows') : List (List (AST F))) 0 : Out ParserError (List (AST F))) = .ok (treeAll cfg r0) := rfl
  have hlen : ∀ t ∈ (treeRows cfg (r0 :: rows') : List (List (AST F))), t.length = n := by
    rw [treeRows_eq]
    intro t ht
    rw [List.mem_map] at ht
    obtain ⟨r, hrm, rfl⟩ := ht
    rw [treeAll_eq, List.length_map]
    exact (hr r hrm).1
  have hl0 : (treeAll cfg r0 : List (AST F)).length = n := hlen _ (by simp [treeRows])
  rw [i0]
  simp only [Out.ok_bind]
  rw [hl0, if_neg]
  · simp only [Ex.tree]
    by_cases hc : cfg.rowMajor = true
    · rw [if_pos hc, if_pos hc]
    · rw [if_neg hc, if_neg hc, colMatrix_eq _ n (by simp [treeRows]) hlen]
      simp only [Out.ok_bind]
      have : ((treeRows cfg (r0 :: rows') : List (List (AST F))).headD []).length = n := hl0
      rw [this]
  · simp only [List.any_eq_true, bne_iff_ne, ne_eq, not_exists, not_and, Classical.not_not]
    exact hlen

/-! ## integrals, derivatives, equations -/

omit [UTable] in
theorem adv_noFn {rec : Str → Out ParserError (AST F)} {n : Str} {s : Str} (h : n ∈ ["I".toList, "D".toList, "eq".toList]) :
    parseFunction rec (n ++ ['('] ++ s ++ [')']) = none := by
  rw [List.append_assoc (n ++ ['('])]
  simp only [List.mem_cons, List.not_mem_nil, or_false] at h
  rcases h with rfl | rfl | rfl <;> exact call_notBuiltin (by decide) (by decide) (by decide)

omit [UTable] in
theorem startsAdv {n m s : Str} (hn : '(' ∉ n) (hm : '(' ∉ m) :
    startsWith (n ++ ['('] ++ s ++ [')']) (m ++ ['(']) = decide (m = n) := by
  rw [List.append_assoc (n ++ ['(']), Bool.eq_iff_iff, startsWith_name hn hm]
  simp

theorem parse_integ {cfg : Cfg} {e lo hi : Ex} {x : Str} (hw : (Ex.integ e x lo hi).WF)
    (he : parseInner cfg e.text = .ok (e.tree cfg : AST F)) (hlo : parseInner cfg lo.text = .ok (lo.tree cfg : AST F))
    (hhi : parseInner cfg hi.text = .ok (hi.tree cfg : AST F)) :
    parseInner cfg (Ex.integ e x lo hi).text = .ok ((Ex.integ e x lo hi).tree cfg : AST F) := by
  obtain ⟨h1, h2, h3, h4⟩ := hw
  have hgs : ∀ p ∈ [e.text, x, lo.text, hi.text], Good p := by
    intro p hp
    simp only [List.mem_cons, List.not_mem_nil, or_false] at hp
    rcases hp with rfl | rfl | rfl | rfl
    · exact good_text e h1
    · exact nameShape_good h2
    · exact good_text lo h3
    · exact good_text hi h4
  have et : (Ex.integ e x lo hi).text = "I".toList ++ ['('] ++ commas [e.text, x, lo.text, hi.text] ++ [')'] := rfl
  rw [parseInner_eq, et, step_call shape_I (bal_commas _ fun p hp => (hgs p hp).bal), adv_noFn (by simp)]
  have hadv : parseAdvanced (parseInner cfg) ("I".toList ++ ['('] ++ commas [e.text, x, lo.text, hi.text] ++ [')']) =
      some (.ok (.integral (e.tree cfg : AST F) x (lo.tree cfg) (hi.tree cfg))) := by
    have k1 : startsWith ("I".toList ++ ['('] ++ commas [e.text, x, lo.text, hi.text] ++ [')']) "I(".toList = true :=
      startsAdv (m := ['I']) (by decide) (by decide)
    unfold parseAdvanced
    have hsl := slice_call (n := "I".toList) (s := commas [e.text, x, lo.text, hi.text])
    have hl : ("I".toList ++ ['(']).length = 2 := rfl
    rw [hl] at hsl
    rw [k1, if_pos rfl, hsl]
    simp only [Out.ok_bind]
    rw [getArgs_good _ (by simp) hgs]
    simp [idx, Out.unwrap, he, hlo, hhi]
  rw [hadv]
  rfl

theorem parse_deriv {cfg : Cfg} {e a : Ex} {x : Str} (hw : (Ex.deriv e x a).WF)
    (he : parseInner cfg e.text = .ok (e.tree cfg : AST F)) (ha : parseInner cfg a.text = .ok (a.tree cfg : AST F)) :
    parseInner cfg (Ex.deriv e x a).text = .ok ((Ex.deriv e x a).tree cfg : AST F) := by
  obtain ⟨h1, h2, h3⟩ := hw
  have hgs : ∀ p ∈ [e.text, x, a.text], Good p := by
    intro p hp
    simp only [List.mem_cons, List.not_mem_nil, or_false] at hp
    rcases hp with rfl | rfl | rfl
    · exact good_text e h1
    · exact nameShape_good h2
    · exact good_text a h3
  have et : (Ex.deriv e x a).text = "D".toList ++ ['('] ++ commas [e.text, x, a.text] ++ [')'] := rfl
  rw [parseInner_eq, et, step_call shape_D (bal_commas _ fun p hp => (hgs p hp).bal), adv_noFn (by simp)]
  have hadv : parseAdvanced (parseInner cfg) ("D".toList ++ ['('] ++ commas [e.text, x, a.text] ++ [')']) =
      some (.ok (.derivative (e.tree cfg : AST F) x (a.tree cfg))) := by
    have k1 : startsWith ("D".toList ++ ['('] ++ commas [e.text, x, a.text] ++ [')']) "I(".toList = false :=
      startsAdv (m := ['I']) (by decide) (by decide)
    have k2 : startsWith ("D".toList ++ ['('] ++ commas [e.text, x, a.text] ++ [')']) "D(".toList = true :=
      startsAdv (m := ['D']) (by decide) (by decide)
    unfold parseAdvanced
    have hsl := slice_call (n := "D".toList) (s := commas [e.text, x, a.text])
    have hl : ("D".toList ++ ['(']).length = 2 := rfl
    rw [hl] at hsl
    rw [k1, k2, if_neg (by simp), if_pos rfl, hsl]
    simp only [Out.ok_bind]
    rw [getArgs_good _ (by simp) hgs]
    simp [idx, Out.unwrap, he, ha]
  rw [hadv]
  rfl

theorem parse_eqEntry {cfg : Cfg} {l r : Ex} (hgl : Good l.text) (hgr : Good r.text) (hl : '=' ∉ l.text) (hr : '=' ∉ r.text)
    (pl : parseInner cfg l.text = .ok (l.tree cfg : AST F)) (pr : parseInner cfg r.text = .ok (r.tree cfg : AST F)) :
    parseEqEntry (parseInner cfg) (l.text ++ ['='] ++ r.text) =
      .ok (.inl (if r.text.length ≤ l.text.length then ((l.tree cfg : AST F), (r.tree cfg : AST F)) else (r.tree cfg, l.tree cfg))) := by
  have key : ∀ s : Str, '=' ∉ s → ∀ c ∈ s, (c != '=') = true := by
    intro s hs c hc
    simp only [bne_iff_ne, ne_eq]
    rintro rfl
    exact hs hc
  have hsp : splitEq (l.text ++ ['='] ++ r.text) = (l.text, r.text) := by
    unfold splitEq
    rw [List.append_assoc, List.takeWhile_append_of_pos (key _ hl), List.dropWhile_append_of_pos (key _ hl)]
    have hr' : r.text.takeWhile (· != '=') = r.text := by
      have := List.takeWhile_append_of_pos (p := (· != '=')) (l₂ := []) (key _ hr)
      simpa using this
    simp [hr']
  unfold parseEqEntry
  rw [if_neg (by simp), hsp]
  simp only
  rw [byteLen_ascii' hgl.ascii, byteLen_ascii' hgr.ascii, pl, pr]
  by_cases hle : r.text.length ≤ l.text.length
  · rw [if_pos hle, if_pos hle]; rfl
  · rw [if_neg hle, if_neg hle]; rfl

theorem parse_eqs {cfg : Cfg} {ls rs : List Ex} {vars : List Str} (hw : (Ex.eqs ls rs vars).WF)
    (hl : ∀ e ∈ ls, parseInner cfg e.text = .ok (e.tree cfg : AST F))
    (hr : ∀ e ∈ rs, parseInner cfg e.text = .ok (e.tree cfg : AST F)) :
    parseInner cfg (Ex.eqs ls rs vars).text = .ok ((Ex.eqs ls rs vars).tree cfg : AST F) := by
  obtain ⟨hlen, h1, h2, hne, heq, hv⟩ := hw
  rw [WFAll_iff] at h1 h2
  have hgl := fun e he => good_text e (h1 e he)
  have hgr := fun e he => good_text e (h2 e he)
  have hgs := eqs_good (good_all hgl) (good_all hgr) hv
  have et : (Ex.eqs ls rs vars).text = "eq".toList ++ ['('] ++
    commas ((List.zipWith (fun l r => l ++ ['='] ++ r) (textAll ls) (textAll rs)) ++ vars) ++ [')'] := rfl
  have hentries : ((List.zipWith (fun l r => l ++ ['='] ++ r) (textAll ls) (textAll rs)) ++ vars).mapM
      (parseEqEntry (parseInner cfg)) = .ok ((List.zipWith
        (fun (l r : Str × AST F) => if r.1.length ≤ l.1.length then (l.2, r.2) else (r.2, l.2))
        ((textAll ls).zip (treeAll cfg ls)) ((textAll rs).zip (treeAll cfg rs))).map Sum.inl ++ vars.map Sum.inr) := by
    clear hne hgs et
    induction ls generalizing rs with
    | nil =>
      cases rs with
      | cons _ _ => simp at hlen
      | nil =>
        simp only [textAll, List.zipWith_nil_left, List.nil_append, List.zip_nil_left, List.map_nil]
        clear heq
        induction vars with
        | nil => rfl
        | cons v vars ih =>
          simp only [List.mapM_cons, List.map_cons]
          have : parseEqEntry (parseInner cfg) v = (.ok (.inr v) : Out ParserError (Sum (AST F × AST F) Str)) := by
            unfold parseEqEntry
            have hvn : '=' ∉ v := fun h => by simpa using (hv v (by simp)).2.2.1 '=' h
            rw [if_pos]
            simpa using hvn
          rw [this, ih fun v hv' => hv v (by simp [hv'])]
          rfl
    | cons l ls ih =>
      cases rs with
      | nil => simp at hlen
      | cons r rs =>
        simp only [textAll, treeAll, List.zipWith_cons_cons, List.zip_cons_cons, List.cons_append, List.map_cons, List.mapM_cons]
        rw [parse_eqEntry (hgl l (by simp)) (hgr r (by simp)) (heq _ (by simp [textAll])) (heq _ (by simp [textAll]))
          (hl l (by simp)) (hr r (by simp)),
          ih (rs := rs) ?_ ?_ ?_ ?_ ?_ ?_ ?_ ?_]
        · rfl
        · exact fun e he => hl e (by simp [he])
        · exact fun e he => hr e (by simp [he])
        · simpa using hlen
        · exact fun e he => h1 e (by simp [he])
        · exact fun e he => h2 e (by simp [he])
        · exact fun s hs => heq s (by simp only [textAll, List.mem_append, List.mem_cons] at hs ⊢; tauto)
        · exact fun e he => hgl e (by simp [he])
        · exact fun e he => hgr e (by simp [he])
  rw [parseInner_eq, et, step_call shape_eq (bal_commas _ fun p hp => (hgs p hp).bal), adv_noFn (by simp)]
  have hadv : parseAdvanced (parseInner cfg) ("eq".toList ++ ['('] ++
    commas ((List.zipWith (fun l r => l ++ ['='] ++ r) (textAll ls) (textAll rs)) ++ vars) ++ [')']) =
      some (.ok ((Ex.eqs ls rs vars).tree cfg : AST F)) := by
    have k1 : ∀ s, startsWith ("eq".toList ++ ['('] ++ s ++ [')']) "I(".toList = false :=
      fun s => startsAdv (m := ['I']) (by decide) (by decide)
    have k2 : ∀ s, startsWith ("eq".toList ++ ['('] ++ s ++ [')']) "D(".toList = false :=
      fun s => startsAdv (m := ['D']) (by decide) (by decide)
    have k3 : ∀ s, startsWith ("eq".toList ++ ['('] ++ s ++ [')']) "eq(".toList = true :=
      fun s => startsAdv (m := ['e', 'q']) (by decide) (by decide)
    unfold parseAdvanced
    have hsl := slice_call (n := "eq".toList)
      (s := commas ((List.zipWith (fun l r => l ++ ['='] ++ r) (textAll ls) (textAll rs)) ++ vars))
    have hl : ("eq".toList ++ ['(']).length = 3 := rfl
    rw [hl] at hsl
    rw [k1, k2, k3, if_neg (by simp), if_neg (by simp), if_pos rfl, hsl]
    simp only [Out.ok_bind]
    have hpne : (List.zipWith (fun l r => l ++ ['='] ++ r) (textAll ls) (textAll rs)) ++ vars ≠ [] := by
      rcases hne with h | h
      · obtain ⟨l, ls', rfl⟩ := List.exists_cons_of_ne_nil h
        cases rs with
        | nil => simp at hlen
        | cons r rs => simp [textAll]
      · simp [h]
    rw [getArgs_good _ hpne hgs, hentries]
    simp only [Out.ok_bind, Ex.tree]
    have f1 : ∀ (l : List (AST F × AST F)) (v : List Str),
        (l.map (Sum.inl (β := Str)) ++ v.map Sum.inr).filterMap Sum.getLeft? = l := by
      intro l v
      rw [List.filterMap_append, List.filterMap_map, List.filterMap_map]
      have e1 : (Sum.getLeft? ∘ Sum.inl (β := Str) : AST F × AST F → Option (AST F × AST F)) = some := rfl
      have e2 : (Sum.getLeft? ∘ Sum.inr (α := AST F × AST F) : Str → Option (AST F × AST F)) = fun _ => none := rfl
      rw [e1, e2]; simp
    have f2 : ∀ (l : List (AST F × AST F)) (v : List Str),
        (l.map (Sum.inl (β := Str)) ++ v.map Sum.inr).filterMap Sum.getRight? = v := by
      intro l v
      rw [List.filterMap_append, List.filterMap_map, List.filterMap_map]
      have e1 : (Sum.getRight? ∘ Sum.inl (β := Str) : AST F × AST F → Option Str) = fun _ => none := rfl
      have e2 : (Sum.getRight? ∘ Sum.inr (α := AST F × AST F) : Str → Option Str) = some := rfl
      rw [e1, e2]; simp
    rw [f1, f2]
  rw [hadv]

/-- The parser reads every well-formed expression back. -/
theorem parse_text (cfg : Cfg) (e : Ex) : e.WF → parseInner cfg e.text = .ok (e.tree cfg : AST F) := by
  induction e using Ex.ind with
  | num ip fp => exact parse_num
  | var n => exact parse_var
  | paren e ih =>
    intro hw
    rw [parseInner_eq]
    have et : (Ex.paren e).text = ['('] ++ e.text ++ [')'] := rfl
    rw [et, step_paren (good_text e hw).bal, ih hw]
    rfl
  | fn n op e ih => intro hw; exact parse_fn hw (ih hw.2)
  | root a b iha ihb => intro hw; exact parse_root hw (iha hw.1) (ihb hw.2)
  | call n args ih => intro hw; exact parse_call hw fun e he => ih e he ((WFAll_iff _).1 hw.2.2.2 e he)
  | vec es ih =>
    intro hw
    have hall := (WFAll_iff _).1 hw.2.1
    exact parse_vec hw.1 hall hw.2.2 fun e he => ih e he (hall e he)
  | mat rows ih => intro hw; exact parse_mat hw fun r hr e he => ih r hr e he ((WFRows_iff _).1 hw.2.1 r hr e he)
  | list es ih => intro hw; exact parse_list hw fun e he => ih e he ((WFAll_iff _).1 hw.2 e he)
  | neg e ih => intro hw; exact parse_neg hw (ih hw.1)
  | bin op l r ihl ihr => intro hw; exact parse_bin hw (ihl hw.1) (ihr hw.2.1)
  | integ e x lo hi ihe ihl ihh => intro hw; exact parse_integ hw (ihe hw.1) (ihl hw.2.2.1) (ihh hw.2.2.2)
  | deriv e x a ihe iha => intro hw; exact parse_deriv hw (ihe hw.1) (iha hw.2.2)
  | eqs ls rs vars ihl ihr =>
    intro hw
    exact parse_eqs hw (fun e he => ihl e he ((WFAll_iff _).1 hw.2.1 e he))
      (fun e he => ihr e he ((WFAll_iff _).1 hw.2.2.1 e he))

omit [UTable] in
theorem stripBlanks_good {s : Str} (h : ∀ c ∈ s, isWhitespace c = false) : stripBlanks s = s := by
  have hd : ∀ t : Str, (∀ c ∈ t, isWhitespace c = false) → t.dropWhile isWhitespace = t := by
    intro t ht
    cases t with
    | nil => rfl
    | cons c t => simp [ht c (by simp)]
  unfold stripBlanks trim
  rw [hd s h, hd s.reverse (fun c hc => h c (by simpa using hc)), List.reverse_reverse, List.filter_eq_self]
  intro c hc
  simp only [bne_iff_ne, ne_eq]
  rintro rfl
  have := h ' ' hc
  revert this; decide

end MUL
