import Verif.Spec.Spelling
import Verif.Props.Provenance
import Verif.Proofs.Reread
import Mathlib.Tactic.FinCases
/-!
# C96: the text of a tree is determined by the tree
-/

set_option linter.unusedSectionVars false

namespace MUL
open Out Spec

section
variable {F : Type} [FArith F] {cfg : Cfg}

theorem spellsAll_iff {v : List (AST F)} {ws : List Str} : SpellsAll cfg v ws ↔ List.Forall₂ (Spells cfg) v ws := by
  induction v generalizing ws with
  | nil => cases ws <;> simp [SpellsAll]
  | cons a v ih => cases ws <;> simp [SpellsAll, ih]

theorem spellsRows_iff {m : List (List (AST F))} {ws : List (List Str)} : SpellsRows cfg m ws ↔ List.Forall₂ (List.Forall₂ (Spells cfg)) m ws := by
  induction m generalizing ws with
  | nil => cases ws <;> simp [SpellsRows]
  | cons a v ih => cases ws <;> simp [SpellsRows, ih, spellsAll_iff]

theorem spellsEqs_iff {es : List (AST F × AST F)} {ws : List (Str × Str)} :
    SpellsEqs cfg es ws ↔ List.Forall₂ (fun e w => Spells cfg e.1 w.1 ∧ Spells cfg e.2 w.2) es ws := by
  induction es generalizing ws with
  | nil => cases ws <;> simp [SpellsEqs]
  | cons a v ih => cases ws <;> simp [SpellsEqs, ih, and_assoc]

/-- What is shown of the tree of a text. -/
def Inv96 (cfg : Cfg) (s : Str) (t : AST F) : Prop := Spells cfg t s ∧ parens s = 0

end

/-! ## Positions -/

theorem slice_parts {ε : Type} {cs inner : Str} {a : Nat} (hne : 0 < cs.length) (h : (slice cs a (cs.length - 1) : Out ε Str) = .ok inner) :
    ∃ c, cs = cs.take a ++ inner ++ [c] ∧ cs[cs.length - 1]? = some c := by
  obtain ⟨h1, h2, rfl⟩ := slice_eq_ok.1 h
  refine ⟨cs[cs.length - 1], ?_, by simp [hne]⟩
  have e1 : cs.take a ++ (cs.take (cs.length - 1)).drop a = cs.take (cs.length - 1) := by
    conv_rhs => rw [← List.take_append_drop a (cs.take (cs.length - 1))]
    rw [List.take_take, Nat.min_eq_left h1]
  rw [e1]
  have := List.take_append_drop (cs.length - 1) cs
  rw [List.drop_eq_getElem_cons (by omega), List.drop_eq_nil_of_le (by omega)] at this
  exact this.symm

theorem startsWith_take {cs p : Str} (h : startsWith cs p = true) : cs.take p.length = p := by
  unfold startsWith at h
  obtain ⟨r, rfl⟩ := List.isPrefixOf_iff_prefix.1 h
  simp

theorem parens_last {c : Char} (h : parens [c] < 0) : c = ')' := by
  by_contra hc
  unfold parens at h
  rw [List.count_eq_zero_of_not_mem (a := ')') (by simpa using fun h => hc h.symm)] at h
  simp at h
  omega

theorem parens_nonneg {s : Str} (h : ')' ∉ s) : 0 ≤ parens s := by
  unfold parens
  rw [List.count_eq_zero_of_not_mem h]
  simp

theorem Spec.Ascii.infix {s t : Str} (h : Ascii t) (hs : s <:+: t) : Ascii s := fun c hc => h c (hs.subset hc)

section
variable [UTable]

/-- The operator found at a position is the one written there. -/
def OpThere (cs : Str) (o : OpAt) : Prop :=
  (o.op = .hiddenMult ∧ o.skipR = 0) ∨
  (o.skipR = 1 ∧ ∃ c, cs[o.pos]? = some c ∧ ((o.op = .neg ∧ c = '-' ∧ o.pos = 0) ∨ (opSymbol o.op = some c ∧ (o.op = .sub → o.pos ≠ 0))))

theorem getOpSymbol_symbol {c : Char} {o : SimpleOp} (h : getOpSymbol c = some o) : opSymbol o = some c := by
  unfold getOpSymbol at h
  repeat' split at h
  all_goals first | (cases h; done) | (cases h; subst_vars; rfl)

theorem opsLoop_there (cs rest : Str) (i : Nat) (last : Char) (p b k : Int) (hi : cs.drop i = rest) :
    ∀ o ∈ opsLoop cs rest i last p b k, OpThere cs o := by
  induction rest generalizing i last p b k with
  | nil => simp [opsLoop]
  | cons c rest ih =>
    intro o ho
    have hc : cs[i]? = some c := by
      have := congrArg List.head? hi
      simpa using this
    have hd : cs.drop (i + 1) = rest := by
      rw [← List.drop_drop, hi]; rfl
    rw [opsLoop] at ho
    have ih' : ∀ (p b k : Int), ∀ o ∈ opsLoop cs rest (i + 1) c p b k, OpThere cs o := fun p b k => ih (i + 1) c p b k hd
    simp only [List.mem_append] at ho
    rcases ho with ho | ho
    · split at ho
      · simp at ho
        subst ho
        exact Or.inl ⟨rfl, rfl⟩
      · simp at ho
    · iterate 6 (split at ho; · exact ih' _ _ _ o ho)
      simp only [List.mem_append] at ho
      rcases ho with ho | ho
      · split at ho
        · rename_i q hq
          split at ho
          · split at ho
            · rename_i hneg
              simp at ho; subst ho
              simp only [Bool.and_eq_true, beq_iff_eq] at hneg
              obtain ⟨rfl, rfl⟩ := hneg
              have := getOpSymbol_symbol hq
              cases this
              exact Or.inr ⟨rfl, _, hc, Or.inl ⟨rfl, rfl, rfl⟩⟩
            · rename_i hneg
              simp at ho; subst ho
              refine Or.inr ⟨rfl, c, hc, Or.inr ⟨getOpSymbol_symbol hq, ?_⟩⟩
              intro e h0
              exact hneg (by simpa using ⟨h0, e⟩)
          · simp at ho
        · simp at ho
      · exact ih' _ _ _ o ho

theorem splitOp_there {cs : Str} {o : OpAt} (h : splitOp cs = some o) : OpThere cs o :=
  opsLoop_there cs cs 0 '\\' 0 0 0 rfl o (splitOp_mem h)


variable {F : Type} [FArith F] {cfg : Cfg} {rec : Str → Out ParserError (AST F)}

theorem look_up : ∀ q ∈ functionLookUp, parens q.2 = 1 ∧ (q.1 = .root ∧ q.2 = "root(".toList ∨ q.1 ≠ .root ∧ ∃ f, opName q.1 = some f ∧ q.2 = f ++ ['(']) := by
  intro q hq
  fin_cases hq
  all_goals first
    | exact ⟨by decide, Or.inl ⟨rfl, rfl⟩⟩
    | exact ⟨by decide, Or.inr ⟨by decide, _, rfl, rfl⟩⟩

theorem spell_all (h : ∀ t, Ascii t → Out.Post False (Inv96 cfg t) (rec t)) (l : List Str) (hl : ∀ w ∈ l, Ascii w) :
    Out.Post False (fun r => List.Forall₂ (Inv96 cfg) l r) (parseAll rec l) := post_forall₂ l fun a ha => h a (hl a ha)

theorem spell_flip {ws : List Str} {ts : List (AST F)} (h : List.Forall₂ (Inv96 cfg) ws ts) : List.Forall₂ (Spells cfg) ts ws := by
  induction h with
  | nil => exact .nil
  | cons h1 _ ih => exact .cons h1.1 ih

theorem args_commas (s : Str) : commas (getArgs s) = s := (C04_join s).1

theorem spell_function (h : ∀ t, Ascii t → Out.Post False (Inv96 cfg t) (rec t)) {cs : Str} (ha : Ascii cs) (hp : parens cs = 0) (hne : 0 < cs.length) :
    ∀ res, parseFunction rec cs = some res → Out.Post False (Spells cfg · cs) res := by
  intro res hres
  unfold parseFunction at hres
  split at hres
  · cases hres
  rename_i op p hfind
  have hst : startsWith cs p = true := by simpa using List.find?_some hfind
  obtain ⟨hpp, hcase⟩ := look_up _ (List.mem_of_find?_eq_some hfind)
  simp only at hpp hcase
  cases hres
  split
  · rename_i hroot
    have hpr : p = "root(".toList := by
      rcases hcase with h | h
      · exact h.2
      · exact absurd hroot h.1
    refine Out.Post.bind (slice_post' fun h => h.elim) fun inner hin => ?_
    have hs := slice_infix hin
    obtain ⟨c, hcs, _⟩ := slice_parts hne hin
    rw [startsWith_take hst] at hcs
    have hi := args_infix inner
    have hj := args_commas inner
    simp only
    split
    · trivial
    · rename_i hlen
      obtain ⟨w, v, hwv⟩ := List.length_eq_two.1 (not_not.1 hlen)
      rw [hwv] at hi hj ⊢
      refine Out.Post.bind (idx_post' fun h => h.elim) fun a0 h0 => ?_
      cases h0
      refine Out.Post.bind (h w (ha.infix ((hi.1 _ (by simp)).trans hs.1))) fun l hl => ?_
      refine Out.Post.bind (idx_post' fun h => h.elim) fun a1 h1 => ?_
      cases h1
      refine Out.Post.bind (h v (ha.infix ((hi.1 _ (by simp)).trans hs.1))) fun r hr => ?_
      have hj' : inner = w ++ ',' :: v := by rw [← hj]; simp [commas, List.intercalate]
      have hc : c = ')' := by
        apply parens_last
        have := congrArg parens hcs
        rw [parens_append, parens_append, hpp, hp, hj', parens_append, parens_cons, hl.2, hr.2] at this
        simp at this
        omega
      show Spells cfg (.simple op l r) cs
      rw [Spells]
      refine Or.inr (Or.inr (Or.inr (Or.inl ⟨hroot, w, v, ?_, hl.1, hr.1⟩)))
      rw [hcs, hpr, hj', hc]
      simp
  · rename_i hroot
    obtain ⟨f, hf1, hf2⟩ := (hcase.resolve_left fun h => hroot h.1).2
    refine Out.Post.bind (slice_post' fun h => h.elim) fun inner hin => ?_
    have hs := slice_infix hin
    obtain ⟨c, hcs, _⟩ := slice_parts hne hin
    rw [startsWith_take hst] at hcs
    refine Out.Post.bind (h inner (ha.infix hs.1)) fun l hl => ?_
    have hc : c = ')' := by
      apply parens_last
      have := congrArg parens hcs
      rw [parens_append, parens_append, hpp, hp, hl.2] at this
      omega
    show Spells cfg (.simple op l noOperand) cs
    rw [Spells]
    refine Or.inr (Or.inr (Or.inr (Or.inr (Or.inr (Or.inr ⟨f, hf1, rfl, inner, ?_, hl.1⟩)))))
    rw [hcs, hf2, hc]
    simp

/-- What is shown of an entry of `eq(...)`. -/
def Entry96 (cfg : Cfg) (s : Str) : Sum (AST F × AST F) Str → Prop
  | .inl e => '=' ∈ s ∧ ∃ uv, EntrySides s uv ∧ Spells cfg e.1 uv.1 ∧ Spells cfg e.2 uv.2 ∧ (s.count '=' ≤ 1 → parens s = 0)
  | .inr n => '=' ∉ s ∧ n = s

theorem splitEq_sides {s : Str} (h : '=' ∈ s) : ∃ rest, s = (splitEq s).1 ++ '=' :: (splitEq s).2 ++ rest ∧ '=' ∉ (splitEq s).1 ∧
    '=' ∉ (splitEq s).2 ∧ (rest = [] ∨ rest.head? = some '=') := by
  have hd : s.takeWhile (· != '=') ++ s.dropWhile (· != '=') = s := List.takeWhile_append_dropWhile
  have hno : ∀ l : Str, '=' ∉ l.takeWhile (· != '=') := by
    intro l hm
    have := List.mem_takeWhile_imp hm
    simp at this
  have hhead : ∀ l : Str, l.dropWhile (· != '=') = [] ∨ (l.dropWhile (· != '=')).head? = some '=' := by
    intro l
    induction l with
    | nil => exact Or.inl rfl
    | cons c l ih =>
      rw [List.dropWhile_cons]
      split
      · exact ih
      · rename_i hc
        right
        simpa using hc
  have h1 : s.dropWhile (· != '=') = '=' :: (s.dropWhile (· != '=')).drop 1 := by
    rcases hhead s with h0 | h0
    · rw [h0, List.append_nil] at hd
      have h9 : '=' ∈ s.takeWhile (· != '=') := by rw [hd]; exact h
      exact absurd h9 (hno s)
    · cases hx : s.dropWhile (· != '=') with
      | nil => rw [hx] at h0; cases h0
      | cons c l => rw [hx] at h0; cases h0; rfl
  refine ⟨((s.dropWhile (· != '=')).drop 1).dropWhile (· != '='), ?_, hno _, hno _, hhead _⟩
  conv_lhs => rw [← hd, h1, ← List.takeWhile_append_dropWhile (p := (· != '=')) (l := (s.dropWhile (· != '=')).drop 1)]
  simp [splitEq]

theorem spell_entry (h : ∀ t, Ascii t → Out.Post False (Inv96 cfg t) (rec t)) (s : Str) (ha : Ascii s) :
    Out.Post False (Entry96 cfg s) (parseEqEntry rec s) := by
  unfold parseEqEntry
  split
  · rename_i hc
    exact ⟨by simpa using hc, rfl⟩
  · rename_i hc
    have hc' : '=' ∈ s := by simpa using hc
    obtain ⟨rest, e1, e2, e3, e4⟩ := splitEq_sides hc'
    have i1 : (splitEq s).1 <:+: s := takeWhile_infix _ _
    have i2 : (splitEq s).2 <:+: s := by
      conv_rhs => rw [e1]
      exact ⟨(splitEq s).1 ++ ['='], rest, by simp⟩
    have hone : s.count '=' ≤ 1 → parens (splitEq s).1 = 0 → parens (splitEq s).2 = 0 → parens s = 0 := by
      intro h1 h2 h3
      have hr : rest = [] := by
        rcases e4 with h | h
        · exact h
        · exfalso
          obtain ⟨r, rfl⟩ : ∃ r, rest = '=' :: r := by
            cases rest with
            | nil => cases h
            | cons c r => cases h; exact ⟨r, rfl⟩
          rw [e1] at h1
          simp [List.count_append] at h1
          omega
      rw [e1, hr, List.append_nil, parens_append, parens_cons, h2, h3]
      decide
    simp only
    rw [byteLen_ascii _ (ha.infix i1), byteLen_ascii _ (ha.infix i2)]
    split
    · rename_i hle
      refine Out.Post.bind (h _ (ha.infix i1)) fun l hl => ?_
      refine Out.Post.bind (h _ (ha.infix i2)) fun r hr => ?_
      exact ⟨hc', _, ⟨_, _, rest, e1, e2, e3, e4, (if_pos hle).symm⟩, hl.1, hr.1, fun h1 => hone h1 hl.2 hr.2⟩
    · rename_i hle
      refine Out.Post.bind (h _ (ha.infix i2)) fun l hl => ?_
      refine Out.Post.bind (h _ (ha.infix i1)) fun r hr => ?_
      exact ⟨hc', _, ⟨_, _, rest, e1, e2, e3, e4, (if_neg hle).symm⟩, hl.1, hr.1, fun h1 => hone h1 hr.2 hl.2⟩

theorem parens_commas (ws : List Str) : parens (commas ws) = (ws.map parens).sum := by
  unfold commas
  induction ws with
  | nil => rfl
  | cons w ws ih =>
    cases ws with
    | nil => simp [List.intercalate]
    | cons v ws =>
      have e : [','].intercalate (w :: v :: ws) = w ++ ([','] ++ [','].intercalate (v :: ws)) := by
        simp [List.intercalate]
      rw [e, parens_append, parens_append, ih]
      simp [parens]

theorem entries96 {ws : List Str} {entries : List (Sum (AST F × AST F) Str)} (h : List.Forall₂ (Entry96 cfg) ws entries) :
    ∃ uvs, entries.filterMap Sum.getRight? = ws.filter ('=' ∉ ·) ∧ List.Forall₂ EntrySides (ws.filter ('=' ∈ ·)) uvs ∧
      SpellsEqs cfg (entries.filterMap Sum.getLeft?) uvs ∧
      ((∀ w ∈ ws, ')' ∈ w → '=' ∈ w ∧ w.count '=' < 2) → 0 ≤ (ws.map parens).sum) := by
  induction h with
  | nil => exact ⟨[], rfl, .nil, trivial, by simp⟩
  | @cons w e ws es h1 _ ih =>
    obtain ⟨uvs, j1, j2, j3, j4⟩ := ih
    cases e with
    | inl e =>
      obtain ⟨hm, uv, k1, k2, k3, k4⟩ := h1
      refine ⟨uv :: uvs, ?_, ?_, ?_, ?_⟩
      · rw [List.filterMap_cons_none rfl, List.filter_cons_of_neg (by simpa using hm)]
        exact j1
      · rw [List.filter_cons_of_pos (by simpa using hm)]
        exact .cons k1 j2
      · simp only [List.filterMap_cons, Sum.getLeft?]
        exact ⟨k2, k3, j3⟩
      · intro hall
        have h2 := j4 fun w hw => hall w (by simp [hw])
        have h3 : 0 ≤ parens w := by
          by_cases hx : ')' ∈ w
          · have := hall w (by simp) hx
            rw [k4 (by omega)]
          · exact parens_nonneg hx
        simp only [List.map_cons, List.sum_cons]
        omega
    | inr n =>
      obtain ⟨hm, rfl⟩ := h1
      refine ⟨uvs, ?_, ?_, ?_, ?_⟩
      · simpa [hm, Sum.getRight?] using j1
      · rw [List.filter_cons_of_neg (by simpa using hm)]
        exact j2
      · simpa only [List.filterMap_cons, Sum.getLeft?] using j3
      · intro hall
        have h2 := j4 fun w hw => hall w (by simp [hw])
        have h3 : 0 ≤ parens n := by
          by_cases hx : ')' ∈ n
          · exact absurd (hall n (by simp) hx).1 hm
          · exact parens_nonneg hx
        simp only [List.map_cons, List.sum_cons]
        omega

theorem spell_advanced (h : ∀ t, Ascii t → Out.Post False (Inv96 cfg t) (rec t)) {cs : Str} (ha : Ascii cs) (hp : parens cs = 0) (hne : 0 < cs.length) :
    ∀ res, parseAdvanced rec cs = some res → Out.Post False (Spells cfg · cs) res := by
  intro res hres
  unfold parseAdvanced at hres
  split at hres
  · rename_i hst
    cases hres
    refine Out.Post.bind (slice_post' fun h => h.elim) fun inner hin => ?_
    have hs := slice_infix hin
    obtain ⟨c, hcs, _⟩ := slice_parts hne hin
    have e0 : cs.take 2 = "I(".toList := startsWith_take hst
    rw [e0] at hcs
    have hi := args_infix inner
    have hj := args_commas inner
    simp only
    split
    · trivial
    · rename_i hlen
      obtain ⟨w0, w1, w2, w3, hw⟩ : ∃ a b c d, getArgs inner = [a, b, c, d] := by
        have hl := not_not.1 hlen
        match hg : getArgs inner, hl with
        | [a, b, c, d], _ => exact ⟨a, b, c, d, rfl⟩
      rw [hw] at hi hj ⊢
      have hasc : ∀ w ∈ [w0, w1, w2, w3], Ascii w := fun w hw => ha.infix ((hi.1 w hw).trans hs.1)
      refine Out.Post.bind (idx_post' fun h => h.elim) fun a0 h0 => ?_
      cases h0
      refine Out.Post.bind (h w0 (hasc _ (by simp))) fun f hf => ?_
      refine Out.Post.bind (idx_post' fun h => h.elim) fun a2 h2 => ?_
      cases h2
      refine Out.Post.bind (h w2 (hasc _ (by simp))) fun lb hlb => ?_
      refine Out.Post.bind (idx_post' fun h => h.elim) fun a3 h3 => ?_
      cases h3
      refine Out.Post.bind (h w3 (hasc _ (by simp))) fun ub hub => ?_
      refine Out.Post.bind (idx_post' fun h => h.elim) fun a1 h1 => ?_
      cases h1
      have hj' : inner = w0 ++ ',' :: w1 ++ ',' :: w2 ++ ',' :: w3 := by rw [← hj]; simp [commas, List.intercalate]
      show Spells cfg (.integral f w1 lb ub) cs
      rw [Spells]
      refine ⟨w0, w2, w3, c, ?_, ?_, hf.1, hlb.1, hub.1⟩
      · rw [hcs, hj']
        simp
      · by_contra hc
        push Not at hc
        apply hc.1
        apply parens_last
        have h5 := congrArg parens hcs
        have h6 := parens_nonneg hc.2
        have h7 : parens "I(".toList = 1 := by decide
        rw [parens_append, parens_append, h7, hp, hj'] at h5
        simp only [parens_append, parens_cons, hf.2, hlb.2, hub.2] at h5
        have h8 : parens ([] : Str) = 0 := rfl
        simp at h5
        have h9 := parens_cons c []
        omega
  split at hres
  · rename_i hst
    cases hres
    refine Out.Post.bind (slice_post' fun h => h.elim) fun inner hin => ?_
    have hs := slice_infix hin
    obtain ⟨c, hcs, _⟩ := slice_parts hne hin
    have e0 : cs.take 2 = "D(".toList := startsWith_take hst
    rw [e0] at hcs
    have hi := args_infix inner
    have hj := args_commas inner
    simp only
    split
    · trivial
    · rename_i hlen
      obtain ⟨w0, w1, w2, hw⟩ := List.length_eq_three.1 (not_not.1 hlen)
      rw [hw] at hi hj ⊢
      have hasc : ∀ w ∈ [w0, w1, w2], Ascii w := fun w hw => ha.infix ((hi.1 w hw).trans hs.1)
      refine Out.Post.bind (idx_post' fun h => h.elim) fun a0 h0 => ?_
      cases h0
      refine Out.Post.bind (h w0 (hasc _ (by simp))) fun f hf => ?_
      refine Out.Post.bind (idx_post' fun h => h.elim) fun a2 h2 => ?_
      cases h2
      refine Out.Post.bind (h w2 (hasc _ (by simp))) fun at_ hat => ?_
      refine Out.Post.bind (idx_post' fun h => h.elim) fun a1 h1 => ?_
      cases h1
      have hj' : inner = w0 ++ ',' :: w1 ++ ',' :: w2 := by rw [← hj]; simp [commas, List.intercalate]
      show Spells cfg (.derivative f w1 at_) cs
      rw [Spells]
      refine ⟨w0, w2, c, ?_, ?_, hf.1, hat.1⟩
      · rw [hcs, hj']
        simp
      · by_contra hc
        push Not at hc
        apply hc.1
        apply parens_last
        have h5 := congrArg parens hcs
        have h6 := parens_nonneg hc.2
        have h7 : parens "D(".toList = 1 := by decide
        rw [parens_append, parens_append, h7, hp, hj'] at h5
        simp only [parens_append, parens_cons, hf.2, hat.2] at h5
        have h8 : parens ([] : Str) = 0 := rfl
        simp at h5
        have h9 := parens_cons c []
        omega
  split at hres
  · rename_i hst
    cases hres
    refine Out.Post.bind (slice_post' fun h => h.elim) fun inner hin => ?_
    have hs := slice_infix hin
    obtain ⟨c, hcs, _⟩ := slice_parts hne hin
    have e0 : cs.take 3 = "eq(".toList := startsWith_take hst
    rw [e0] at hcs
    have hi := args_infix inner
    have hj := args_commas inner
    refine Out.Post.bind (post_forall₂ _ fun a hm => spell_entry h a (ha.infix ((hi.1 a hm).trans hs.1))) fun entries hen => ?_
    obtain ⟨uvs, k1, k2, k3, k4⟩ := entries96 hen
    show Spells cfg (.equation _ _) cs
    rw [Spells]
    refine ⟨getArgs inner, uvs, c, by rw [hj]; exact hcs, ?_, k1, k2, k3⟩
    by_contra hc
    push Not at hc
    have h4 := k4 fun w hw hx => hc.2 w hw hx
    rw [← parens_commas, hj] at h4
    apply hc.1
    apply parens_last
    have h5 := congrArg parens hcs
    have h7 : parens "eq(".toList = 1 := by decide
    rw [parens_append, parens_append, h7, hp] at h5
    omega
  · cases hres

theorem spell_value (h : ∀ t, Ascii t → Out.Post False (Inv96 cfg t) (rec t)) {cs : Str} (ha : Ascii cs) (hne : 0 < cs.length)
    (ho : opsInExpr cs = []) (hα : ∃ c r, cs = c :: r ∧ UTable.isAlphabetic c = false) :
    Out.Post False (Spells cfg · cs) (parseValue cfg rec cs) := by
  unfold parseValue
  split
  · split
    · rename_i f hf
      show Spells cfg (.scalar f) cs
      rw [Spells]
      exact literal_of_scalar ho hf hα
    · trivial
  · rw [byteLen_ascii _ ha]
    split
    · refine Out.Post.bind (idx_post' fun h => h.elim) fun c0 hc0 => ?_
      split
      · trivial
      · rename_i h0
        refine Out.Post.bind (idx_post' fun h => h.elim) fun cl hcl => ?_
        split
        · trivial
        · rename_i hl
          refine Out.Post.bind (slice_post' fun h => h.elim) fun inner hin => ?_
          have hs := slice_infix hin
          obtain ⟨c, hcs, hc⟩ := slice_parts hne hin
          have hcs' : cs = '[' :: inner ++ [']'] := by
            rw [hcl] at hc
            cases hc
            have e1 : cs.take 1 = ['['] := by
              cases cs with
              | nil => simp at hne
              | cons x r => simp at hc0; simp [hc0, not_not.1 h0]
            rw [e1, not_not.1 hl] at hcs
            exact hcs
          have hi := args_infix inner
          have hj := args_commas inner
          refine Out.Post.bind (idx_post' fun h => h.elim) fun a0 ha0 => ?_
          split
          · trivial
          · refine Out.Post.bind (spell_all h _ fun w hw => ha.infix ((hi.1 w hw).trans hs.1)) fun outputV hV => ?_
            have hV' := spell_flip hV
            simp only
            split
            · show Spells cfg (.vector outputV) cs
              rw [Spells]
              exact ⟨getArgs inner, getArgs_ne_nil _, by rw [bracketed, hj]; exact hcs', spellsAll_iff.2 hV'⟩
            · split
              · have hrow : ∀ a : AST F, Out.Post False (fun r => a = .vector r) (asRow a) := by
                  intro a
                  cases a <;> first | rfl | trivial
                refine Out.Post.bind (post_forall₂ outputV fun a _ => hrow a) fun outputM hM => ?_
                have hrows : ∃ rows, getArgs inner = rows.map bracketed ∧ (∀ r ∈ rows, r ≠ []) ∧ List.Forall₂ (List.Forall₂ (Spells cfg)) outputM rows := by
                  rename_i hc1 hc2
                  generalize getArgs inner = ws at hV'
                  clear hV hi hj ha0 hc1 hc2
                  induction hM generalizing ws with
                  | nil => cases hV'; exact ⟨[], rfl, nofun, .nil⟩
                  | cons e1 _ ih =>
                    subst e1
                    cases hV' with
                    | cons g1 g2 =>
                      obtain ⟨rows, f1, f0, f2⟩ := ih _ g2
                      rw [Spells] at g1
                      obtain ⟨us, hus, rfl, g3⟩ := g1
                      exact ⟨us :: rows, by rw [f1]; rfl, by simpa using ⟨hus, f0⟩, .cons (spellsAll_iff.1 g3) f2⟩
                obtain ⟨rows, f1, f0, f2⟩ := hrows
                refine Out.Post.bind (idx_post' fun h => h.elim) fun m0 hm0 => ?_
                split
                · trivial
                · rename_i hany
                  have hlen : ∀ r ∈ outputM, r.length = m0.length := by
                    intro r hr
                    by_contra hc
                    exact hany (List.any_eq_true.2 ⟨r, hr, by simpa using hc⟩)
                  have hrl : ∀ r ∈ rows, r.length = m0.length := forall₂_lengths f2 hlen
                  have hrne : rows ≠ [] := by
                    rintro rfl
                    exact getArgs_ne_nil inner f1
                  have hm0pos : 0 < m0.length := by
                    cases rows with
                    | nil => exact absurd rfl hrne
                    | cons r rows =>
                      rw [← hrl r (by simp)]
                      exact List.length_pos_iff.2 (f0 r (by simp))
                  have hcs2 : cs = bracketed (rows.map bracketed) := by
                    rw [bracketed, ← f1, hj]; exact hcs'
                  split
                  · rename_i hmaj
                    show Spells cfg (.matrix outputM) cs
                    rw [Spells]
                    refine ⟨rows, m0.length, hrne, hm0pos, hcs2, hrl, ?_⟩
                    rw [if_pos hmaj]
                    exact spellsRows_iff.2 f2
                  · rename_i hmaj
                    have hmne : outputM ≠ [] := by
                      rintro rfl
                      cases hm0
                    rw [colMatrix_eq outputM m0.length hmne hlen]
                    show Spells cfg (.matrix _) cs
                    rw [Spells]
                    refine ⟨rows, m0.length, hrne, hm0pos, hcs2, hrl, ?_⟩
                    rw [if_neg hmaj]
                    exact spellsRows_iff.2 (forall₂_transpose f2 hlen)
              · trivial
    · trivial

theorem findParen_ascii {cs : Str} (ha : Ascii cs) : findParen cs = (cs.takeWhile (· != '(')).length := by
  unfold findParen
  exact byteLen_ascii _ (ha.infix (takeWhile_infix _ _))

theorem spell_atom (h : ∀ t, Ascii t → Out.Post False (Inv96 cfg t) (rec t)) {cs : Str} (ha : Ascii cs) (hne : 0 < cs.length)
    (ho : opsInExpr cs = []) : Out.Post False (Spells cfg · cs) (parseAtom cfg rec cs) := by
  unfold parseAtom
  refine Out.Post.bind (idx_post' fun h => h.elim) fun c0 hc0 => ?_
  refine Out.Post.bind (idx_post' fun h => h.elim) fun cl hcl => ?_
  split
  · rename_i hcond
    simp only [Bool.and_eq_true, beq_iff_eq] at hcond
    refine Out.Post.bind (slice_post' fun h => h.elim) fun inner hin => ?_
    have hs := slice_infix hin
    obtain ⟨c, hcs, hc⟩ := slice_parts hne hin
    have hi := args_infix inner
    have hj := args_commas inner
    refine Out.Post.bind (spell_all h _ fun w hw => ha.infix ((hi.1 w hw).trans hs.1)) fun args hargs => ?_
    refine Out.Post.bind (isValidVarName_post fun h => h.elim) fun v hv => ?_
    split
    · trivial
    · show Spells cfg (.function _ _) cs
      rw [Spells]
      refine ⟨getArgs inner, getArgs_ne_nil _, ?_, spellsAll_iff.2 (spell_flip hargs)⟩
      rw [hj]
      rw [hcl] at hc
      cases hc
      have e1 : cs.take (findParen cs + 1) = cs.takeWhile (· != '(') ++ ['('] := by
        rw [findParen_ascii ha]
        have hd : cs.takeWhile (· != '(') ++ cs.dropWhile (· != '(') = cs := List.takeWhile_append_dropWhile
        have hdw : (cs.dropWhile (· != '(')).head? = some '(' := by
          have hmem : '(' ∈ cs := by simpa using hcond.1.1
          have : ∀ l : Str, '(' ∈ l → (l.dropWhile (· != '(')).head? = some '(' := by
            intro l hl
            induction l with
            | nil => cases hl
            | cons x l ih =>
              rw [List.dropWhile_cons]
              split
              · rename_i hx
                refine ih ?_
                rcases List.mem_cons.1 hl with rfl | hl
                · simp at hx
                · exact hl
              · rename_i hx
                simpa using hx
          exact this cs hmem
        cases hx : cs.dropWhile (· != '(') with
        | nil => rw [hx] at hdw; cases hdw
        | cons x r =>
          rw [hx] at hdw hd
          cases hdw
          conv_lhs => arg 2; rw [← hd]
          rw [List.take_append]
          simp
      rw [e1, hcond.2] at hcs
      rw [List.append_assoc, List.append_assoc] at hcs
      simpa using hcs
  · split
    · refine Out.Post.bind (isValidVarName_post fun h => h.elim) fun v hv => ?_
      split
      · trivial
      · show Spells cfg (.variable cs : AST F) cs
        rw [Spells]
    · rename_i hαn
      split
      · rename_i hbr
        simp only [Bool.and_eq_true, beq_iff_eq] at hbr
        refine Out.Post.bind (slice_post' fun h => h.elim) fun inner hin => ?_
        have hs := slice_infix hin
        obtain ⟨c, hcs, hc⟩ := slice_parts hne hin
        have hi := args_infix inner
        have hj := args_commas inner
        refine Out.Post.bind (spell_all h _ fun w hw => ha.infix ((hi.1 w hw).trans hs.1)) fun l hl => ?_
        show Spells cfg (.list l) cs
        rw [Spells]
        refine ⟨getArgs inner, getArgs_ne_nil _, ?_, spellsAll_iff.2 (spell_flip hl)⟩
        rw [hj]
        rw [hcl] at hc
        cases hc
        have e1 : cs.take 1 = ['{'] := by
          cases cs with
          | nil => simp at hne
          | cons x r => simp at hc0; simp [hc0, hbr.1]
        rw [e1, hbr.2] at hcs
        exact hcs
      · refine spell_value h ha hne ho ?_
        cases cs with
        | nil => simp at hne
        | cons x r =>
          obtain rfl : x = c0 := by simpa using hc0
          refine ⟨x, r, rfl, ?_⟩
          simp only [Bool.or_eq_true, not_or] at hαn
          simpa using hαn.1

theorem spell_step (h : ∀ t, Ascii t → Out.Post False (Inv96 cfg t) (rec t)) (cs : Str) (ha : Ascii cs) :
    Out.Post False (Inv96 cfg cs) (parseStep cfg rec cs) := by
  unfold parseStep
  split
  · trivial
  · rename_i hemp
    have hne : 0 < cs.length := by
      rcases cs with _ | ⟨c, cs⟩
      · simp at hemp
      · simp
    have hdep := checkLoop_depth cs.length cs 0 0 true
    simp only
    split
    · trivial
    rename_i hd1
    split
    · trivial
    rename_i hd2
    have hp : parens cs = 0 := by omega
    have wrap : ∀ o : Out ParserError (AST F), Out.Post False (Spells cfg · cs) o → Out.Post False (Inv96 cfg cs) o :=
      fun o ho => ho.mono fun t ht => ⟨ht, hp⟩
    apply wrap
    refine Out.Post.bind (idx_post' fun h => h.elim) fun c0 hc0 => ?_
    refine Out.Post.bind (idx_post' fun h => h.elim) fun cl hcl => ?_
    split
    · rename_i hpar
      simp only [Bool.and_eq_true, beq_iff_eq] at hpar
      refine Out.Post.bind (slice_post' fun h => h.elim) fun inner hin => ?_
      have hs := slice_infix hin
      obtain ⟨c, hcs, hc⟩ := slice_parts hne hin
      refine Out.Post.bind (h inner (ha.infix hs.1)) fun l hl => ?_
      show Spells cfg (.simple .parenths l noOperand) cs
      rw [Spells]
      refine Or.inl ⟨rfl, rfl, inner, ?_, hl.1⟩
      rw [hcl] at hc
      cases hc
      have e1 : cs.take 1 = ['('] := by
        cases cs with
        | nil => simp at hne
        | cons x r => simp at hc0; simp [hc0, hpar.1.2]
      rw [e1, hpar.2] at hcs
      exact hcs
    · split
      · rename_i o hsp
        obtain ⟨o1, o2, o3⟩ := splitOp_ok hsp
        have hthere := splitOp_there hsp
        refine Out.Post.bind (slice_post' fun h => h.elim) fun leftS hL => ?_
        refine Out.Post.bind (slice_post' fun h => h.elim) fun rightS hR => ?_
        have hL' := slice_infix hL
        have hR' := slice_infix hR
        obtain ⟨_, _, eL⟩ := slice_eq_ok.1 hL
        obtain ⟨_, _, eR⟩ := slice_eq_ok.1 hR
        rw [o2, Nat.sub_zero, List.drop_zero] at eL
        rw [List.take_length] at eR
        refine Out.Post.bind (h rightS (ha.infix hR'.1)) fun r hr => ?_
        have hsplit : (o.op = .hiddenMult ∧ o.skipR = 0 ∧ cs = leftS ++ rightS) ∨
            (∃ c, cs = leftS ++ c :: rightS ∧ ((o.op = .neg ∧ c = '-' ∧ leftS = []) ∨ (opSymbol o.op = some c ∧ (o.op = .sub → leftS ≠ [])))) := by
          rcases hthere with ⟨h1, h2⟩ | ⟨h1, c, h2, h3⟩
          · refine Or.inl ⟨h1, h2, ?_⟩
            rw [h2] at eR
            rw [eL, eR, Nat.add_zero, List.take_append_drop]
          · refine Or.inr ⟨c, ?_, ?_⟩
            · rw [h1] at eR
              rw [eL, eR]
              have hlt : o.pos < cs.length := o1
              have hc : cs[o.pos] = c := by
                rw [List.getElem?_eq_getElem hlt] at h2
                exact Option.some.inj h2
              rw [← hc, ← List.drop_eq_getElem_cons hlt, List.take_append_drop]
            · rcases h3 with ⟨h4, h5, h6⟩ | ⟨h4, h5⟩
              · exact Or.inl ⟨h4, h5, by rw [eL, h6]; rfl⟩
              · refine Or.inr ⟨h4, fun hsub => ?_⟩
                intro h0
                rw [eL] at h0
                have : min o.pos cs.length = 0 := by rw [← List.length_take, h0]; rfl
                exact h5 hsub (by omega)
        split
        · rename_i hem
          have h0 : leftS = [] := by simpa using hem
          subst h0
          show Spells cfg (.simple o.op noOperand r) cs
          rw [Spells]
          rcases hsplit with ⟨h1, h2, h3⟩ | ⟨c, h3, h4⟩
          · exfalso
            rcases o3 with ⟨h5, _⟩ | ⟨_, h5, _⟩
            · omega
            · have : (cs.take o.pos).length = 0 := by rw [← eL]; rfl
              rw [List.length_take] at this
              omega
          · rcases h4 with ⟨h4, h5, _⟩ | ⟨h4, h5⟩
            · exact Or.inr (Or.inr (Or.inl ⟨h4, rfl, rightS, by rw [h3, h5]; rfl, hr.1⟩))
            · exact Or.inr (Or.inr (Or.inr (Or.inr (Or.inr (Or.inl ⟨c, h4, fun hsub => h5 hsub rfl, rfl, rightS, h3, hr.1⟩)))))
        · rename_i hem
          refine Out.Post.bind (h leftS (ha.infix hL'.1)) fun l hl => ?_
          show Spells cfg (.simple o.op l r) cs
          rw [Spells]
          rcases hsplit with ⟨h1, h2, h3⟩ | ⟨c, h3, h4⟩
          · exact Or.inr (Or.inl ⟨h1, leftS, rightS, h3, hl.1, hr.1⟩)
          · rcases h4 with ⟨h4, h5, h6⟩ | ⟨h4, h5⟩
            · rw [h6] at hem
              simp at hem
            · exact Or.inr (Or.inr (Or.inr (Or.inr (Or.inl ⟨c, h4, leftS, rightS, h3, hl.1, hr.1⟩))))
      · rename_i hsp
        split
        · rename_i res hres
          exact spell_function h ha hp hne res hres
        · split
          · rename_i res hres
            exact spell_advanced h ha hp hne res hres
          · exact spell_atom h ha hne (ops_of_splitOp_none hsp)

theorem spell_fuel (cfg : Cfg) (n : Nat) (s : Str) (ha : Ascii s) : Out.Post False (Inv96 cfg s) (parseFuel cfg n s : Out ParserError (AST F)) := by
  induction n generalizing s with
  | zero => trivial
  | succ n ih => exact spell_step ih s ha

/-- **C96.** Nothing is dropped: an (ASCII) text that is accepted is, without its blanks, a way to write the tree it is read as. -/
theorem C96_nothing_dropped (cfg : Cfg) (text : Str) (ha : Ascii (stripBlanks text)) (t : AST F) (h : parse cfg text = .ok t) :
    Spells cfg t (stripBlanks text) := by
  have := spell_fuel (F := F) cfg ((stripBlanks text).length + 1) (stripBlanks text) ha
  unfold parse parseInner at h
  rw [h] at this
  exact this.1

end
end MUL
