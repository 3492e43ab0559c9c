import Verif.Proofs.ParserFuel
import Verif.Spec.Parser
/-!
# Well-formedness of parsed trees and absence of panics, one unfolding of the parser
-/

set_option linter.unusedSimpArgs false

namespace MUL
open Spec

theorem idx_post' {ε α : Type} {np : Prop} {l : List α} {i : Nat} (h : np → i < l.length) :
    Out.Post np (fun a => l[i]? = some a) (idx l i : Out ε α) := by
  unfold idx Out.unwrap
  cases hi : l[i]? with
  | none =>
    intro hn
    have := h hn
    simp at hi
    omega
  | some a => rfl

theorem slice_post' {ε α : Type} {np : Prop} {l : List α} {a b : Nat} (h : np → a ≤ b ∧ b ≤ l.length) :
    Out.Post np (fun r => (slice l a b : Out ε (List α)) = .ok r) (slice l a b : Out ε (List α)) := by
  unfold slice
  split
  · rfl
  · rename_i hn
    intro hnp
    exact hn (h hnp)

/-! ## the delimiter loop -/

theorem parens_append (s t : Str) : parens (s ++ t) = parens s + parens t := by
  simp only [parens, List.count_append]; omega

theorem parens_cons (c : Char) (s : Str) :
    parens (c :: s) = (if c = '(' then 1 else if c = ')' then -1 else 0) + parens s := by
  simp only [parens, List.count_cons]
  by_cases h1 : c = '('
  · subst h1; simp; omega
  · by_cases h2 : c = ')'
    · subst h2; simp; omega
    · simp [h1, h2]

theorem checkLoop_depth (n : Nat) (s : Str) (i : Nat) (d : Int) (b : Bool) :
    (checkLoop n s i d b).1 = d + parens s := by
  induction s generalizing i d b with
  | nil => simp [checkLoop, parens]
  | cons c s ih =>
    rw [checkLoop, ih, parens_cons]
    by_cases h1 : c = '('
    · subst h1; simp; omega
    · by_cases h2 : c = ')'
      · subst h2; simp; omega
      · simp [h1, h2]

/-! ## names -/

section
variable [UTable]

theorem isValidVarName_post {ε : Type} {np : Prop} {s : Str} (h : np → s ≠ []) :
    Out.Post np (fun b => (isValidVarName s : Out ε Bool) = .ok b) (isValidVarName s : Out ε Bool) := by
  cases hv : (isValidVarName s : Out ε Bool) with
  | ok b => rfl
  | err e => trivial
  | timeout => trivial
  | panic =>
    intro hn
    have := h hn
    unfold isValidVarName at hv
    cases s with
    | nil => exact this rfl
    | cons c s =>
      rw [idx_lt (by simp), Out.ok_bind] at hv
      split at hv <;> cases hv

/-- Names accepted by `is_valid_var_name`. -/
def NameOk (n : Str) : Prop := (isValidVarName n : Out ParserError Bool) = .ok true

/-! ## pieces of the parser -/

variable {F : Type} [FArith F] {np : Prop}

local notation "WF" => WFTree (F := F) NameOk

omit [FArith F] in
theorem parseAll_post {rec : Str → Out ParserError (AST F)} (h : ∀ t, Out.Post np WF (rec t)) (l : List Str) :
    Out.Post np (fun r => r.length = l.length ∧ ∀ b ∈ r, WF b) (parseAll rec l) :=
  Out.Post.mapM l fun a _ => h a

omit [UTable] in
theorem startsWith_length {s p : Str} (h : startsWith s p = true) : ∃ r, s = p ++ r := by
  unfold startsWith at h
  rw [List.isPrefixOf_iff_prefix] at h
  obtain ⟨r, rfl⟩ := h
  exact ⟨r, rfl⟩

omit [UTable] in
theorem functionLookUp_parens {op : SimpleOp} {p : Str} (h : (op, p) ∈ functionLookUp) : parens p = 1 := by
  simp only [functionLookUp, List.mem_cons, Prod.mk.injEq, List.not_mem_nil, or_false] at h
  rcases h with ⟨_, rfl⟩ | ⟨_, rfl⟩ | ⟨_, rfl⟩ | ⟨_, rfl⟩ | ⟨_, rfl⟩ | ⟨_, rfl⟩ | ⟨_, rfl⟩ | ⟨_, rfl⟩ |
    ⟨_, rfl⟩ | ⟨_, rfl⟩ | ⟨_, rfl⟩ | ⟨_, rfl⟩ <;> decide

omit [UTable] in
/-- A string with balanced parentheses that starts with an unbalanced prefix is longer than it. -/
theorem prefix_lt {cs p : Str} (hs : startsWith cs p = true) (hp : parens p = 1) (h0 : parens cs = 0) :
    p.length ≤ cs.length - 1 := by
  obtain ⟨r, rfl⟩ := startsWith_length hs
  rw [parens_append, hp] at h0
  have : r ≠ [] := by
    rintro rfl
    simp [parens] at h0
  have := List.length_pos_iff.2 this
  simp
  omega

theorem parseFunction_post {rec : Str → Out ParserError (AST F)} (h : ∀ t, Out.Post np WF (rec t))
    {cs : Str} (h0 : parens cs = 0) :
    ∀ res, parseFunction rec cs = some res → Out.Post np WF res := by
  intro res hres
  unfold parseFunction at hres
  split at hres
  · cases hres
  · rename_i op p hf
    have hmem := List.mem_of_find?_eq_some hf
    have hst := List.find?_some hf
    have hlen := prefix_lt hst (functionLookUp_parens hmem) h0
    cases hres
    split
    · refine Out.Post.bind (slice_post' fun _ => ⟨hlen, by omega⟩) fun inner _ => ?_
      simp only
      split
      · trivial
      · rename_i hargs
        have hargs : (getArgs inner).length = 2 := by simpa using hargs
        refine Out.Post.bind (idx_post' fun _ => by omega) fun a0 _ => ?_
        refine Out.Post.bind (h a0) fun l hl => ?_
        refine Out.Post.bind (idx_post' fun _ => by omega) fun a1 _ => ?_
        refine Out.Post.bind (h a1) fun r hr => ?_
        exact .simple _ _ _ hl hr
    · refine Out.Post.bind (slice_post' fun _ => ⟨hlen, by omega⟩) fun inner _ => ?_
      refine Out.Post.bind (h inner) fun l hl => ?_
      exact .simple _ _ _ hl (.scalar _)

omit [FArith F] in
theorem parseEqEntry_post {rec : Str → Out ParserError (AST F)} (h : ∀ t, Out.Post np WF (rec t)) (s : Str) :
    Out.Post np (fun e => ∀ p, e = Sum.inl p → WF p.1 ∧ WF p.2) (parseEqEntry rec s) := by
  unfold parseEqEntry
  split
  · intro p hp; cases hp
  · simp only
    split
    · refine Out.Post.bind (h _) fun l hl => ?_
      refine Out.Post.bind (h _) fun r hr => ?_
      intro p hp; cases hp; exact ⟨hl, hr⟩
    · refine Out.Post.bind (h _) fun l hl => ?_
      refine Out.Post.bind (h _) fun r hr => ?_
      intro p hp; cases hp; exact ⟨hl, hr⟩

omit [FArith F] in
theorem parseAdvanced_post {rec : Str → Out ParserError (AST F)} (h : ∀ t, Out.Post np WF (rec t))
    {cs : Str} (h0 : parens cs = 0) :
    ∀ res, parseAdvanced rec cs = some res → Out.Post np WF res := by
  intro res hres
  unfold parseAdvanced at hres
  split at hres
  · rename_i hst
    have hlen := prefix_lt hst (by decide) h0
    cases hres
    refine Out.Post.bind (slice_post' fun _ => ⟨by simpa using hlen, by omega⟩) fun inner _ => ?_
    simp only
    split
    · trivial
    · rename_i hargs
      have hargs : (getArgs inner).length = 4 := by simpa using hargs
      refine Out.Post.bind (idx_post' fun _ => by omega) fun a0 _ => ?_
      refine Out.Post.bind (h a0) fun f hf => ?_
      refine Out.Post.bind (idx_post' fun _ => by omega) fun a2 _ => ?_
      refine Out.Post.bind (h a2) fun lb hlb => ?_
      refine Out.Post.bind (idx_post' fun _ => by omega) fun a3 _ => ?_
      refine Out.Post.bind (h a3) fun ub hub => ?_
      refine Out.Post.bind (idx_post' fun _ => by omega) fun a1 _ => ?_
      exact .integral _ _ _ _ hf hlb hub
  split at hres
  · rename_i hst
    have hlen := prefix_lt hst (by decide) h0
    cases hres
    refine Out.Post.bind (slice_post' fun _ => ⟨by simpa using hlen, by omega⟩) fun inner _ => ?_
    simp only
    split
    · trivial
    · rename_i hargs
      have hargs : (getArgs inner).length = 3 := by simpa using hargs
      refine Out.Post.bind (idx_post' fun _ => by omega) fun a0 _ => ?_
      refine Out.Post.bind (h a0) fun f hf => ?_
      refine Out.Post.bind (idx_post' fun _ => by omega) fun a2 _ => ?_
      refine Out.Post.bind (h a2) fun lb hlb => ?_
      refine Out.Post.bind (idx_post' fun _ => by omega) fun a1 _ => ?_
      exact .derivative _ _ _ hf hlb
  split at hres
  · rename_i hst
    have hlen := prefix_lt hst (by decide) h0
    cases hres
    refine Out.Post.bind (slice_post' fun _ => ⟨by simpa using hlen, by omega⟩) fun inner _ => ?_
    refine Out.Post.bind (Out.Post.mapM _ fun a _ => parseEqEntry_post h a) fun entries hen => ?_
    have key : ∀ e ∈ entries.filterMap Sum.getLeft?, WF e.1 ∧ WF e.2 := ?_
    · exact .equation _ _ (fun e he => (key e he).1) (fun e he => (key e he).2)
    intro e he
    simp only [List.mem_filterMap] at he
    obtain ⟨x, hx, hxe⟩ := he
    have := hen.2 x hx
    cases x with
    | inl p =>
      have hp : p = e := by simpa using hxe
      subst hp
      exact this _ rfl
    | inr p => simp at hxe
  · cases hres

omit [FArith F] in
theorem asRow_post (a : AST F) (h : WF a) :
    Out.Post np (fun r => r ≠ [] ∧ ∀ x ∈ r, WF x) (asRow a) := by
  cases h with
  | vector v hv ha => exact ⟨hv, ha⟩
  | _ => trivial

omit [FArith F] in
theorem colMatrix_post (m : List (List (AST F))) (n : Nat) (hm : m ≠ []) (hr : ∀ r ∈ m, r.length = n)
    (hwf : ∀ r ∈ m, ∀ x ∈ r, WF x) :
    Out.Post np (fun c => c.length = n ∧ (∀ r ∈ c, r.length = m.length) ∧ ∀ r ∈ c, ∀ x ∈ r, WF x)
      (colMatrix m) := by
  unfold colMatrix
  have hpos : 0 < m.length := List.length_pos_iff.2 hm
  refine Out.Post.bind (idx_post' fun _ => hpos) fun m0 hm0 => ?_
  have hl0 := hr m0 (List.mem_of_getElem? hm0)
  refine Out.Post.mono (Out.Post.mapM (P := fun r => r.length = m.length ∧ ∀ x ∈ r, WF x) _ fun i hi => ?_) ?_
  · refine Out.Post.mono (Out.Post.mapM (P := WF) _ fun j hj => ?_) ?_
    · have hi := List.mem_range.1 hi
      have hj := List.mem_range.1 hj
      refine Out.Post.bind (idx_post' fun _ => hj) fun r hrj => ?_
      have hmem := List.mem_of_getElem? hrj
      have hlen := hr r hmem
      refine Out.Post.mono (idx_post' fun _ => by omega) fun x hx => ?_
      exact hwf r hmem x (List.mem_of_getElem? hx)
    · intro a ha
      refine ⟨?_, ha.2⟩
      simpa using ha.1
  · intro a ha
    refine ⟨?_, fun r hr => (ha.2 r hr).1, fun r hr => (ha.2 r hr).2⟩
    have := ha.1
    simp at this
    omega

omit [UTable] in
theorem byteLen_ge (s : Str) : s.length ≤ byteLen s := by
  unfold byteLen
  induction s with
  | nil => simp
  | cons c s ih =>
    simp only [List.map_cons, List.sum_cons, List.length_cons]
    have : 1 ≤ c.utf8Size := Char.utf8Size_pos c
    omega

/-- Texts on which the parser cannot panic: ASCII texts, and texts without `[` and `(`. -/
def Calm (s : Str) : Prop := Ascii s ∨ ('[' ∉ s ∧ '(' ∉ s)

theorem parseValue_post {cfg : Cfg} {rec : Str → Out ParserError (AST F)} (h : ∀ t, Out.Post np WF (rec t))
    {cs : Str} (hcs : cs ≠ []) (hnp : np → Calm cs) : Out.Post np WF (parseValue cfg rec cs) := by
  have hlen : 0 < cs.length := List.length_pos_iff.2 hcs
  unfold parseValue
  split
  · split
    · exact .scalar _
    · trivial
  · rename_i hbr
    have hnp : np → Ascii cs := fun hn => (hnp hn).resolve_right fun hc => by
      apply hbr; simpa using hc.1
    split
    · rename_i hb
      refine Out.Post.bind (idx_post' fun _ => hlen) fun c0 _ => ?_
      split
      · trivial
      · refine Out.Post.bind (idx_post' fun hn => by
          have := byteLen_ascii cs (hnp hn); omega) fun cl hcl => ?_
        split
        · trivial
        · refine Out.Post.bind (slice_post' fun hn => by
            have := byteLen_ascii cs (hnp hn); omega) fun inner hin => ?_
          have hne := getArgs_ne_nil inner
          have hpos : 0 < (getArgs inner).length := List.length_pos_iff.2 hne
          refine Out.Post.bind (idx_post' fun _ => hpos) fun a0 ha0 => ?_
          split
          · trivial
          · refine Out.Post.bind (parseAll_post h _) fun outputV hV => ?_
            have hVne : outputV ≠ [] := by
              apply List.length_pos_iff.1; omega
            simp only
            split
            · exact .vector _ hVne hV.2
            · split
              · refine Out.Post.bind (Out.Post.mapM (P := fun r => r ≠ [] ∧ ∀ x ∈ r, WF x) outputV
                  fun a ha => asRow_post a (hV.2 a ha)) fun outputM hM => ?_
                have hMne : outputM ≠ [] := by
                  apply List.length_pos_iff.1; omega
                refine Out.Post.bind (idx_post' fun _ => List.length_pos_iff.2 hMne) fun m0 hm0 => ?_
                have hm0mem := List.mem_of_getElem? hm0
                split
                · trivial
                · rename_i hrect
                  have hrect : ∀ r ∈ outputM, r.length = m0.length := by
                    simpa using hrect
                  have hm0pos : 0 < m0.length := List.length_pos_iff.2 (hM.2 m0 hm0mem).1
                  split
                  · exact .matrix _ m0.length hMne hm0pos hrect fun r hr => (hM.2 r hr).2
                  · refine Out.Post.bind (colMatrix_post outputM m0.length hMne hrect
                      fun r hr => (hM.2 r hr).2) fun cm hcm => ?_
                    refine .matrix _ outputM.length ?_ (List.length_pos_iff.2 hMne) hcm.2.1 hcm.2.2
                    apply List.length_pos_iff.1; omega
              · trivial
    · trivial

omit [UTable] in
theorem takeWhile_paren_lt {cs : Str} (hc : cs.contains '(' = true) :
    (cs.takeWhile (· != '(')).length < cs.length ∧
      cs[(cs.takeWhile (· != '(')).length]? = some '(' := by
  have hd : cs = cs.takeWhile (· != '(') ++ cs.dropWhile (· != '(') :=
    List.takeWhile_append_dropWhile.symm
  cases hdw : cs.dropWhile (· != '(') with
  | nil =>
    have : cs.all (· != '(') = true := by
      rw [hdw, List.append_nil] at hd
      rw [hd]
      exact List.all_takeWhile
    simp only [List.contains_eq_mem, decide_eq_true_eq] at hc
    simp only [List.all_eq_true] at this
    have := this '(' hc
    simp at this
  | cons c r =>
    have hc : c = '(' := by
      have := List.head?_dropWhile_not (p := (· != '(')) cs
      rw [hdw] at this
      simpa using this
    subst hc
    rw [hdw] at hd
    have hl : cs.length = (cs.takeWhile (· != '(')).length + (r.length + 1) := by
      conv_lhs => rw [hd]
      simp
    refine ⟨by omega, ?_⟩
    have key : ∀ t : Str, (t ++ '(' :: r)[t.length]? = some '(' := by intro t; simp
    have := key (cs.takeWhile (· != '('))
    rwa [← hd] at this

theorem parseAtom_post {cfg : Cfg} {rec : Str → Out ParserError (AST F)} (h : ∀ t, Out.Post np WF (rec t))
    {cs : Str} (hcs : cs ≠ []) (hnp : np → Calm cs) : Out.Post np WF (parseAtom cfg rec cs) := by
  have hlen : 0 < cs.length := List.length_pos_iff.2 hcs
  unfold parseAtom
  refine Out.Post.bind (idx_post' fun _ => hlen) fun c0 hc0 => ?_
  refine Out.Post.bind (idx_post' fun _ => by omega) fun cl hcl => ?_
  split
  · rename_i hcond
    simp only [Bool.and_eq_true, bne_iff_ne, beq_iff_eq] at hcond
    obtain ⟨⟨hc, hfp⟩, hclose⟩ := hcond
    subst hclose
    have hnp : np → Ascii cs := fun hn => (hnp hn).resolve_right fun hn' => by
      apply hn'.2; simpa using hc
    have htw := takeWhile_paren_lt hc
    refine Out.Post.bind (slice_post' fun hn => ?_) fun inner hin => ?_
    · have hfp' : findParen cs = (cs.takeWhile (· != '(')).length :=
        byteLen_ascii _ fun c hc => hnp hn c ((List.takeWhile_sublist _).subset hc)
      rw [hfp']
      refine ⟨?_, by omega⟩
      have : (cs.takeWhile (· != '(')).length ≠ cs.length - 1 := by
        intro he
        rw [← he, htw.2] at hcl
        simp at hcl
      omega
    · refine Out.Post.bind (parseAll_post h _) fun args hargs => ?_
      refine Out.Post.bind (isValidVarName_post fun _ => ?_) fun v hv => ?_
      · intro he
        apply hfp
        unfold findParen
        rw [he]
        rfl
      · split
        · trivial
        · rename_i hvt
          have : v = true := by simpa using hvt
          subst this
          have hne : args ≠ [] := by
            apply List.length_pos_iff.1
            have := List.length_pos_iff.2 (getArgs_ne_nil inner)
            omega
          exact .function _ _ hv hne hargs.2
  · split
    · refine Out.Post.bind (isValidVarName_post fun _ => hcs) fun v hv => ?_
      split
      · trivial
      · rename_i hvt
        have : v = true := by simpa using hvt
        subst this
        exact .variable _ hv
    · split
      · rename_i hbr
        simp only [Bool.and_eq_true, beq_iff_eq] at hbr
        obtain ⟨rfl, rfl⟩ := hbr
        refine Out.Post.bind (slice_post' fun hn => ?_) fun inner hin => ?_
        · refine ⟨?_, by omega⟩
          have : cs.length - 1 ≠ 0 := by
            intro he
            rw [he, hc0] at hcl
            simp at hcl
          omega
        · refine Out.Post.bind (parseAll_post h _) fun l hl => ?_
          refine .list _ ?_ hl.2
          apply List.length_pos_iff.1
          have := List.length_pos_iff.2 (getArgs_ne_nil inner)
          omega
      · exact parseValue_post h hcs hnp

theorem parseStep_post {cfg : Cfg} {rec : Str → Out ParserError (AST F)} (h : ∀ t, Out.Post np WF (rec t))
    {cs : Str} (hnp : np → Calm cs) : Out.Post np WF (parseStep cfg rec cs) := by
  unfold parseStep
  split
  · trivial
  · rename_i hne
    have hcs : cs ≠ [] := by simpa using hne
    have hlen : 0 < cs.length := List.length_pos_iff.2 hcs
    simp only
    have hdepth := checkLoop_depth cs.length cs 0 0 true
    split
    · trivial
    split
    · trivial
    have h0 : parens cs = 0 := by omega
    refine Out.Post.bind (idx_post' fun _ => hlen) fun c0 hc0 => ?_
    refine Out.Post.bind (idx_post' fun _ => by omega) fun cl hcl => ?_
    split
    · rename_i hcond
      simp only [Bool.and_eq_true, beq_iff_eq] at hcond
      obtain ⟨⟨_, rfl⟩, rfl⟩ := hcond
      refine Out.Post.bind (slice_post' fun _ => ?_) fun inner _ => ?_
      · refine ⟨?_, by omega⟩
        have : cs.length - 1 ≠ 0 := by
          intro he
          rw [he, hc0] at hcl
          simp at hcl
        omega
      · refine Out.Post.bind (h inner) fun l hl => ?_
        exact .simple _ _ _ hl (.scalar _)
    · split
      · rename_i o ho
        obtain ⟨hp, hs, hr⟩ := splitOp_ok ho
        refine Out.Post.bind (slice_post' fun _ => by omega) fun leftS hL => ?_
        refine Out.Post.bind (slice_post' fun _ => by omega) fun rightS hR => ?_
        refine Out.Post.bind (h rightS) fun r hr => ?_
        split
        · exact .simple _ _ _ (.scalar _) hr
        · refine Out.Post.bind (h leftS) fun l hl => ?_
          exact .simple _ _ _ hl hr
      · split
        · rename_i res hres
          exact parseFunction_post h h0 res hres
        · split
          · rename_i res hres
            exact parseAdvanced_post h h0 res hres
          · exact parseAtom_post h hcs hnp

end

end MUL
