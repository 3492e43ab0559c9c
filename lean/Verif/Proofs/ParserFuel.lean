import Verif.Model.Parser
import Verif.Props.Combinatorics
/-!
# Every recursive call of the parser is on a strictly shorter string
-/

set_option linter.unusedSimpArgs false

namespace MUL

/-! ## lengths -/

theorem mem_splitTop_length {s : Str} {d : Int} :
    ((splitTop s d).1.length ≤ s.length) ∧ ∀ p ∈ (splitTop s d).2, p.length ≤ s.length := by
  induction s generalizing d with
  | nil => simp [splitTop]
  | cons c s ih =>
    rw [splitTop]
    have := @ih (d + depthOf c)
    split
    · simp only [List.length_nil, List.length_cons, Nat.zero_le, List.mem_cons, true_and]
      rintro p (rfl | hp)
      · omega
      · have := this.2 p hp; omega
    · simp only [List.length_cons]
      refine ⟨by omega, fun p hp => ?_⟩
      have := this.2 p hp; omega

theorem mem_getArgs_length {s p : Str} (h : p ∈ getArgs s) : p.length ≤ s.length := by
  rw [getArgs_eq] at h
  rcases List.mem_cons.1 h with rfl | h
  · exact mem_splitTop_length.1
  · exact mem_splitTop_length.2 p h

theorem mem_splitTop_subset {s : Str} {d : Int} :
    ((splitTop s d).1 ⊆ s) ∧ ∀ p ∈ (splitTop s d).2, p ⊆ s := by
  induction s generalizing d with
  | nil => simp [splitTop]
  | cons c s ih =>
    rw [splitTop]
    have := @ih (d + depthOf c)
    split
    · simp only [List.nil_subset, List.mem_cons, true_and]
      rintro p (rfl | hp)
      · exact List.subset_cons_of_subset _ this.1
      · exact List.subset_cons_of_subset _ (this.2 p hp)
    · simp only
      refine ⟨List.cons_subset_cons _ this.1, fun p hp => ?_⟩
      exact List.subset_cons_of_subset _ (this.2 p hp)

theorem mem_getArgs_subset {s p : Str} (h : p ∈ getArgs s) : p ⊆ s := by
  rw [getArgs_eq] at h
  rcases List.mem_cons.1 h with rfl | h
  · exact mem_splitTop_subset.1
  · exact mem_splitTop_subset.2 p h

theorem slice_subset {ε α : Type} {l r : List α} {a b : Nat} (h : (slice l a b : Out ε (List α)) = .ok r) :
    r ⊆ l := by
  obtain ⟨h1, h2, rfl⟩ := slice_eq_ok.1 h
  exact fun x hx => List.mem_of_mem_take (List.mem_of_mem_drop hx)

/-- `t` is shorter than `s` and has no other characters. -/
def Shorter (t s : Str) : Prop := t.length < s.length ∧ t ⊆ s

theorem shorter_slice {ε : Type} {l r : Str} {a b : Nat} (h : (slice l a b : Out ε Str) = .ok r)
    (h' : b - a < l.length) : Shorter r l := by
  refine ⟨?_, slice_subset h⟩
  obtain ⟨h1, h2, rfl⟩ := slice_eq_ok.1 h
  simp
  omega

theorem shorter_arg {ε : Type} {l r p : Str} {a b : Nat} (h : (slice l a b : Out ε Str) = .ok r)
    (h' : b - a < l.length) (hp : p ∈ getArgs r) : Shorter p l := by
  have := shorter_slice h h'
  have h2 := mem_getArgs_length hp
  exact ⟨by have := this.1; omega, fun _ hx => this.2 (mem_getArgs_subset hp hx)⟩

theorem shorter_idx_arg {ε ε' : Type} {l r p : Str} {a b i : Nat} (h : (slice l a b : Out ε Str) = .ok r)
    (h' : b - a < l.length) (hp : (idx (getArgs r) i : Out ε' Str) = .ok p) : Shorter p l :=
  shorter_arg h h' (List.mem_of_getElem? (idx_eq_ok.1 hp))

theorem slice_length {ε α : Type} {l r : List α} {a b : Nat} (h : (slice l a b : Out ε (List α)) = .ok r) :
    r.length = b - a ∧ b ≤ l.length ∧ a ≤ b := by
  obtain ⟨h1, h2, rfl⟩ := slice_eq_ok.1 h
  simp
  omega

/-- What is known about an operator found by the scan. -/
def OpOk (n : Nat) (o : OpAt) : Prop :=
  o.pos < n ∧ o.skipL = 0 ∧ (o.skipR = 1 ∧ o.op ≠ .hiddenMult ∧ o.pos ≠ n - 1 ∨ o.skipR = 0 ∧ 0 < o.pos ∧ o.op = .hiddenMult)

variable [UTable]

theorem isHiddenMult_pos {cs : Str} {i : Nat} {last c : Char} (h0 : i = 0 → last = '\\')
    (h : isHiddenMult cs i last c = true) : 0 < i := by
  rcases Nat.eq_zero_or_pos i with rfl | hi
  · rw [h0 rfl] at h
    have : isHiddenMult cs 0 '\\' c = false := by
      unfold isHiddenMult
      have : Char.isDigit '\\' = false := by decide
      have h2 : ('\\' == ')') = false := by decide
      simp [this, h2]
    rw [this] at h; cases h
  · exact hi

theorem opsLoop_ok (cs rest : Str) (i : Nat) (last : Char) (p b k : Int)
    (hi : i + rest.length = cs.length) (h0 : i = 0 → last = '\\') :
    ∀ o ∈ opsLoop cs rest i last p b k, OpOk cs.length o := by
  induction rest generalizing i last p b k with
  | nil => simp [opsLoop]
  | cons c rest ih =>
    intro o ho
    rw [opsLoop] at ho
    simp only [List.length_cons] at hi
    have ih' : ∀ (p b k : Int), ∀ o ∈ opsLoop cs rest (i + 1) c p b k, OpOk cs.length o :=
      fun p b k => ih (i + 1) c p b k (by omega) (by omega)
    simp only [List.mem_append] at ho
    rcases ho with ho | ho
    · split at ho
      · rename_i hh
        simp at ho
        subst ho
        simp only [Bool.and_eq_true] at hh
        exact ⟨by show i < _; omega, rfl, Or.inr ⟨rfl, isHiddenMult_pos h0 hh.2, rfl⟩⟩
      · simp at ho
    · split at ho
      · exact ih' _ _ _ o ho
      split at ho
      · exact ih' _ _ _ o ho
      split at ho
      · exact ih' _ _ _ o ho
      split at ho
      · exact ih' _ _ _ o ho
      split at ho
      · exact ih' _ _ _ o ho
      split at ho
      · exact ih' _ _ _ o ho
      simp only [List.mem_append] at ho
      rcases ho with ho | ho
      · split at ho
        · rename_i q hq
          split at ho
          · rename_i hc
            have hq' : q ≠ .hiddenMult := by
              intro e; subst e
              unfold getOpSymbol at hq
              repeat' split at hq
              all_goals cases hq
            have hne : i ≠ cs.length - 1 := by
              simp only [Bool.and_eq_true, bne_iff_ne] at hc; exact hc.2
            split at ho
            · simp at ho; subst ho
              exact ⟨by show i < _; omega, rfl, Or.inl ⟨rfl, by simp, hne⟩⟩
            · simp at ho; subst ho
              exact ⟨by show i < _; omega, rfl, Or.inl ⟨rfl, hq', hne⟩⟩
          · simp at ho
        · simp at ho
      · exact ih' _ _ _ o ho

theorem opsInExpr_ok (cs : Str) : ∀ o ∈ opsInExpr cs, OpOk cs.length o :=
  opsLoop_ok cs cs 0 '\\' 0 0 0 (by simp) (fun _ => rfl)

theorem splitOp_mem {cs : Str} {o : OpAt} (h : splitOp cs = some o) : o ∈ opsInExpr cs := by
  unfold splitOp at h
  simp only at h
  obtain ⟨q, hq, h⟩ := List.exists_of_findSome?_eq_some h
  have := List.mem_of_find?_eq_some h
  split at this
  · simpa using this
  · exact this

theorem splitOp_ok {cs : Str} {o : OpAt} (h : splitOp cs = some o) : OpOk cs.length o :=
  opsInExpr_ok cs o (splitOp_mem h)

/-! ## congruence -/

variable {F : Type} [FArith F]

omit [UTable] [FArith F] in
theorem parseAll_congr {r1 r2 : Str → Out ParserError (AST F)} {l : List Str}
    (h : ∀ t ∈ l, r1 t = r2 t) : parseAll r1 l = parseAll r2 l := Out.mapM_congr h

omit [UTable] in
theorem splitEq_shorter {s : Str} (h : s.contains '=' = true) :
    Shorter (splitEq s).1 s ∧ Shorter (splitEq s).2 s := by
  unfold splitEq
  have hd : s = s.takeWhile (· != '=') ++ s.dropWhile (· != '=') := List.takeWhile_append_dropWhile.symm
  have hne : s.dropWhile (· != '=') ≠ [] := by
    intro he
    have : s.all (· != '=') = true := by
      rw [he, List.append_nil] at hd
      rw [hd]
      exact List.all_takeWhile
    simp only [List.contains_eq_mem, decide_eq_true_eq] at h
    simp only [List.all_eq_true] at this
    have := this '=' h
    simp at this
  have hl : s.length = (s.takeWhile (· != '=')).length + (s.dropWhile (· != '=')).length := by
    rw [← List.length_append, ← hd]
  have hp : 0 < (s.dropWhile (· != '=')).length := List.length_pos_iff.2 hne
  refine ⟨⟨by simp only; omega, (List.takeWhile_sublist _).subset⟩, ?_, ?_⟩
  · have h1 : (((s.dropWhile (· != '=')).drop 1).takeWhile (· != '=')).length ≤
        ((s.dropWhile (· != '=')).drop 1).length := (List.takeWhile_sublist _).length_le
    rw [List.length_drop] at h1
    simp only
    omega
  · exact (((List.takeWhile_sublist _).trans (List.drop_sublist _ _)).trans (List.dropWhile_sublist _)).subset

omit [UTable] [FArith F] in
theorem parseEqEntry_congr {r1 r2 : Str → Out ParserError (AST F)} {s : Str}
    (h : ∀ t : Str, Shorter t s → r1 t = r2 t) : parseEqEntry r1 s = parseEqEntry r2 s := by
  unfold parseEqEntry
  split
  · rfl
  · rename_i hc
    have hc' : s.contains '=' = true := by simpa using hc
    have := splitEq_shorter hc'
    simp only
    rw [h _ this.1, h _ this.2]

omit [UTable] in
theorem parseFunction_congr {r1 r2 : Str → Out ParserError (AST F)} {cs : Str} (hcs : cs ≠ [])
    (h : ∀ t : Str, Shorter t cs → r1 t = r2 t) : parseFunction r1 cs = parseFunction r2 cs := by
  have hlen : 0 < cs.length := List.length_pos_iff.2 hcs
  unfold parseFunction
  split
  · rfl
  · congr 1
    split
    · refine Out.bind_congr fun inner hin => ?_
      simp only
      split
      · rfl
      · refine Out.bind_congr fun a0 h0 => ?_
        rw [h a0 (shorter_idx_arg hin (by omega) h0)]
        refine Out.bind_congr fun l _ => ?_
        refine Out.bind_congr fun a1 h1 => ?_
        rw [h a1 (shorter_idx_arg hin (by omega) h1)]
    · refine Out.bind_congr fun inner hin => ?_
      rw [h inner (shorter_slice hin (by omega))]

omit [UTable] [FArith F] in
theorem parseAdvanced_congr {r1 r2 : Str → Out ParserError (AST F)} {cs : Str} (hcs : cs ≠ [])
    (h : ∀ t : Str, Shorter t cs → r1 t = r2 t) : parseAdvanced r1 cs = parseAdvanced r2 cs := by
  have hlen : 0 < cs.length := List.length_pos_iff.2 hcs
  unfold parseAdvanced
  split
  · congr 1
    refine Out.bind_congr fun inner hin => ?_
    simp only
    split
    · rfl
    · refine Out.bind_congr fun a0 h0 => ?_
      rw [h a0 (shorter_idx_arg hin (by omega) h0)]
      refine Out.bind_congr fun l _ => ?_
      refine Out.bind_congr fun a2 h2 => ?_
      rw [h a2 (shorter_idx_arg hin (by omega) h2)]
      refine Out.bind_congr fun l _ => ?_
      refine Out.bind_congr fun a3 h3 => ?_
      rw [h a3 (shorter_idx_arg hin (by omega) h3)]
  · split
    · congr 1
      refine Out.bind_congr fun inner hin => ?_
      simp only
      split
      · rfl
      · refine Out.bind_congr fun a0 h0 => ?_
        rw [h a0 (shorter_idx_arg hin (by omega) h0)]
        refine Out.bind_congr fun l _ => ?_
        refine Out.bind_congr fun a2 h2 => ?_
        rw [h a2 (shorter_idx_arg hin (by omega) h2)]
    · split
      · congr 1
        refine Out.bind_congr fun inner hin => ?_
        have : (getArgs inner).mapM (parseEqEntry r1) = (getArgs inner).mapM (parseEqEntry r2) :=
          Out.mapM_congr fun a ha => parseEqEntry_congr fun t ht => h t (by
            have := shorter_arg hin (by omega) ha
            exact ⟨Nat.lt_trans ht.1 this.1, fun _ hx => this.2 (ht.2 hx)⟩)
        rw [this]
      · rfl

omit [UTable] in
theorem parseValue_congr {cfg : Cfg} {r1 r2 : Str → Out ParserError (AST F)} {cs : Str} (hcs : cs ≠ [])
    (h : ∀ t : Str, Shorter t cs → r1 t = r2 t) : parseValue cfg r1 cs = parseValue cfg r2 cs := by
  have hlen : 0 < cs.length := List.length_pos_iff.2 hcs
  unfold parseValue
  split
  · rfl
  · split
    · refine Out.bind_congr fun c0 _ => ?_
      split
      · rfl
      · refine Out.bind_congr fun cl hcl => ?_
        split
        · rfl
        · refine Out.bind_congr fun inner hin => ?_
          have hl := slice_length hin
          refine Out.bind_congr fun a0 _ => ?_
          split
          · rfl
          · rw [parseAll_congr (r1 := r1) (r2 := r2) fun t ht => h t (shorter_arg hin (by omega) ht)]
    · rfl

theorem parseAtom_congr {cfg : Cfg} {r1 r2 : Str → Out ParserError (AST F)} {cs : Str} (hcs : cs ≠ [])
    (h : ∀ t : Str, Shorter t cs → r1 t = r2 t) : parseAtom cfg r1 cs = parseAtom cfg r2 cs := by
  have hlen : 0 < cs.length := List.length_pos_iff.2 hcs
  unfold parseAtom
  refine Out.bind_congr fun c0 _ => ?_
  refine Out.bind_congr fun cl _ => ?_
  split
  · simp only
    refine Out.bind_congr fun inner hin => ?_
    have hl := slice_length hin
    rw [parseAll_congr (r1 := r1) (r2 := r2) fun t ht => h t (shorter_arg hin (by omega) ht)]
  · split
    · rfl
    · split
      · refine Out.bind_congr fun inner hin => ?_
        have hl := slice_length hin
        rw [parseAll_congr (r1 := r1) (r2 := r2) fun t ht => h t (shorter_arg hin (by omega) ht)]
      · exact parseValue_congr hcs h

theorem parseStep_congr {cfg : Cfg} {r1 r2 : Str → Out ParserError (AST F)} {cs : Str}
    (h : ∀ t : Str, Shorter t cs → r1 t = r2 t) : parseStep cfg r1 cs = parseStep cfg r2 cs := by
  unfold parseStep
  split
  · rfl
  · rename_i hne
    have hcs : cs ≠ [] := by simpa using hne
    have hlen : 0 < cs.length := List.length_pos_iff.2 hcs
    simp only
    split
    · rfl
    split
    · rfl
    refine Out.bind_congr fun c0 _ => ?_
    refine Out.bind_congr fun cl _ => ?_
    split
    · refine Out.bind_congr fun inner hin => ?_
      rw [h inner (shorter_slice hin (by omega))]
    · split
      · rename_i o ho
        have hok := splitOp_ok ho
        refine Out.bind_congr fun leftS hL => ?_
        refine Out.bind_congr fun rightS hR => ?_
        obtain ⟨hp, hs, hr⟩ := hok
        rw [h leftS (shorter_slice hL (by omega)), h rightS (shorter_slice hR (by omega))]
      · rw [parseFunction_congr hcs h]
        split
        · rfl
        · rw [parseAdvanced_congr hcs h]
          split
          · rfl
          · exact parseAtom_congr hcs h

/-- The budget does not matter once it exceeds the length of the string. -/
theorem parseFuel_stable (cfg : Cfg) (n m : Nat) (cs : Str) (hn : cs.length < n) (hm : cs.length < m) :
    (parseFuel cfg n cs : Out ParserError (AST F)) = parseFuel cfg m cs := by
  induction hN : cs.length using Nat.strongRecOn generalizing cs n m with
  | _ N ih =>
    obtain ⟨n, rfl⟩ : ∃ j, n = j + 1 := ⟨n - 1, by omega⟩
    obtain ⟨m, rfl⟩ : ∃ j, m = j + 1 := ⟨m - 1, by omega⟩
    simp only [parseFuel]
    refine parseStep_congr fun t ht => ?_
    have := ht.1
    exact ih t.length (by omega) n m t (by omega) (by omega) rfl

/-- The recursion equation of the parser: no budget any more. -/
theorem parseInner_eq (cfg : Cfg) (cs : Str) :
    (parseInner cfg cs : Out ParserError (AST F)) = parseStep cfg (parseInner cfg) cs := by
  unfold parseInner
  rw [parseFuel]
  exact parseStep_congr fun t ht => parseFuel_stable cfg _ _ t ht.1 (by omega)

/-- Induction principle for the parser: to show `P s (parse_inner s)` for all strings satisfying `A`
(a property of the set of characters), show it for one unfolding, assuming it for all recursive calls;
`dflt` is any outcome that satisfies `P` everywhere. -/
theorem parseInner_ind (cfg : Cfg) (A : Str → Prop) (hA : ∀ s t : Str, A s → t ⊆ s → A t)
    (P : Out ParserError (AST F) → Prop) (dflt : Out ParserError (AST F)) (hd : P dflt)
    (hstep : ∀ rec : Str → Out ParserError (AST F), (∀ t, P (rec t)) → ∀ s, A s → P (parseStep cfg rec s))
    (s : Str) (hs : A s) : P (parseInner cfg s) := by
  induction hN : s.length using Nat.strongRecOn generalizing s with
  | _ N ih =>
    rw [parseInner_eq]
    classical
    rw [parseStep_congr (r2 := fun t => if Shorter t s then parseInner cfg t else dflt)
      (fun t ht => by simp [ht])]
    refine hstep _ (fun t => ?_) s hs
    split
    · rename_i ht
      exact ih t.length (by have := ht.1; omega) t (hA s t hs ht.2) rfl
    · exact hd

end MUL
