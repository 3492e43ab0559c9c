import Verif.Props.Spelling
import Verif.Proofs.AstInd
import Verif.Num.RatText
/-!
# C96: a text is determined by its tree
-/

set_option linter.unusedSectionVars false

namespace MUL
open Out Spec

/-- There is no digit and no `=` in the text. -/
def Spec.NoDigits (s : Str) : Prop := ∀ c ∈ s, c.isDigit = false ∧ c ≠ '='

/-- No name in the tree contains a `)`. -/
def Spec.PlainNames {F : Type} (t : AST F) : Prop := ∀ n, Part.name n ∈ parts t → ')' ∉ n

theorem Spec.NoDigits.infix {s t : Str} (h : NoDigits t) (hs : s <:+: t) : NoDigits s := fun c hc => h c (hs.subset hc)

theorem column_cons {α : Type} (r : List α) (m : List (List α)) {i : Nat} (h : i < r.length) :
    (r :: m).filterMap (fun r => r[i]?) = r[i] :: m.filterMap (fun r => r[i]?) := by
  simp [List.filterMap_cons, h]

theorem columns_inj {α : Type} {n : Nat} (hn : 0 < n) : ∀ (m m' : List (List α)), (∀ r ∈ m, r.length = n) → (∀ r ∈ m', r.length = n) →
    (∀ i, i < n → m.filterMap (fun r => r[i]?) = m'.filterMap (fun r => r[i]?)) → m = m'
  | [], [], _, _, _ => rfl
  | [], r :: m', _, h2, h => by
    have := h 0 hn
    have hr := h2 r (by simp)
    rw [column_cons r _ (by omega)] at this
    simp at this
  | r :: m, [], h1, _, h => by
    have := h 0 hn
    have hr := h1 r (by simp)
    rw [column_cons r _ (by omega)] at this
    simp at this
  | r :: m, r' :: m', h1, h2, h => by
    have hr := h1 r (by simp)
    have hr' := h2 r' (by simp)
    have key : ∀ i (hi : i < n), r[i]'(by omega) = r'[i]'(by omega) ∧ m.filterMap (fun r => r[i]?) = m'.filterMap (fun r => r[i]?) := by
      intro i hi
      have := h i hi
      rw [column_cons r m (by omega), column_cons r' m' (by omega)] at this
      exact List.cons.inj this
    have e1 : r = r' := List.ext_getElem (by omega) fun i h1 h2 => (key i (by omega)).1
    rw [e1, columns_inj hn m m' (fun r hr => h1 r (by simp [hr])) (fun r hr => h2 r (by simp [hr])) fun i hi => (key i hi).2]

theorem transpose_inj {α : Type} {n n' : Nat} {m m' : List (List α)} (hn : 0 < n) (h1 : ∀ r ∈ m, r.length = n) (h2 : ∀ r ∈ m', r.length = n')
    (h : transpose n m = transpose n' m') : m = m' := by
  have hl : n = n' := by
    have := congrArg List.length h
    simpa [transpose] using this
  subst hl
  refine columns_inj hn m m' h1 h2 fun i hi => ?_
  have := congrArg (·[i]?) h
  simpa [transpose, hi] using this

theorem infix_commas {w : Str} {ws : List Str} (h : w ∈ ws) : w <:+: commas ws := by
  unfold commas
  induction ws with
  | nil => cases h
  | cons v ws ih =>
    cases ws with
    | nil => simp at h; subst h; simp [List.intercalate]
    | cons u ws =>
      have e : [','].intercalate (v :: u :: ws) = v ++ ([','] ++ [','].intercalate (u :: ws)) := by
        simp [List.intercalate]
      rw [e]
      rcases List.mem_cons.1 h with rfl | h
      · exact ⟨[], _, rfl⟩
      · exact (ih h).trans ⟨v ++ [','], [], by simp⟩

section
variable {F : Type} [FArith F] {cfg : Cfg}

theorem literal_digit {s : Str} {m : Nat} {e : Int} (h : Literal s m e) : ∃ c ∈ s, c.isDigit = true := by
  cases h with
  | whole ip h1 h2 =>
    obtain ⟨c, r, rfl⟩ := List.exists_cons_of_ne_nil h1
    exact ⟨c, by simp, h2 c (by simp)⟩
  | point ip fp h1 h2 h3 =>
    obtain ⟨c, r, hcr⟩ := List.exists_cons_of_ne_nil h1
    have hc : c ∈ ip ++ fp := by rw [hcr]; simp
    rcases List.mem_append.1 hc with h | h
    · exact ⟨c, by simp [h], h2 c h⟩
    · exact ⟨c, by simp [h], h3 c h⟩
  | exponent ip c ds h1 h2 h3 h4 h5 =>
    obtain ⟨c, r, rfl⟩ := List.exists_cons_of_ne_nil h1
    exact ⟨c, by simp, h4 c (by simp)⟩

theorem scalar_digit {a : F} {s : Str} (h : Spells cfg (.scalar a) s) (hs : NoDigits s) : False := by
  rw [Spells] at h
  obtain ⟨m, e, h, _⟩ := h
  obtain ⟨c, hc, hd⟩ := literal_digit h
  rw [(hs c hc).1] at hd
  cases hd

/-- What is shown of a tree: it has at most one text. -/
def One (cfg : Cfg) (t : AST F) : Prop :=
  PlainNames t → ∀ s s', NoDigits s → NoDigits s' → Spells cfg t s → Spells cfg t s' → s = s'

theorem one_all {v : List (AST F)} (ih : ∀ a ∈ v, One cfg a) (hp : ∀ a ∈ v, PlainNames a) : ∀ {ws ws' : List Str}, (∀ w ∈ ws, NoDigits w) →
    (∀ w ∈ ws', NoDigits w) → List.Forall₂ (Spells cfg) v ws → List.Forall₂ (Spells cfg) v ws' → ws = ws' := by
  induction v with
  | nil => intro ws ws' _ _ h h'; cases h; cases h'; rfl
  | cons a v ih' =>
    intro ws ws' hw hw' h h'
    cases h with
    | cons h1 h2 =>
      cases h' with
      | cons h1' h2' =>
        rw [ih a (by simp) (hp a (by simp)) _ _ (hw _ (by simp)) (hw' _ (by simp)) h1 h1',
          ih' (fun a ha => ih a (by simp [ha])) (fun a ha => hp a (by simp [ha])) (fun w h => hw w (by simp [h])) (fun w h => hw' w (by simp [h])) h2 h2']

theorem one_rows {m : List (List (AST F))} (ih : ∀ r ∈ m, ∀ a ∈ r, One cfg a) (hp : ∀ r ∈ m, ∀ a ∈ r, PlainNames a) :
    ∀ {ws ws' : List (List Str)}, (∀ r ∈ ws, ∀ w ∈ r, NoDigits w) → (∀ r ∈ ws', ∀ w ∈ r, NoDigits w) →
    List.Forall₂ (List.Forall₂ (Spells cfg)) m ws → List.Forall₂ (List.Forall₂ (Spells cfg)) m ws' → ws = ws' := by
  induction m with
  | nil => intro ws ws' _ _ h h'; cases h; cases h'; rfl
  | cons a v ih' =>
    intro ws ws' hw hw' h h'
    cases h with
    | cons h1 h2 =>
      cases h' with
      | cons h1' h2' =>
        rw [one_all (ih a (by simp)) (hp a (by simp)) (hw _ (by simp)) (hw' _ (by simp)) h1 h1',
          ih' (fun a ha => ih a (by simp [ha])) (fun a ha => hp a (by simp [ha])) (fun w h => hw w (by simp [h])) (fun w h => hw' w (by simp [h])) h2 h2']

theorem mem_partsAll {v : List (AST F)} {a : AST F} (h : a ∈ v) : ∀ p ∈ parts a, p ∈ partsAll v := by
  induction v with
  | nil => cases h
  | cons b v ih =>
    intro p hp
    rw [partsAll]
    rcases List.mem_cons.1 h with rfl | h
    · simp [hp]
    · simp [ih h p hp]

theorem mem_partsRows {m : List (List (AST F))} {r : List (AST F)} (h : r ∈ m) : ∀ p ∈ partsAll r, p ∈ partsRows m := by
  induction m with
  | nil => cases h
  | cons b v ih =>
    intro p hp
    rw [partsRows]
    rcases List.mem_cons.1 h with rfl | h
    · simp [hp]
    · simp [ih h p hp]

theorem one_symbol {l r : AST F} (hl : One cfg l) (hr : One cfg r) (pl : PlainNames l) (pr : PlainNames r) (c : Char) {s s' : Str} (hs : NoDigits s)
    (hs' : NoDigits s')
    (h : (∃ u v, s = u ++ c :: v ∧ Spells cfg l u ∧ Spells cfg r v) ∨ (l = noOperand ∧ ∃ v, s = c :: v ∧ Spells cfg r v))
    (h' : (∃ u v, s' = u ++ c :: v ∧ Spells cfg l u ∧ Spells cfg r v) ∨ (l = noOperand ∧ ∃ v, s' = c :: v ∧ Spells cfg r v)) : s = s' := by
  rcases h with ⟨u, v, rfl, h1, h2⟩ | ⟨h0, v, rfl, h2⟩
  · have du : NoDigits u := hs.infix ⟨[], _, rfl⟩
    have dv : NoDigits v := hs.infix ⟨u ++ [c], [], by simp⟩
    rcases h' with ⟨u', v', rfl, h1', h2'⟩ | ⟨h0, v', rfl, h2'⟩
    · rw [hl pl u u' du (hs'.infix ⟨[], _, rfl⟩) h1 h1', hr pr v v' dv (hs'.infix ⟨u' ++ [c], [], by simp⟩) h2 h2']
    · rw [h0] at h1
      exact (scalar_digit h1 du).elim
  · have dv : NoDigits v := hs.infix ⟨[c], [], by simp⟩
    rcases h' with ⟨u', v', rfl, h1', h2'⟩ | ⟨_, v', rfl, h2'⟩
    · rw [h0] at h1'
      exact (scalar_digit h1' (hs'.infix ⟨[], _, rfl⟩)).elim
    · rw [hr pr v v' dv (hs'.infix ⟨[c], [], by simp⟩) h2 h2']

theorem one_tree (t : AST F) : One cfg t := by
  induction t using AST.ind with
  | scalar a => exact fun _ s s' hs _ h => (scalar_digit h hs).elim
  | var n =>
    intro _ s s' _ _ h h'
    rw [Spells] at h h'
    rw [h, h']
  | vector v ih =>
    intro hp s s' hs hs' h h'
    rw [Spells] at h h'
    obtain ⟨ws, _, rfl, h1⟩ := h
    obtain ⟨ws', _, rfl, h1'⟩ := h'
    rw [one_all ih (fun a ha n hn => hp n (by rw [parts]; exact List.mem_cons_of_mem _ (mem_partsAll ha _ hn)))
      (fun w hw => hs.infix ((infix_commas hw).trans ⟨['['], [']'], by simp [bracketed]⟩))
      (fun w hw => hs'.infix ((infix_commas hw).trans ⟨['['], [']'], by simp [bracketed]⟩)) (spellsAll_iff.1 h1) (spellsAll_iff.1 h1')]
  | list v ih =>
    intro hp s s' hs hs' h h'
    rw [Spells] at h h'
    obtain ⟨ws, _, rfl, h1⟩ := h
    obtain ⟨ws', _, rfl, h1'⟩ := h'
    rw [one_all ih (fun a ha n hn => hp n (by rw [parts]; exact List.mem_cons_of_mem _ (mem_partsAll ha _ hn)))
      (fun w hw => hs.infix ((infix_commas hw).trans ⟨['{'], ['}'], by simp⟩))
      (fun w hw => hs'.infix ((infix_commas hw).trans ⟨['{'], ['}'], by simp⟩)) (spellsAll_iff.1 h1) (spellsAll_iff.1 h1')]
  | function f v ih =>
    intro hp s s' hs hs' h h'
    rw [Spells] at h h'
    obtain ⟨ws, _, rfl, h1⟩ := h
    obtain ⟨ws', _, rfl, h1'⟩ := h'
    rw [one_all ih (fun a ha n hn => hp n (by rw [parts]; exact List.mem_cons_of_mem _ (mem_partsAll ha _ hn)))
      (fun w hw => hs.infix ((infix_commas hw).trans ⟨f ++ ['('], [')'], by simp⟩))
      (fun w hw => hs'.infix ((infix_commas hw).trans ⟨f ++ ['('], [')'], by simp⟩)) (spellsAll_iff.1 h1) (spellsAll_iff.1 h1')]
  | matrix m ih =>
    intro hp s s' hs hs' h h'
    rw [Spells] at h h'
    obtain ⟨rows, n, _, hn, rfl, h1, h2⟩ := h
    obtain ⟨rows', n', _, hn', rfl, h1', h2'⟩ := h'
    have hpr : ∀ r ∈ m, ∀ a ∈ r, PlainNames a := fun r hr a ha n hn =>
      hp n (by rw [parts]; exact List.mem_cons_of_mem _ (mem_partsRows hr _ (mem_partsAll ha _ hn)))
    have hd : ∀ rows : List (List Str), NoDigits (bracketed (rows.map bracketed)) → ∀ r ∈ rows, ∀ w ∈ r, NoDigits w := by
      intro rows h r hr w hw
      refine h.infix ((((infix_commas hw).trans ⟨['['], [']'], by simp [bracketed]⟩ : w <:+: bracketed r)).trans
        ((infix_commas (List.mem_map_of_mem hr)).trans ⟨['['], [']'], by simp [bracketed]⟩))
    have hd1 := hd rows hs
    have hd2 := hd rows' hs'
    cases hmaj : cfg.rowMajor with
    | true =>
      simp only [hmaj, if_true] at h2 h2'
      rw [one_rows ih hpr hd1 hd2 (spellsRows_iff.1 h2) (spellsRows_iff.1 h2')]
    | false =>
      simp only [hmaj, Bool.false_eq_true, if_false] at h2 h2'
      have ht : ∀ (n : Nat) (rows : List (List Str)), (∀ r ∈ rows, ∀ w ∈ r, NoDigits w) → ∀ r ∈ transpose n rows, ∀ w ∈ r, NoDigits w := by
        intro n rows h r hr w hw
        obtain ⟨r', hr', hw'⟩ := mem_transpose hr w hw
        exact h r' hr' w hw'
      have := one_rows ih hpr (ht n _ hd1) (ht n' _ hd2) (spellsRows_iff.1 h2) (spellsRows_iff.1 h2')
      rw [transpose_inj hn h1 h1' this]
  | simple op l r hl hr =>
    intro hp s s' hs hs' h h'
    have pl : PlainNames l := fun n hn => hp n (by rw [parts]; simp [hn])
    have pr : PlainNames r := fun n hn => hp n (by rw [parts]; simp [hn])
    rw [Spells] at h h'
    cases op <;> simp [opSymbol, opName] at h h'
    case add | addSub | mult | div | cross | pow | get => exact one_symbol hl hr pl pr _ hs hs' h h'
    case sub => exact one_symbol hl hr pl pr '-' hs hs' (Or.inl h) (Or.inl h')
    case neg =>
      obtain ⟨_, w, rfl, h1⟩ := h
      obtain ⟨_, w', rfl, h1'⟩ := h'
      rw [hr pr w w' (fun c hc => hs c (by simp [hc])) (fun c hc => hs' c (by simp [hc])) h1 h1']
    case hiddenMult | root =>
      obtain ⟨u, v, rfl, h1, h2⟩ := h
      obtain ⟨u', v', rfl, h1', h2'⟩ := h'
      rw [hl pl u u' (fun c hc => hs c (by simp [hc])) (fun c hc => hs' c (by simp [hc])) h1 h1',
        hr pr v v' (fun c hc => hs c (by simp [hc])) (fun c hc => hs' c (by simp [hc])) h2 h2']
    all_goals
      obtain ⟨_, w, rfl, h1⟩ := h
      obtain ⟨_, w', rfl, h1'⟩ := h'
      rw [hl pl w w' (fun c hc => hs c (by simp [hc])) (fun c hc => hs' c (by simp [hc])) h1 h1']
  | integral e x lo hi he hlo hhi =>
    intro hp s s' hs hs' h h'
    have pe : PlainNames e := fun n hn => hp n (by rw [parts]; simp [hn])
    have plo : PlainNames lo := fun n hn => hp n (by rw [parts]; simp [hn])
    have phi : PlainNames hi := fun n hn => hp n (by rw [parts]; simp [hn])
    have hx : ')' ∉ x := hp x (by rw [parts]; simp)
    rw [Spells] at h h'
    obtain ⟨u, v, w, c, rfl, h1, h2, h3, h4⟩ := h
    obtain ⟨u', v', w', c', rfl, h1', h2', h3', h4'⟩ := h'
    have hi1 : ∀ u v w : Str, ∀ c : Char, u <:+: "I(".toList ++ u ++ ',' :: x ++ ',' :: v ++ ',' :: w ++ [c] := fun u v w c =>
      ⟨"I(".toList, ',' :: x ++ ',' :: v ++ ',' :: w ++ [c], by simp⟩
    have hi2 : ∀ u v w : Str, ∀ c : Char, v <:+: "I(".toList ++ u ++ ',' :: x ++ ',' :: v ++ ',' :: w ++ [c] := fun u v w c =>
      ⟨"I(".toList ++ u ++ ',' :: x ++ [','], ',' :: w ++ [c], by simp⟩
    have hi3 : ∀ u v w : Str, ∀ c : Char, w <:+: "I(".toList ++ u ++ ',' :: x ++ ',' :: v ++ ',' :: w ++ [c] := fun u v w c =>
      ⟨"I(".toList ++ u ++ ',' :: x ++ ',' :: v ++ [','], [c], by simp⟩
    rw [he pe u u' (hs.infix (hi1 _ _ _ _)) (hs'.infix (hi1 _ _ _ _)) h2 h2', hlo plo v v' (hs.infix (hi2 _ _ _ _)) (hs'.infix (hi2 _ _ _ _)) h3 h3',
      hhi phi w w' (hs.infix (hi3 _ _ _ _)) (hs'.infix (hi3 _ _ _ _)) h4 h4', h1.resolve_right hx, h1'.resolve_right hx]
  | derivative e x a he ha =>
    intro hp s s' hs hs' h h'
    have pe : PlainNames e := fun n hn => hp n (by rw [parts]; simp [hn])
    have pa : PlainNames a := fun n hn => hp n (by rw [parts]; simp [hn])
    have hx : ')' ∉ x := hp x (by rw [parts]; simp)
    rw [Spells] at h h'
    obtain ⟨u, v, c, rfl, h1, h2, h3⟩ := h
    obtain ⟨u', v', c', rfl, h1', h2', h3'⟩ := h'
    have hi1 : ∀ u v : Str, ∀ c : Char, u <:+: "D(".toList ++ u ++ ',' :: x ++ ',' :: v ++ [c] := fun u v c =>
      ⟨"D(".toList, ',' :: x ++ ',' :: v ++ [c], by simp⟩
    have hi2 : ∀ u v : Str, ∀ c : Char, v <:+: "D(".toList ++ u ++ ',' :: x ++ ',' :: v ++ [c] := fun u v c =>
      ⟨"D(".toList ++ u ++ ',' :: x ++ [','], [c], by simp⟩
    rw [he pe u u' (hs.infix (hi1 _ _ _)) (hs'.infix (hi1 _ _ _)) h2 h2', ha pa v v' (hs.infix (hi2 _ _ _)) (hs'.infix (hi2 _ _ _)) h3 h3',
      h1.resolve_right hx, h1'.resolve_right hx]
  | equation es xs _ =>
    intro hp s s' hs hs' h h'
    have hx : ∀ x ∈ xs, ')' ∉ x := fun x hx => hp x (by rw [parts]; simp [hx])
    have key : ∀ s, NoDigits s → Spells cfg (.equation es xs) s → s = "eq(".toList ++ commas xs ++ [')'] := by
      intro s hs h
      rw [Spells] at h
      obtain ⟨ws, uvs, c, rfl, h1, h2, _, _⟩ := h
      have hne : ∀ w ∈ ws, '=' ∉ w := by
        intro w hw hm
        exact (hs '=' (by simp [(infix_commas hw).subset hm])).2 rfl
      have e : xs = ws := by
        rw [h2, List.filter_eq_self]
        intro w hw
        simpa using hne w hw
      subst e
      rcases h1 with rfl | ⟨w, hw, hc, _⟩
      · rfl
      · exact absurd hc (hx w hw)
    rw [key s hs h, key s' hs' h']

variable [UTable]

/-- **C96.** Two texts without digits and `=` that are read as the same tree (whose names contain no `)`) are the same but for blanks. -/
theorem C96_injective (cfg : Cfg) (text text' : Str) (ha : Ascii (stripBlanks text)) (ha' : Ascii (stripBlanks text'))
    (hd : ∀ c ∈ text, c.isDigit = false ∧ c ≠ '=') (hd' : ∀ c ∈ text', c.isDigit = false ∧ c ≠ '=') (t : AST F)
    (hp : PlainNames t) (h : parse cfg text = .ok t) (h' : parse cfg text' = .ok t) : stripBlanks text = stripBlanks text' :=
  one_tree t hp _ _ (fun c hc => hd c (mem_stripBlanks hc)) (fun c hc => hd' c (mem_stripBlanks hc))
    (C96_nothing_dropped cfg text ha t h) (C96_nothing_dropped cfg text' ha' t h')

end

section
variable {F : Type} [FNum F]
attribute [local instance] UTable.ascii

/-- **C96.** Why the names must not contain a `)`: where a variable is called `y)[`, the last character of the text is not looked at. -/
theorem C96_last_character (cfg : Cfg) : ∃ t : AST F, parse cfg "D(x,y)[,z+".toList = .ok t ∧ parse cfg "D(x,y)[,z*".toList = .ok t :=
  ⟨.derivative (.variable ['x']) "y)[".toList (.variable ['z']), rfl, rfl⟩

/-- **C96.** What follows a second `=` in an equation is dropped, even if it is no expression. -/
theorem C96_second_equals (cfg : Cfg) : ∃ t : AST F, parse cfg "eq(x=y,x)".toList = .ok t ∧ parse cfg "eq(x=y=+*,x)".toList = .ok t :=
  ⟨.equation [(.variable ['x'], .variable ['y'])] [['x']], rfl, rfl⟩

/-- `f(a,sin(b))+[x,-y]` and the same with blanks: the hypotheses of `C96_injective`. -/
example (cfg : Cfg) : ∃ t : AST F, parse cfg "f(a,sin(b))+[x,-y]".toList = .ok t ∧ parse cfg " f( a, sin(b) ) + [x, -y]".toList = .ok t ∧
    PlainNames t ∧ Ascii "f(a,sin(b))+[x,-y]".toList ∧ NoDigits "f(a,sin(b))+[x,-y]".toList := by
  refine ⟨.simple .add (.function ['f'] [.variable ['a'], .simple .sin (.variable ['b']) (.scalar (FArith.ofInt 0))])
    (.vector [.variable ['x'], .simple .neg (.scalar (FArith.ofInt 0)) (.variable ['y'])]), rfl, rfl, ?_, ?_, ?_⟩
  · intro n hn
    simp [parts, partsAll] at hn
    rcases hn with rfl | rfl | rfl | rfl | rfl <;> decide
  · unfold Ascii; decide
  · unfold NoDigits; decide

/-- `2*x` and `002*x` are the same tree: numbers can be written in several ways. -/
example (cfg : Cfg) : ∃ t : AST Q, parse cfg "2*x".toList = .ok t ∧ parse cfg "002*x".toList = .ok t :=
  ⟨.simple .mult (.scalar (FArith.ofDec 2 0)) (.variable ['x']), rfl, rfl⟩

end
end MUL
