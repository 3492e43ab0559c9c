import Verif.Spec.Tex
import Verif.Num.Text
import Verif.Proofs.AstInd
import Verif.Proofs.Reread
import Verif.Props.Latex
/-!
# The LaTeX reader reads what the printer writes
-/

namespace MUL
open Spec Spec.Tex

/-! ## Cutting into symbols -/

theorem symbolAt_text (y : Sym) (rest : Str) : symbolAt (y.text ++ rest) = some y := by
  cases y <;> rfl

theorem lexSkip_append (a rest : Str) : lexSkip a.length (a ++ rest) = lex rest := by
  induction a with
  | nil => rfl
  | cons c a ih => simpa [lexSkip] using ih

theorem lex_sym (y : Sym) (rest : Str) : lex (y.text ++ rest) = .sym y :: lex rest := by
  have h := symbolAt_text y rest
  obtain ⟨c, a, ha⟩ : ∃ c a, y.text = c :: a := by cases y <;> exact ⟨_, _, rfl⟩
  rw [ha] at h ⊢
  rw [List.cons_append] at h ⊢
  unfold lex
  rw [lexSkip, h]
  simp only [ha, List.length_cons, Nat.add_sub_cancel]
  rw [lexSkip_append]
  rfl

/-- Characters that begin no symbol. -/
def PlainChar (c : Char) : Prop := c.isAlphanum = true ∨ c ∈ ['-', '.', '+', '|']

theorem alnum_lower {c : Char} (h : c.isAlphanum = true) : c ∉ ['\\', '}', '{', '^', '_', ']', ' ', '\n', ',', ';', '&'] := by
  intro hm
  simp only [List.mem_cons, List.not_mem_nil, or_false] at hm
  rcases hm with rfl | rfl | rfl | rfl | rfl | rfl | rfl | rfl | rfl | rfl | rfl <;> exact absurd h (by decide)

theorem symbols_head (y : Sym) : ∃ c a, y.text = c :: a ∧
    c ∈ ['\\', '}', '{', '^', '_', ']', ' ', '\n', ',', ';', '&'] := by
  cases y <;> exact ⟨_, _, rfl, by decide⟩

theorem symbolAt_plain {c : Char} (h : c ∉ ['\\', '}', '{', '^', '_', ']', ' ', '\n', ',', ';', '&']) (s : Str) :
    symbolAt (c :: s) = none := by
  unfold symbolAt
  rw [List.find?_eq_none]
  intro y _
  obtain ⟨d, a, hy, hd⟩ := symbols_head y
  rw [hy]
  have : d ≠ c := by rintro rfl; exact h hd
  simp [List.isPrefixOf, this]

theorem plain_not_head {c : Char} (h : PlainChar c) : c ∉ ['\\', '}', '{', '^', '_', ']', ' ', '\n', ',', ';', '&'] := by
  rcases h with h | h
  · exact alnum_lower h
  · simp only [List.mem_cons, List.not_mem_nil, or_false] at h
    rcases h with rfl | rfl | rfl | rfl <;> decide

theorem lex_plain {c : Char} (h : PlainChar c) (s : Str) : lex (c :: s) = .chr c :: lex s := by
  unfold lex
  rw [lexSkip, symbolAt_plain (plain_not_head h)]

theorem symbolAt_underscore {c : Char} (h : c ≠ '{') (s : Str) : symbolAt ('_' :: c :: s) = none := by
  unfold symbolAt
  rw [List.find?_eq_none]
  intro y _
  have h' : ('{' == c) = false := by simpa using fun e => h e.symm
  cases y <;> simp [Sym.text, List.isPrefixOf, h']

theorem lex_name {n : Str} (h : ClearName n) (s : Str) : lex (n ++ s) = n.map .chr ++ lex s := by
  obtain ⟨-, hc, hl⟩ := h
  induction n with
  | nil => rfl
  | cons c n ih =>
    have ih' := ih (fun d hd => hc d (by simp [hd]))
    have hlex : lex (c :: (n ++ s)) = .chr c :: lex (n ++ s) := by
      by_cases hu : c = '_'
      · subst hu
        cases n with
        | nil => exact absurd rfl hl
        | cons d n =>
          have hd := hc d (by simp)
          have : d ≠ '{' := by rintro rfl; exact absurd hd (by decide)
          unfold lex
          rw [List.cons_append, lexSkip, symbolAt_underscore this]
      · refine lex_plain (Or.inl ?_) _
        have := hc c (by simp)
        simpa [nameChar, hu] using this
    rw [List.cons_append, hlex, List.map_cons, List.cons_append]
    cases n with
    | nil => rfl
    | cons d n => rw [ih' (by simpa using hl)]

/-! ## Running -/

/-- No integration variable is being read, and no integral waits for its upper bound. -/
def Still : List Opened → Prop
  | .integName .. :: _ => False
  | .betweenBounds .. :: _ => False
  | _ => True

theorem Still.eq {st : List Opened} (h : Still st) (out : Str) : settle (st, out) = (st, out) := by
  rcases st with _ | ⟨g, st⟩
  · rfl
  · cases g <;> first | rfl | exact h.elim

theorem Still.sup {st : List Opened} (h : Still st) (out : Str) :
    stepSym .sup (st, out) = some (.braces [')'] :: st, out ++ ['^', '(']) := by
  rcases st with _ | ⟨g, st⟩
  · rfl
  · cases g <;> first | rfl | exact h.elim

/-- Reading `a` appends `w`, whatever follows. If `i`, the reader may still be inside the name of an integration
variable at the end. -/
def Shows (a w : Str) (i : Bool) : Prop :=
  ∀ rest s st out, Still st → settle s = (st, out) → (s = (st, out) ∨ Detached a) →
    ∃ s', run (lex (a ++ rest)) s = run (lex rest) s' ∧ settle s' = (st, out ++ w) ∧ (i = false → s' = (st, out ++ w))

theorem Detached.append {a b : Str} : Detached a → Detached (a ++ b) := by
  rintro ⟨c, h, hc⟩
  cases a with
  | nil => cases h
  | cons x a => exact ⟨c, h, hc⟩

theorem Detached.of_append {a b : Str} (ha : a ≠ []) : Detached (a ++ b) → Detached a := by
  rintro ⟨c, h, hc⟩
  cases a with
  | nil => exact absurd rfl ha
  | cons x a => exact ⟨c, h, hc⟩

theorem Shows.nil : Shows [] [] false := by
  intro rest s st out _ hs hor
  rcases hor with rfl | ⟨c, h, -⟩
  · exact ⟨_, rfl, by rw [List.append_nil]; exact hs, fun _ => by rw [List.append_nil]⟩
  · cases h

theorem Shows.seq {a b w v : Str} {i j : Bool} (ha : a ≠ []) (h1 : Shows a w i) (h2 : Shows b v j)
    (hd : i = true → Detached b) : Shows (a ++ b) (w ++ v) j := by
  intro rest s st out hst hs hor
  obtain ⟨s', h3, h4, h5⟩ := h1 (b ++ rest) s st out hst hs (hor.imp id (Detached.of_append ha))
  obtain ⟨s'', h6, h7, h8⟩ := h2 rest s' st (out ++ w) hst h4 (by
    cases i with
    | false => exact Or.inl (h5 rfl)
    | true => exact Or.inr (hd rfl))
  refine ⟨s'', ?_, ?_, ?_⟩
  · rw [List.append_assoc, h3, h6]
  · rw [h7, List.append_assoc]
  · intro hj; rw [h8 hj, List.append_assoc]

theorem sym_ne (y : Sym) : y.text ≠ [] := by cases y <;> simp [Sym.text]

theorem sym_detached (y : Sym) (hy : y ≠ .sub) (b : Str) : Detached (y.text ++ b) := by
  cases y <;> first | exact absurd rfl hy | exact ⟨_, rfl, by decide⟩

/-- One symbol in front. -/
theorem run_sym (y : Sym) (rest : Str) (s : State) :
    run (lex (y.text ++ rest)) s = (stepSym y (settle s)).bind (run (lex rest)) := by
  rw [lex_sym]; rfl

/-- Symbols that stand for themselves. -/
theorem Shows.sym (y : Sym) (w : Str) (h : ∀ st out, stepSym y (st, out) = some (st, out ++ w)) : Shows y.text w false := by
  intro rest s st out hst hs _
  refine ⟨(st, out ++ w), ?_, hst.eq _, fun _ => rfl⟩
  rw [run_sym, hs, h]
  rfl

/-- Characters that belong to no symbol. -/
theorem Shows.chars (a : Str) (h : ∀ c ∈ a, PlainChar c) : Shows a a false := by
  intro rest s st out hst hs hor
  have key : ∀ (a : Str), (∀ c ∈ a, PlainChar c) → ∀ out, run (lex (a ++ rest)) (st, out) = run (lex rest) (st, out ++ a) := by
    intro a
    induction a with
    | nil => intro _ out; simp
    | cons c a ih =>
      intro h out
      rw [List.cons_append, lex_plain (h c (by simp)), run]
      have : step (.chr c) (st, out) = some (st, out ++ [c]) := by
        unfold step
        simp only [hst.eq out]
        split <;> rfl
      rw [this, Option.bind_some, ih (fun d hd => h d (by simp [hd]))]
      simp
  refine ⟨(st, out ++ a), ?_, hst.eq _, fun _ => rfl⟩
  rcases hor with rfl | ⟨c, hc, hn⟩
  · exact key a h out
  · cases a with
    | nil => cases hc
    | cons d a =>
      cases hc
      rw [List.cons_append, lex_plain (h c (by simp)), run]
      have : step (.chr c) s = some (st, out ++ [c]) := by
        unfold step
        simp only [hn, hs]
        rfl
      rw [this, Option.bind_some, key a (fun d hd => h d (by simp [hd]))]
      simp

theorem run_name {n : Str} (h : ClearName n) (rest : Str) (st : List Opened) (out : Str) :
    run (lex (n ++ rest)) (st, out) = run (lex rest) (st, out ++ n) := by
  rw [lex_name h]
  have hc := h.2.1
  clear h
  induction n generalizing out with
  | nil => simp
  | cons c n ih =>
    rw [List.map_cons, List.cons_append, run]
    have : step (.chr c) (st, out) = some (st, out ++ [c]) := by
      unfold step
      simp only [hc c (by simp), if_true]
    rw [this, Option.bind_some, ih _ (fun d hd => hc d (by simp [hd]))]
    simp

theorem Shows.name {n : Str} (h : ClearName n) : Shows n n false := by
  intro rest s st out hst hs hor
  rcases hor with rfl | ⟨c, hc, hn⟩
  · exact ⟨_, run_name h rest st out, hst.eq _, fun _ => rfl⟩
  · cases n with
    | nil => cases hc
    | cons d n =>
      cases hc
      exact absurd (h.2.1 c (by simp)) (by simp [hn])

/-! ## The pieces of a formula -/

/-- A bracket pair around a piece. -/
theorem Shows.wrap {l r : Sym} {wl wr : Str} (hl : ∀ st out, stepSym l (st, out) = some (st, out ++ wl))
    (hr : ∀ st out, stepSym r (st, out) = some (st, out ++ wr)) (hr' : r ≠ .sub) {a w : Str} {i : Bool} (h : Shows a w i) :
    Shows (l.text ++ a ++ r.text) (wl ++ w ++ wr) false := by
  by_cases ha : a = []
  · subst ha
    intro rest s st out hst hs hor
    obtain ⟨s1, h1, h2, h3⟩ := h rest (st, out ++ wl) st (out ++ wl) hst (hst.eq _) (Or.inl rfl)
    refine ⟨(st, out ++ (wl ++ w ++ wr)), ?_, hst.eq _, fun _ => rfl⟩
    simp only [List.append_nil, List.append_assoc, List.nil_append] at h1 h2 ⊢
    rw [run_sym, hs, hl, Option.bind_some]
    obtain ⟨s2, h4, h5, h6⟩ := h (r.text ++ rest) (st, out ++ wl) st (out ++ wl) hst (hst.eq _) (Or.inl rfl)
    simp only [List.nil_append] at h4
    rw [h4, run_sym, h5, hr, Option.bind_some]
    simp
  · have h1 := (Shows.sym l wl hl).seq (sym_ne l) h (by simp)
    exact h1.seq (by simp [sym_ne]) (Shows.sym r wr hr) fun _ => by simpa using sym_detached r hr' []

/-- Pieces with a separator. -/
theorem Shows.join {y : Sym} {w : Str} (hy : ∀ st out, stepSym y (st, out) = some (st, out ++ w)) (hy' : y ≠ .sub)
    {ps : List (Str × Str)} (h : ∀ p ∈ ps, p.1 ≠ [] ∧ ∃ i, Shows p.1 p.2 i) :
    ∃ i, Shows (MUL.join y.text (ps.map Prod.fst)) (MUL.join w (ps.map Prod.snd)) i := by
  induction ps with
  | nil => exact ⟨false, Shows.nil⟩
  | cons p ps ih =>
    obtain ⟨hne, i, hi⟩ := h p (by simp)
    obtain ⟨j, hj⟩ := ih fun q hq => h q (by simp [hq])
    cases ps with
    | nil => exact ⟨i, by simpa [MUL.join] using hi⟩
    | cons q ps =>
      refine ⟨j, ?_⟩
      unfold MUL.join at hj ⊢
      rw [List.map_cons, List.map_cons, List.map_cons, List.map_cons, List.intercalate_cons_cons, List.intercalate_cons_cons]
      have h1 := hi.seq hne (Shows.sym y w hy) (fun _ => by simpa using sym_detached y hy' [])
      exact h1.seq (by simp [hne]) (by simpa using hj) (by simp)

/-- A group opened with `y` and closed with a brace. -/
theorem Shows.group {y : Sym} {w last : Str} (hy : ∀ st out, Still st → stepSym y (st, out) = some (.braces last :: st, out ++ w))
    {a v : Str} {i : Bool} (h : Shows a v i) : Shows (y.text ++ a ++ Sym.close.text) (w ++ v ++ last) false := by
  intro rest s st out hst hs _
  refine ⟨(st, out ++ (w ++ v ++ last)), ?_, hst.eq _, fun _ => rfl⟩
  rw [List.append_assoc, List.append_assoc, run_sym, hs, hy _ _ hst, Option.bind_some]
  obtain ⟨s', h1, h2, -⟩ := h (Sym.close.text ++ rest) (.braces last :: st, out ++ w) (.braces last :: st) (out ++ w)
    trivial rfl (Or.inl rfl)
  rw [h1, run_sym, h2]
  simp [stepSym]

/-- Something in front of a group. -/
theorem Shows.post {y : Sym} {w last : Str} (hy : ∀ st out, Still st → stepSym y (st, out) = some (.braces last :: st, out ++ w))
    {a b v u : Str} {i j : Bool} (ha : a ≠ []) (h1 : Shows a u i) (h2 : Shows b v j) :
    Shows (a ++ (y.text ++ b ++ Sym.close.text)) (u ++ (w ++ v ++ last)) false := by
  intro rest s st out hst hs hor
  obtain ⟨s', h3, h4, -⟩ := h1 ((y.text ++ b ++ Sym.close.text) ++ rest) s st out hst hs (hor.imp id (Detached.of_append ha))
  refine ⟨(st, out ++ (u ++ (w ++ v ++ last))), ?_, hst.eq _, fun _ => rfl⟩
  rw [List.append_assoc, h3]
  rw [List.append_assoc, List.append_assoc, run_sym, h4, hy _ _ hst, Option.bind_some]
  obtain ⟨s', h5, h6, -⟩ := h2 (Sym.close.text ++ rest) (.braces last :: st, out ++ u ++ w) (.braces last :: st) (out ++ u ++ w)
    trivial rfl (Or.inl rfl)
  rw [h5, run_sym, h6]
  simp [stepSym]

theorem Shows.frac {a b u v : Str} {i j : Bool} (h1 : Shows a u i) (h2 : Shows b v j) :
    Shows (Sym.frac.text ++ a ++ Sym.close.text ++ Sym.open_.text ++ b ++ Sym.close.text) (u ++ ['/'] ++ v) false := by
  intro rest s st out hst hs _
  refine ⟨(st, out ++ (u ++ ['/'] ++ v)), ?_, hst.eq _, fun _ => rfl⟩
  simp only [List.append_assoc]
  rw [run_sym, hs]
  simp only [stepSym, Option.bind_some]
  obtain ⟨s', h3, h4, -⟩ := h1 (Sym.close.text ++ (Sym.open_.text ++ (b ++ (Sym.close.text ++ rest)))) (.upper out :: st, [])
    (.upper out :: st) [] trivial rfl (Or.inl rfl)
  rw [h3, run_sym, h4]
  simp only [stepSym, Option.bind_some]
  rw [run_sym]
  simp only [settle, stepSym, Option.bind_some]
  obtain ⟨s', h5, h6, -⟩ := h2 (Sym.close.text ++ rest) (.braces [] :: st, out ++ ([] ++ u) ++ ['/'])
    (.braces [] :: st) (out ++ ([] ++ u) ++ ['/']) trivial rfl (Or.inl rfl)
  rw [h5, run_sym, h6]
  simp [stepSym]

theorem Shows.root {a b u v : Str} {i j : Bool} (h1 : Shows a u i) (h2 : Shows b v j) :
    Shows (Sym.rootOpen.text ++ b ++ Sym.rootMid.text ++ a ++ Sym.close.text) (str! "root(" ++ u ++ [','] ++ v ++ [')']) false := by
  intro rest s st out hst hs _
  refine ⟨(st, out ++ (str! "root(" ++ u ++ [','] ++ v ++ [')'])), ?_, hst.eq _, fun _ => rfl⟩
  simp only [List.append_assoc]
  rw [run_sym, hs]
  simp only [stepSym, Option.bind_some]
  obtain ⟨s', h3, h4, -⟩ := h2 (Sym.rootMid.text ++ (a ++ (Sym.close.text ++ rest))) (.rootIndex out :: st, [])
    (.rootIndex out :: st) [] trivial rfl (Or.inl rfl)
  rw [h3, run_sym, h4]
  simp only [stepSym, Option.bind_some]
  obtain ⟨s', h5, h6, -⟩ := h1 (Sym.close.text ++ rest) (.rootBody out ([] ++ v) :: st, [])
    (.rootBody out ([] ++ v) :: st) [] trivial rfl (Or.inl rfl)
  rw [h5, run_sym, h6]
  simp [stepSym]

theorem Shows.integral {e x lo hi we wlo whi : Str} {i j k : Bool} (h1 : Shows e we i) (hx : ClearName x)
    (h2 : Shows lo wlo j) (h3 : Shows hi whi k) :
    Shows (Sym.int.text ++ lo ++ Sym.close.text ++ Sym.sup.text ++ hi ++ Sym.close.text ++ e ++ Sym.diff.text ++ x)
      (str! "I(" ++ we ++ [','] ++ x ++ [','] ++ wlo ++ [','] ++ whi ++ [')']) true := by
  intro rest s st out hst hs _
  refine ⟨(.integName out wlo whi we :: st, x), ?_, ?_, by simp⟩
  · simp only [List.append_assoc]
    rw [run_sym, hs]
    simp only [stepSym, Option.bind_some]
    obtain ⟨s', a1, a2, -⟩ := h2 (Sym.close.text ++ (Sym.sup.text ++ (hi ++ (Sym.close.text ++ (e ++ (Sym.diff.text ++ (x ++ rest)))))))
      (.lowerBound out :: st, []) (.lowerBound out :: st) [] trivial rfl (Or.inl rfl)
    rw [a1, run_sym, a2]
    simp only [stepSym, Option.bind_some]
    rw [run_sym]
    simp only [settle, stepSym, Option.bind_some]
    obtain ⟨s', b1, b2, -⟩ := h3 (Sym.close.text ++ (e ++ (Sym.diff.text ++ (x ++ rest))))
      (.upperBound out ([] ++ wlo) :: st, []) (.upperBound out ([] ++ wlo) :: st) [] trivial rfl (Or.inl rfl)
    rw [b1, run_sym, b2]
    simp only [stepSym, Option.bind_some]
    obtain ⟨s', c1, c2, -⟩ := h1 (Sym.diff.text ++ (x ++ rest))
      (.integrand out ([] ++ wlo) ([] ++ whi) :: st, []) (.integrand out ([] ++ wlo) ([] ++ whi) :: st) [] trivial rfl (Or.inl rfl)
    rw [c1, run_sym, c2]
    simp only [stepSym, Option.bind_some]
    rw [run_name hx]
    simp
  · simp [settle]

theorem Shows.derivative {e x a we wa : Str} {i j : Bool} (h1 : Shows e we i) (hx : ClearName x) (h2 : Shows a wa j) :
    Shows (Sym.frac.text ++ Sym.partial_.text ++ x ++ Sym.close.text ++ Sym.lparen.text ++ e ++ Sym.rparen.text ++
        Sym.sub.text ++ Sym.atText.text ++ x ++ Sym.spacedEq.text ++ a ++ Sym.close.text)
      (str! "D(" ++ we ++ [','] ++ x ++ [','] ++ wa ++ [')']) false := by
  intro rest s st out hst hs _
  refine ⟨(st, out ++ (str! "D(" ++ we ++ [','] ++ x ++ [','] ++ wa ++ [')'])), ?_, hst.eq _, fun _ => rfl⟩
  simp only [List.append_assoc]
  rw [run_sym, hs]
  simp only [stepSym, Option.bind_some]
  rw [run_sym]
  simp only [settle, stepSym, Option.bind_some]
  rw [run_name hx, run_sym]
  simp only [settle, stepSym, Option.bind_some, List.nil_append]
  rw [run_sym]
  simp only [settle, stepSym, Option.bind_some, List.nil_append, Sym.plain, Option.map_some]
  obtain ⟨s', c1, c2, -⟩ := h1 (Sym.rparen.text ++ (Sym.sub.text ++ (Sym.atText.text ++ (x ++ (Sym.spacedEq.text ++ (a ++ (Sym.close.text ++ rest)))))))
    (.derivBody out x :: st, ['(']) (.derivBody out x :: st) ['('] trivial rfl (Or.inl rfl)
  rw [c1, run_sym, c2]
  simp only [stepSym, Option.bind_some, Sym.plain, Option.map_some]
  rw [run_sym]
  simp only [settle, stepSym, Option.bind_some]
  rw [run_sym]
  simp only [settle, stepSym, Option.bind_some]
  rw [run_name hx, run_sym]
  simp only [settle, stepSym, Option.bind_some, List.nil_append, Sym.plain, Option.map_some]
  have hd : (List.drop 1 (['('] ++ we ++ [')'] ++ ['_'])).dropLast.dropLast = we := by
    have : List.drop 1 (['('] ++ we ++ [')'] ++ ['_']) = (we ++ [')']) ++ ['_'] := by simp
    rw [this, List.dropLast_concat, List.dropLast_concat]
  rw [hd]
  obtain ⟨s', d1, d2, -⟩ := h2 (Sym.close.text ++ rest)
    (.derivPlace out x we :: st, x ++ ['=']) (.derivPlace out x we :: st) (x ++ ['=']) trivial rfl (Or.inl rfl)
  rw [d1, run_sym, d2]
  simp only [stepSym, Option.bind_some]
  have : List.drop (x.length + 1) (x ++ ['='] ++ wa) = wa := by
    rw [List.drop_append_of_le_length (by simp), List.drop_of_length_le (by simp)]; rfl
  rw [this]
  simp

theorem Shows.cast {a a' w w' : Str} {i i' : Bool} (h : Shows a w i) (h1 : a' = a) (h2 : w' = w) (h3 : i' = i) :
    Shows a' w' i' := by subst h1 h2 h3; exact h

theorem Shows.weaken {a w : Str} (h : Shows a w false) (i : Bool) : Shows a w i := by
  intro rest s st out hst hs hor
  obtain ⟨s', h1, h2, h3⟩ := h rest s st out hst hs hor
  exact ⟨s', h1, h2, fun _ => h3 rfl⟩

/-- Symbols with a plain meaning. -/
theorem plain_step {y : Sym} {w : Str} (h : y.plain = some w) (hm : y ≠ .matClose) (st : List Opened) (out : Str) :
    stepSym y (st, out) = some (st, out ++ w) := by
  cases y <;> first
    | (cases h; rfl)
    | (simp [Sym.plain] at h; done)

section
variable {F : Type} [FNum F]

theorem asStringAll_map (cfg : Cfg) (l : List (AST F)) : AST.asStringAll cfg l = l.map fun a => a.asString cfg := by
  induction l with
  | nil => rfl
  | cons a l ih => rw [AST.asStringAll, ih, List.map_cons]

theorem asStringRows_map (cfg : Cfg) (m : List (List (AST F))) : AST.asStringRows cfg m =
    m.map fun r => ['['] ++ join (str! ", ") (r.map fun a => a.asString cfg) ++ [']'] := by
  induction m with
  | nil => rfl
  | cons a l ih => rw [AST.asStringRows, ih, List.map_cons, asStringAll_map]

theorem asStringEqs_map (cfg : Cfg) (l : List (AST F × AST F)) : AST.asStringEqs cfg l =
    l.map fun e => e.1.asString cfg ++ ['='] ++ e.2.asString cfg := by
  induction l with
  | nil => rfl
  | cons a l ih => obtain ⟨x, y⟩ := a; rw [AST.asStringEqs, ih, List.map_cons]

theorem unblank_join_map {α : Type} (sep : Str) (f : α → Str) (l : List α) :
    unblank (join sep (l.map f)) = join (unblank sep) (l.map fun a => unblank (f a)) := by
  unfold join
  induction l with
  | nil => rfl
  | cons a l ih =>
    cases l with
    | nil => simp
    | cons b l =>
      simp only [List.map_cons, List.intercalate_cons_cons, unblank_append] at ih ⊢
      rw [ih]

variable [TextLaws F]

theorem clear_number (cfg : Cfg) (x : F) (h : FArith.beq (Value.roundScalar x ((cfg.prec : Int) - 2)) (FArith.ofInt 0) = true →
    FArith.beq x (FArith.ofInt 0) = true) :
    roundAndFormat cfg x true = roundAndFormat cfg x false ∧ roundAndFormat cfg x true ≠ [] ∧
      ∀ c ∈ roundAndFormat cfg x true, c.isAlphanum = true ∨ c = '-' ∨ c = '.' := by
  have hch := TextLaws.display_chars (Value.roundScalar x ((cfg.prec : Int) - 2))
  have hne := TextLaws.display_ne (Value.roundScalar x ((cfg.prec : Int) - 2))
  unfold roundAndFormat
  by_cases hb : FArith.beq (Value.roundScalar x ((cfg.prec : Int) - 2)) (FArith.ofInt 0) = true
  · simp only [hb, h hb, Bool.not_true, Bool.and_false, Bool.false_eq_true, if_false, Bool.true_and, decide_eq_true_eq]
    refine ⟨trivial, ?_, ?_⟩
    · split
      · rename_i hl
        intro h0
        match hd : FText.display (Value.roundScalar x ((cfg.prec : Int) - 2)), hne with
        | [c], _ =>
          have hc := hch c (by rw [hd]; simp)
          have : byteLen [c] = 1 := by
            refine byteLen_ascii [c] ?_
            intro d hd
            rw [List.mem_singleton] at hd
            subst hd
            rcases hc with hc | rfl | rfl
            · simp only [Char.isAlphanum, Char.isAlpha, Char.isUpper, Char.isLower, Char.isDigit, Bool.or_eq_true,
                Bool.and_eq_true, decide_eq_true_eq, UInt32.le_iff_toNat_le, UInt32.lt_iff_toNat_lt] at hc ⊢
              simp at hc ⊢
              omega
            · decide
            · decide
          rw [hd] at hl
          omega
        | _ :: _ :: _, _ => rw [hd] at h0; simp at h0
      · exact hne
    · intro c hc
      split at hc
      · exact hch c (List.mem_of_mem_drop hc)
      · exact hch c hc
  · have hb' : FArith.beq (Value.roundScalar x ((cfg.prec : Int) - 2)) (FArith.ofInt 0) = false := by simpa using hb
    simp only [hb', Bool.false_and, Bool.false_eq_true, if_false]
    exact ⟨trivial, hne, hch⟩

theorem unblank_same {s : Str} (h : ∀ c ∈ s, c ≠ ' ') : unblank s = s := by
  unfold unblank
  rw [List.filter_eq_self]
  intro c hc
  simpa using h c hc

omit [TextLaws F] in
/-- A built-in function of one argument. -/
theorem shows_fn {y : Sym} {w : Str} (hy : y.plain = some w) (hm : y ≠ .matClose) {a v : Str} {i : Bool} (h : Shows a v i) :
    Shows (y.text ++ (Sym.lparen.text ++ a ++ Sym.rparen.text)) (w ++ (['('] ++ v ++ [')'])) false :=
  (Shows.sym y w (plain_step hy hm)).seq (sym_ne y) (Shows.wrap (plain_step rfl (by decide)) (plain_step rfl (by decide)) (by decide) h)
    (by simp)

omit [TextLaws F] in
/-- An operator between two operands. -/
theorem shows_op {y : Sym} {w : Str} (hy : y.plain = some w) (hm : y ≠ .matClose) (hs : y ≠ .sub) {a b u v : Str} {i j : Bool}
    (ha : a ≠ []) (h1 : Shows a u i) (h2 : Shows b v j) : Shows (a ++ y.text ++ b) (u ++ w ++ v) j :=
  (h1.seq ha (Shows.sym y w (plain_step hy hm)) (fun _ => by simpa using sym_detached y hs [])).seq (by simp [ha]) h2 (by simp)

omit [TextLaws F] in
theorem shows_chr {c : Char} (hc : PlainChar c) (hn : nameChar c = false) {a b u v : Str} {i j : Bool}
    (ha : a ≠ []) (h1 : Shows a u i) (h2 : Shows b v j) : Shows (a ++ [c] ++ b) (u ++ [c] ++ v) j :=
  (h1.seq ha (Shows.chars [c] (by simpa using hc)) (fun _ => ⟨c, rfl, hn⟩)).seq (by simp) h2 (by simp)

omit [TextLaws F] in
/-- The equations of a system. -/
theorem shows_lines {ps : List (Str × Str)} (h : ∀ p ∈ ps, p.1 ≠ [] ∧ ∃ i, Shows p.1 p.2 i) :
    ∃ i, Shows (join (str! "\\\\ \n ") (ps.map Prod.fst)) (join [','] (ps.map Prod.snd)) i := by
  induction ps with
  | nil => exact ⟨false, Shows.nil⟩
  | cons p ps ih =>
    obtain ⟨hne, i, hi⟩ := h p (by simp)
    obtain ⟨j, hj⟩ := ih fun q hq => h q (by simp [hq])
    cases ps with
    | nil => exact ⟨i, by simpa [join] using hi⟩
    | cons q ps =>
      refine ⟨j, ?_⟩
      unfold join at hj ⊢
      rw [List.map_cons, List.map_cons, List.map_cons, List.map_cons, List.intercalate_cons_cons, List.intercalate_cons_cons]
      have h0 : Shows (str! "\\\\ \n ") [','] false :=
        ((Shows.sym .vecSep _ (plain_step rfl (by decide))).seq (sym_ne _) (Shows.sym .newline _ (plain_step rfl (by decide)))
          (by simp)).cast rfl rfl rfl
      have h1 := hi.seq hne h0 (fun _ => ⟨_, rfl, by decide⟩)
      exact h1.seq (by simp) (by simpa using hj) (by simp)

omit [TextLaws F] in
/-- The rows of a matrix. -/
theorem shows_rows {ps : List (Str × Str)} (hne : ps ≠ []) (h : ∀ p ∈ ps, p.1 ≠ [] ∧ ∃ i, Shows p.1 p.2 i) :
    Shows (str! "\\begin{bmatrix}" ++ (ps.map fun p => p.1 ++ str! " \\\\").flatten ++ str! "\\end{bmatrix}")
      (['['] ++ join [','] (ps.map fun p => ['['] ++ p.2 ++ [']']) ++ [']']) false ∧ True := by
  refine ⟨?_, trivial⟩
  have hrow : ∀ p ∈ ps, Shows (p.1 ++ str! " \\\\") (p.2 ++ [']', ',', '[']) false := by
    intro p hp
    obtain ⟨h1, i, h2⟩ := h p hp
    exact h2.seq h1 (Shows.sym .rowEnd _ (plain_step rfl (by decide))) fun _ => ⟨_, rfl, by decide⟩
  have hrows : Shows (ps.map fun p => p.1 ++ str! " \\\\").flatten (ps.map fun p => p.2 ++ [']', ',', '[']).flatten false := by
    clear h hne
    induction ps with
    | nil => exact Shows.nil
    | cons p ps ih =>
      simp only [List.map_cons, List.flatten_cons]
      exact (hrow p (by simp)).seq (by simp) (ih fun q hq => hrow q (by simp [hq])) (by simp)
  have htext : ['['] ++ (ps.map fun p => p.2 ++ [']', ',', '[']).flatten =
      join [','] (ps.map fun p => ['['] ++ p.2 ++ [']']) ++ [','] ++ ['['] := by
    clear h hrow hrows
    induction ps with
    | nil => exact absurd rfl hne
    | cons p ps ih =>
      cases ps with
      | nil => simp [join]
      | cons q ps =>
        have := ih (by simp)
        unfold join at this ⊢
        simp only [List.map_cons, List.intercalate_cons_cons] at this ⊢
        simp only [List.append_assoc] at this ⊢
        rw [← this]
        simp
  intro rest s st out hst hs _
  refine ⟨(st, out ++ (['['] ++ join [','] (ps.map fun p => ['['] ++ p.2 ++ [']']) ++ [']'])), ?_, hst.eq _, fun _ => rfl⟩
  show run (lex (Sym.matOpen.text ++ _ ++ Sym.matClose.text ++ rest)) s = _
  rw [List.append_assoc, List.append_assoc, run_sym, hs]
  rw [plain_step (y := .matOpen) rfl (by decide), Option.bind_some]
  obtain ⟨s', h1, h2, -⟩ := hrows (Sym.matClose.text ++ rest) (st, out ++ ['[', '[']) st _ hst (hst.eq _) (Or.inl rfl)
  rw [h1, run_sym, h2]
  simp only [stepSym, Option.bind_some]
  congr 2
  have : out ++ ['[', '['] ++ (ps.map fun p => p.2 ++ [']', ',', '[']).flatten =
      (out ++ ['['] ++ join [','] (ps.map fun p => ['['] ++ p.2 ++ [']'])) ++ [','] ++ ['['] := by
    have := congrArg (fun x => out ++ ['['] ++ x) htext
    simpa using this
  rw [this, List.dropLast_concat, List.dropLast_concat]
  simp

theorem clear_shows (cfg : Cfg) {t : AST F} (h : Clear cfg t) :
    t.asLatex cfg ≠ [] ∧ Shows (t.asLatex cfg) (unblank (t.asString cfg)) (endsWithName t) := by
  have hlist : ∀ (y : Sym) (hy : y.plain = some [',']) (hs : y ≠ .sub) (hm : y ≠ .matClose) (v : List (AST F)),
      (∀ a ∈ v, a.asLatex cfg ≠ [] ∧ Shows (a.asLatex cfg) (unblank (a.asString cfg)) (endsWithName a)) →
      ∃ i, Shows (join y.text (v.map fun a => a.asLatex cfg)) (unblank (join (str! ", ") (v.map fun a => a.asString cfg))) i := by
    intro y hy hs hm v hv
    obtain ⟨i, hi⟩ := Shows.join (plain_step hy hm) hs (ps := v.map fun a => (a.asLatex cfg, unblank (a.asString cfg))) (by
      intro p hp
      obtain ⟨a, ha, rfl⟩ := List.mem_map.1 hp
      exact ⟨(hv a ha).1, _, (hv a ha).2⟩)
    refine ⟨i, hi.cast ?_ ?_ rfl⟩
    · simp [List.map_map, Function.comp_def]
    · rw [unblank_join_map, List.map_map]; rfl
  induction h with
  | scalar x hx =>
    obtain ⟨h1, h2, h3⟩ := clear_number cfg x hx
    simp only [AST.asLatex, AST.asString, endsWithName]
    refine ⟨h2, ?_⟩
    rw [← h1, unblank_same]
    · refine Shows.chars _ fun c hc => ?_
      rcases h3 c hc with h | rfl | rfl
      · exact Or.inl h
      · exact Or.inr (by simp)
      · exact Or.inr (by simp)
    · intro c hc
      rcases h3 c hc with h | rfl | rfl
      · rintro rfl; exact absurd h (by decide)
      · decide
      · decide
  | «variable» n hn =>
    simp only [AST.asLatex, AST.asString, endsWithName]
    have hu : unblank n = n := unblank_same fun c hc => by
      rintro rfl; exact absurd (hn.2.1 _ hc) (by decide)
    rw [hu]
    unfold latexName
    split
    · rename_i hp
      subst hp
      exact ⟨by simp, Shows.sym .pi _ (plain_step rfl (by decide))⟩
    · exact ⟨hn.1, Shows.name hn⟩
  | vector v _ ih =>
    simp only [AST.asLatex, AST.asString, endsWithName, asLatexAll_map, asStringAll_map]
    obtain ⟨i, hi⟩ := hlist .vecSep rfl (by decide) (by decide) v ih
    refine ⟨by simp, (Shows.wrap (l := .vecOpen) (r := .vecClose) (plain_step rfl (by decide)) (plain_step rfl (by decide)) (by decide) hi).cast rfl ?_ rfl⟩
    simp only [unblank_append]; rfl
  | matrix m hm hr _ ih =>
    simp only [AST.asLatex, AST.asString, endsWithName, asLatexRows_map, asStringRows_map]
    refine ⟨by simp, ?_⟩
    obtain ⟨h1, h2⟩ := shows_rows (ps := m.map fun r => (join (str! " & ") (r.map fun a => a.asLatex cfg),
        unblank (join (str! ", ") (r.map fun a => a.asString cfg)))) (by simpa using hm) (by
      intro p hp
      obtain ⟨r, hr', rfl⟩ := List.mem_map.1 hp
      refine ⟨?_, hlist .cell rfl (by decide) (by decide) r (ih r hr')⟩
      cases r with
      | nil => exact absurd rfl (hr _ hr')
      | cons a r => 
        have := (ih _ hr' a (by simp)).1
        cases r with
        | nil => simpa [join] using this
        | cons b r => simp [join, List.intercalate_cons_cons])
    refine h1.cast ?_ ?_ rfl
    · have : (m.map fun r => if r.isEmpty = true then [] else join (str! " & ") (r.map fun a => a.asLatex cfg) ++ str! " \\\\") =
          m.map fun r => join (str! " & ") (r.map fun a => a.asLatex cfg) ++ str! " \\\\" := by
        refine List.map_congr_left fun r hr' => ?_
        cases r with
        | nil => exact absurd rfl (hr _ hr')
        | cons a r => rfl
      rw [this, List.map_map]
      rfl
    · simp only [unblank_append, unblank_join_map, List.map_map]
      rfl
  | list l _ ih =>
    simp only [AST.asLatex, AST.asString, endsWithName, asLatexAll_map, asStringAll_map]
    obtain ⟨i, hi⟩ := hlist .semicolon rfl (by decide) (by decide) l ih
    refine ⟨by simp, (Shows.wrap (l := .lbrace) (r := .rbrace) (plain_step rfl (by decide)) (plain_step rfl (by decide)) (by decide) hi).cast rfl ?_ rfl⟩
    simp only [unblank_append]; rfl
  | function n l hn _ ih =>
    simp only [AST.asLatex, AST.asString, endsWithName, asLatexAll_map, asStringAll_map]
    obtain ⟨i, hi⟩ := hlist .comma rfl (by decide) (by decide) l ih
    have hu : unblank n = n := unblank_same fun c hc => by
      rintro rfl; exact absurd (hn.2.1 _ hc) (by decide)
    refine ⟨by simp, ((Shows.name hn).seq hn.1 (Shows.wrap (l := .lparen) (r := .rparen) (plain_step rfl (by decide))
      (plain_step rfl (by decide)) (by decide) hi) (by simp)).cast (by simp [Sym.text]) ?_ rfl⟩
    simp only [unblank_append, hu, List.append_assoc]; rfl
  | neg z r _ ih =>
    simp only [AST.asLatex, AST.asString, endsWithName]
    refine ⟨by simp, ((Shows.chars ['-'] (by simp [PlainChar])).seq (by simp) ih.2 (by simp)).cast rfl ?_ rfl⟩
    simp only [unblank_append]; rfl
  | one op l z ho _ ih =>
    obtain ⟨ih1, ih2⟩ := ih
    simp only [firstOnly, List.mem_cons, List.not_mem_nil, or_false] at ho
    rcases ho with rfl | rfl | rfl | rfl | rfl | rfl | rfl | rfl | rfl | rfl | rfl <;>
      simp only [AST.asLatex, AST.asString, endsWithName]
    · refine ⟨by simp, ?_⟩
      have hb := Shows.chars ['|'] (by simp [PlainChar])
      refine ((hb.seq (by simp) ih2 (by simp)).seq (by simp) hb (fun _ => ⟨_, rfl, by decide⟩)).cast rfl ?_ rfl
      simp only [unblank_append]; rfl
    · exact ⟨by simp, (shows_fn (y := .sin) rfl (by decide) ih2).cast (by simp [Sym.text]) (by simp only [unblank_append]; rfl) rfl⟩
    · exact ⟨by simp, (shows_fn (y := .cos) rfl (by decide) ih2).cast (by simp [Sym.text]) (by simp only [unblank_append]; rfl) rfl⟩
    · exact ⟨by simp, (shows_fn (y := .tan) rfl (by decide) ih2).cast (by simp [Sym.text]) (by simp only [unblank_append]; rfl) rfl⟩
    · exact ⟨by simp, (Shows.group (y := .sqrt) (w := str! "sqrt(") (last := [')']) (fun _ _ _ => rfl) ih2).cast rfl
        (by simp only [unblank_append]; rfl) rfl⟩
    · exact ⟨by simp, (shows_fn (y := .ln) rfl (by decide) ih2).cast (by simp [Sym.text]) (by simp only [unblank_append]; rfl) rfl⟩
    · exact ⟨by simp, (shows_fn (y := .arcsin) rfl (by decide) ih2).cast (by simp [Sym.text]) (by simp only [unblank_append]; rfl) rfl⟩
    · exact ⟨by simp, (shows_fn (y := .arccos) rfl (by decide) ih2).cast (by simp [Sym.text]) (by simp only [unblank_append]; rfl) rfl⟩
    · exact ⟨by simp, (shows_fn (y := .arctan) rfl (by decide) ih2).cast (by simp [Sym.text]) (by simp only [unblank_append]; rfl) rfl⟩
    · exact ⟨by simp, (shows_fn (y := .det) rfl (by decide) ih2).cast (by simp [Sym.text]) (by simp only [unblank_append]; rfl) rfl⟩
    · exact ⟨by simp, (Shows.wrap (l := .lparen) (r := .rparen) (plain_step rfl (by decide)) (plain_step rfl (by decide)) (by decide) ih2).cast
        rfl (by simp only [unblank_append]; rfl) rfl⟩
  | two op l r ho hn hi _ _ hd ihl ihr =>
    obtain ⟨l1, l2⟩ := ihl
    obtain ⟨r1, r2⟩ := ihr
    cases op <;> first
      | exact absurd rfl hn
      | exact absurd rfl hi
      | (exfalso; revert ho; decide)
      | skip
    all_goals simp only [AST.asLatex, AST.asString, endsWithName]
    case add =>
      exact ⟨by simp, (shows_chr (c := '+') (by simp [PlainChar]) (by decide) l1 l2 r2).cast rfl (by simp only [unblank_append]; rfl) rfl⟩
    case sub =>
      exact ⟨by simp, (shows_chr (c := '-') (by simp [PlainChar]) (by decide) l1 l2 r2).cast rfl (by simp only [unblank_append]; rfl) rfl⟩
    case addSub =>
      exact ⟨by simp, (shows_op (y := .pm) rfl (by decide) (by decide) l1 l2 r2).cast rfl (by simp only [unblank_append]; rfl) rfl⟩
    case mult =>
      exact ⟨by simp, (shows_op (y := .cdot) rfl (by decide) (by decide) l1 l2 r2).cast rfl (by simp only [unblank_append]; rfl) rfl⟩
    case cross =>
      exact ⟨by simp, (shows_op (y := .times) rfl (by decide) (by decide) l1 l2 r2).cast rfl (by simp only [unblank_append]; rfl) rfl⟩
    case div =>
      exact ⟨by simp, (Shows.frac l2 r2).cast (by simp [Sym.text]) (by simp only [unblank_append]; rfl) rfl⟩
    case hiddenMult =>
      exact ⟨by simp [l1], (l2.seq l1 r2 (hd rfl)).cast rfl (by simp only [unblank_append]) rfl⟩
    case pow =>
      exact ⟨by simp, (Shows.post (y := .sup) (fun _ out h => h.sup out) l1 l2 r2).cast (by simp [Sym.text])
        (by simp only [unblank_append, List.append_assoc]; rfl) rfl⟩
    case get =>
      exact ⟨by simp, (Shows.post (y := .sub) (w := ['_']) (last := []) (fun _ _ _ => rfl) l1 l2 r2).cast (by simp [Sym.text])
        (by simp only [unblank_append, List.append_assoc, List.append_nil]; rfl) rfl⟩
    case root =>
      exact ⟨by simp, (Shows.root l2 r2).cast (by simp [Sym.text]) (by simp only [unblank_append]; rfl) rfl⟩
  | integral e x lo hi hx _ _ _ ihe ihl ihh =>
    simp only [AST.asLatex, AST.asString, endsWithName]
    have hu : unblank x = x := unblank_same fun c hc => by
      rintro rfl; exact absurd (hx.2.1 _ hc) (by decide)
    exact ⟨by simp, (Shows.integral ihe.2 hx ihl.2 ihh.2).cast (by simp [Sym.text]) (by simp only [unblank_append, hu]; rfl) rfl⟩
  | derivative e x a hx _ _ ihe iha =>
    simp only [AST.asLatex, AST.asString, endsWithName]
    have hu : unblank x = x := unblank_same fun c hc => by
      rintro rfl; exact absurd (hx.2.1 _ hc) (by decide)
    exact ⟨by simp, (Shows.derivative ihe.2 hx iha.2).cast (by simp [Sym.text]) (by simp only [unblank_append, hu]; rfl) rfl⟩
  | equation es vs _ _ ih1 ih2 =>
    simp only [AST.asLatex, AST.asString, endsWithName, asLatexEqs_map, asStringEqs_map]
    obtain ⟨i, hi⟩ := shows_lines (ps := es.map fun p => (p.1.asLatex cfg ++ str! "&=" ++ p.2.asLatex cfg,
        unblank (p.1.asString cfg ++ ['='] ++ p.2.asString cfg))) (by
      intro p hp
      obtain ⟨q, hq, rfl⟩ := List.mem_map.1 hp
      refine ⟨by simp, endsWithName q.2, ?_⟩
      exact (shows_op (y := .alignEq) rfl (by decide) (by decide) (ih1 q hq).1 (ih1 q hq).2 (ih2 q hq).2).cast rfl
        (by simp only [unblank_append]; rfl) rfl)
    refine ⟨by simp, (Shows.wrap (l := .eqOpen) (r := .eqClose) (plain_step rfl (by decide)) (plain_step rfl (by decide)) (by decide) hi).cast
      ?_ ?_ rfl⟩
    · simp only [List.map_map]; rfl
    · simp only [unblank_append, List.map_map]
      rw [unblank_join_map]
      simp only [unblank_append]
      rfl

end

end MUL
