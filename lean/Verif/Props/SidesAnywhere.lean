import Verif.Proofs.SidesAnywhere
/-!
# C106 anywhere in an expression, and instances of C107
-/

namespace MUL
open Out FArith FElem Spec

section
variable {F : Type} [FNum F] {cfg : Cfg}

/-- The results of a text are those of its tree. -/
theorem quickEval_results [UTable] (e : Ex) (he : e.WF) (n : Nat) (c : Context F) (vs : List (Value F)) :
    quickEval cfg n e.text c = .ok vs ↔ eval cfg n (e.tree cfg) c = .ok vs := by
  unfold quickEval
  rw [C09_parse_text cfg e he]
  show (eval cfg n (e.tree cfg) c).mapErr _ = _ ↔ _
  cases eval cfg n (e.tree cfg : AST F) c <;> simp [Out.mapErr]

/-- **C106**, anywhere: in a tree, the sides of equations in one unknown can be exchanged, wherever the equations stand. -/
theorem C106_anywhere [Mirror F] (hp : cfg.prec ≤ 22) {b b' : AST F}
    (hb : Replaced (fun a a' => ∃ x eqs eqs', a = .equation eqs [x] ∧ a' = .equation eqs' [x] ∧ SameUpToSides eqs eqs') (fun _ => False) b b')
    (c : Context F) (n : Nat) (vs : List (Value F)) : eval cfg n b c = .ok vs ↔ eval cfg n b' c = .ok vs := by
  have key : ∀ {b b' : AST F},
      Replaced (fun a a' => ∃ x eqs eqs', a = .equation eqs [x] ∧ a' = .equation eqs' [x] ∧ SameUpToSides eqs eqs') (fun _ => False) b b' →
      eval cfg n b c = .ok vs → eval cfg n b' c = .ok vs := by
    intro b b' hb
    refine C107_replace 0 (g := fun _ => none) ?_ hb nofun n vs
    rintro a a' ⟨x, eqs, eqs', rfl, rfl, h⟩ c _ n vs hv
    exact (C106_sides hp x _ _ h c n vs).1 hv
  refine ⟨key hb, key ?_⟩
  have hsym : (fun a a' : AST F => ∃ x eqs eqs', a = .equation eqs [x] ∧ a' = .equation eqs' [x] ∧ SameUpToSides eqs eqs') =
      fun a' a => ∃ x eqs eqs', a = .equation eqs [x] ∧ a' = .equation eqs' [x] ∧ SameUpToSides eqs eqs' := by
    funext a a'
    apply propext
    constructor <;> rintro ⟨x, eqs, eqs', h1, h2, h3⟩ <;> exact ⟨x, eqs', eqs, h2, h1, sameUpToSides_symm h3⟩
  rw [hsym]
  exact replaced_symm hb

/-- **C106**, from texts: in a text, the sides of equations in one unknown can be exchanged, also of equations that are part of other equations,
of integrals, arguments, … -/
theorem C106_text_anywhere [UTable] [Mirror F] (hp : cfg.prec ≤ 22) (e e' : Ex) (he : e.WF) (he' : e'.WF) (h : SidesExchanged e e')
    (c : Context F) (n : Nat) (vs : List (Value F)) : quickEval cfg n e.text c = .ok vs ↔ quickEval cfg n e'.text c = .ok vs := by
  rw [quickEval_results e he, quickEval_results e' he']
  exact sr_exchanged hp e e' h c n vs

end

/-! ## Witnesses -/

/-- `2*eq(x=3,x)+1` and `2*eq(3=x,x)+1`, in binary64 and every context. -/
example [UTable] (c : Context Double) (n : Nat) (vs : List (Value Double)) :
    quickEval Cfg.default n "2*eq(x=3,x)+1".toList c = .ok vs ↔ quickEval Cfg.default n "2*eq(3=x,x)+1".toList c = .ok vs := by
  have h1 : (Ex.num ['1'] none).WF := wf_num (s := "1") (by decide)
  have h2 : (Ex.num ['2'] none).WF := wf_num (s := "2") (by decide)
  have h3 : (Ex.num ['3'] none).WF := wf_num (s := "3") (by decide)
  have hx : (Ex.var ['x']).WF := wf_name (n := "x") (by decide)
  have hv : ∀ v ∈ [['x']], NameShape v := by
    intro v hv
    simp only [List.mem_singleton] at hv
    subst hv
    exact nameShape_letters (by decide) (by decide)
  have w : (Ex.eqs [.var ['x']] [.num ['3'] none] [['x']]).WF := ⟨rfl, ⟨hx, trivial⟩, ⟨h3, trivial⟩, Or.inl (by simp), by decide, hv⟩
  have w' : (Ex.eqs [.num ['3'] none] [.var ['x']] [['x']]).WF := ⟨rfl, ⟨h3, trivial⟩, ⟨hx, trivial⟩, Or.inl (by simp), by decide, hv⟩
  exact C106_text_anywhere (cfg := Cfg.default) (by decide)
    (.bin .add (.bin .mult (.num ['2'] none) (.eqs [.var ['x']] [.num ['3'] none] [['x']])) (.num ['1'] none))
    (.bin .add (.bin .mult (.num ['2'] none) (.eqs [.num ['3'] none] [.var ['x']] [['x']])) (.num ['1'] none))
    ⟨⟨h2, w, by decide, by decide, nofun⟩, h1, by decide, by decide, nofun⟩
    ⟨⟨h2, w', by decide, by decide, nofun⟩, h1, by decide, by decide, nofun⟩
    (.bin _ _ _ _ _ (.bin _ _ _ _ _ (.same _)
      (.eqs [.var ['x']] [.num ['3'] none] [.var ['x']] [.num ['3'] none] [.num ['3'] none] [.var ['x']] ['x'] (.cons (.same _) .nil) (.cons (.same _) .nil) rfl rfl
        (.cons (Or.inr rfl) .nil))) (.same _)) c n vs

/-- The integral of the solution of `y*x=t`, with exchanged sides, over `x`. -/
example (c : Context Double) (n : Nat) (vs : List (Value Double)) (lo hi t : AST Double) :
    eval Cfg.default n (.integral (.equation [(.simple .mult (.variable ['y']) (.variable ['x']), t)] [['y']]) ['x'] lo hi) c = .ok vs ↔
      eval Cfg.default n (.integral (.equation [(t, .simple .mult (.variable ['y']) (.variable ['x']))] [['y']]) ['x'] lo hi) c = .ok vs :=
  C106_anywhere (by decide) (.integral _ _ _ _ _ _ _ id (.part _ _ ⟨_, _, _, rfl, rfl, .cons (Or.inr rfl) .nil⟩) (.same _) (.same _)) c n vs

/-- C107: `y+z` and `z+y` report different missing variables, so C79 does not relate them, but they have the same results (here for single
numbers). The parts of `eq((y+z)*x=t, x)` are exchanged below the equation, in all contexts with numbers `y` and `z`. -/
example (c : Context Q) (y z : ℚ) (h : Fixes (fun n => n = ['y'] ∨ n = ['z']) (fun n => if n = ['y'] then some [.scalar (.fin y)] else some [.scalar (.fin z)]) c)
    (t : AST Q) (vs : List (Value Q)) :
    Finishes (fun n => eval Cfg.default n (.equation [(.simple .mult (.simple .add (.variable ['y']) (.variable ['z'])) (.variable ['x']), t)] [['x']]) c) (.ok vs) ↔
      Finishes (fun n => eval Cfg.default n (.equation [(.simple .mult (.simple .add (.variable ['z']) (.variable ['y'])) (.variable ['x']), t)] [['x']]) c) (.ok vs) := by
  have val : ∀ (c : Context Q) (n : Nat) (p q : Str) (u v : ℚ) (vs : List (Value Q)), c.findVar p = some [.scalar (.fin u)] → c.findVar q = some [.scalar (.fin v)] →
      eval Cfg.default n (.simple .add (.variable p) (.variable q)) c = .ok vs → 2 ≤ n ∧ vs = [.scalar (.fin (u + v))] := by
    intro c n p q u v vs hp hq hv
    match n with
    | 0 => cases hv
    | 1 => cases hv
    | n + 2 =>
      simp only [eval, evalRec, hp, hq] at hv
      cases hv
      exact ⟨by omega, rfl⟩
  have val' : ∀ (c : Context Q) (n : Nat) (p q : Str) (u v : ℚ), c.findVar p = some [.scalar (.fin u)] → c.findVar q = some [.scalar (.fin v)] → 2 ≤ n →
      eval Cfg.default n (.simple .add (.variable p) (.variable q)) c = .ok [.scalar (.fin (u + v))] := by
    intro c n p q u v hp hq hn
    match n, hn with
    | n + 2, _ =>
      simp only [eval, evalRec, hp, hq]
      rfl
  refine C107_same (B := fun a a' => a = .simple .add (.variable ['y']) (.variable ['z']) ∧ a' = .simple .add (.variable ['z']) (.variable ['y'])) 0 ?_ ?_
    (.equation _ _ _ ?_ (.cons (.simple _ _ _ _ _ (.part _ _ ⟨rfl, rfl⟩) (.same _)) .nil) (.cons (.same _) .nil)) h vs
  · rintro a a' ⟨rfl, rfl⟩ c hc n vs hv
    obtain ⟨hn, rfl⟩ := val c n _ _ y z vs (hc _ (Or.inl rfl)) (hc _ (Or.inr rfl)) hv
    rw [add_comm y z]
    exact val' c n _ _ z y (hc _ (Or.inr rfl)) (hc _ (Or.inl rfl)) hn
  · rintro a a' ⟨rfl, rfl⟩ c hc n vs hv
    obtain ⟨hn, rfl⟩ := val c n _ _ z y vs (hc _ (Or.inr rfl)) (hc _ (Or.inl rfl)) hv
    rw [add_comm z y]
    exact val' c n _ _ y z (hc _ (Or.inl rfl)) (hc _ (Or.inr rfl)) hn
  · intro n hn
    simp only [List.mem_singleton] at hn
    subst hn
    decide

end MUL
