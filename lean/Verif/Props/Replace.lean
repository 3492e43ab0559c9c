import Verif.Proofs.Replace
import Verif.Props.EvalCtx
import Verif.Num.Rat
import Verif.Model.Lit
/-!
# C79: equals may be replaced by equals
-/

set_option linter.unusedSectionVars false

namespace MUL
open Out Spec

section
variable {F : Type} [FNum F] {X : Str → Prop} {g : Str → Option (List (Value F))} {B : AST F → AST F → Prop}

theorem forall₂_flip {α β : Type} {R : α → β → Prop} {S : β → α → Prop} {l : List α} {l' : List β} (h : List.Forall₂ R l l')
    (hRS : ∀ a ∈ l, ∀ b, R a b → S b a) : List.Forall₂ S l' l := by
  induction h with
  | nil => exact .nil
  | cons hab _ ih => exact .cons (hRS _ (by simp) _ hab) (ih fun a ha => hRS a (by simp [ha]))

theorem replaced_symm {a a' : AST F} (h : Replaced B X a a') : Replaced (fun x y => B y x) X a' a := by
  induction a using AST.ind generalizing a' with
  | scalar s => cases h with
    | part _ _ h => exact .part _ _ h
    | same => exact .same _
  | vector v ih => cases h with
    | part _ _ h => exact .part _ _ h
    | same => exact .same _
    | vector _ v' h => exact .vector _ _ (forall₂_flip h fun a ha b hb => ih a ha hb)
  | matrix m ih => cases h with
    | part _ _ h => exact .part _ _ h
    | same => exact .same _
    | matrix _ v' h => exact .matrix _ _ (forall₂_flip h fun r hr r' hr' => forall₂_flip hr' fun a ha b hb => ih r hr a ha hb)
  | list l ih => cases h with
    | part _ _ h => exact .part _ _ h
    | same => exact .same _
    | list _ v' h => exact .list _ _ (forall₂_flip h fun a ha b hb => ih a ha hb)
  | var n => cases h with
    | part _ _ h => exact .part _ _ h
    | same => exact .same _
  | function n l ih => cases h with
    | part _ _ h => exact .part _ _ h
    | same => exact .same _
    | function _ _ v' h => exact .function _ _ _ (forall₂_flip h fun a ha b hb => ih a ha hb)
  | simple op l r hl hr => cases h with
    | part _ _ h => exact .part _ _ h
    | same => exact .same _
    | simple _ _ l' _ r' h1 h2 => exact .simple _ _ _ _ _ (hl h1) (hr h2)
  | integral e x l u he hl hu => cases h with
    | part _ _ h => exact .part _ _ h
    | same => exact .same _
    | integral _ e' _ _ _ _ _ hx h1 h2 h3 => exact .integral _ _ _ _ _ _ _ hx (he h1) (hl h2) (hu h3)
    | bounds _ _ _ _ _ _ h2 h3 => exact .bounds _ _ _ _ _ _ (hl h2) (hu h3)
  | derivative e x a he ha => cases h with
    | part _ _ h => exact .part _ _ h
    | same => exact .same _
    | derivative _ e' _ _ _ hx h1 h2 => exact .derivative _ _ _ _ _ hx (he h1) (ha h2)
    | point _ _ _ _ h2 => exact .point _ _ _ _ (ha h2)
  | equation es vs ih => cases h with
    | part _ _ h => exact .part _ _ h
    | same => exact .same _
    | equation _ es' _ hn h1 h2 =>
      refine .equation _ _ _ hn (forall₂_flip h1 fun a ha b hb => ?_) (forall₂_flip h2 fun a ha b hb => ?_)
      · obtain ⟨p, hp, rfl⟩ := List.mem_map.1 ha
        exact (ih p hp).1 hb
      · obtain ⟨p, hp, rfl⟩ := List.mem_map.1 ha
        exact (ih p hp).2 hb

/-- C79: let `B` relate trees that evaluate alike in all contexts in which the names in `X` have the meaning `g`: whenever
one of them finishes within some number of steps, the other finishes with the same outcome within `k` more. Then a tree and
the same tree with any number of parts replaced according to `B`, anywhere except below binders of names in `X`, finish
with the same outcome, or neither does. -/
theorem C79_replace (cfg : Cfg) (k : Nat)
    (h1 : ∀ a a', B a a' → ∀ c, Fixes X g c → ∀ n, eval cfg n a c ≠ .timeout → eval cfg (n + k) a' c = eval cfg n a c)
    (h2 : ∀ a a', B a a' → ∀ c, Fixes X g c → ∀ n, eval cfg n a' c ≠ .timeout → eval cfg (n + k) a c = eval cfg n a' c)
    {b b' : AST F} (hb : Replaced B X b b') {c : Context F} (hc : Fixes X g c) (r : Out EvalError (List (Value F))) :
    Finishes (fun n => eval cfg n b c) r ↔ Finishes (fun n => eval cfg n b' c) r := by
  have toLe : ∀ {x y : Out EvalError (List (Value F))}, (x ≠ .timeout → y = x) → Le x y := by
    intro x y h
    by_cases hx : x = .timeout
    · exact Or.inl hx
    · exact Or.inr (h hx).symm
  constructor
  · rintro ⟨hr, n, hn⟩
    beta_reduce at hn
    have := le_evalRec cfg k (fun n a a' c h hc => toLe (h1 a a' h c hc n)) n b b' c hb hc
    exact ⟨hr, n + k, (this.eq_of_ne (by rw [show evalRec cfg n b c [] = r from hn]; exact hr)).symm.trans hn⟩
  · rintro ⟨hr, n, hn⟩
    beta_reduce at hn
    have := le_evalRec cfg k (B := fun x y => B y x) (fun n a a' c h hc => toLe (h2 a' a h c hc n)) n b' b c (replaced_symm hb) hc
    exact ⟨hr, n + k, (this.eq_of_ne (by rw [show evalRec cfg n b' c [] = r from hn]; exact hr)).symm.trans hn⟩

/-! ## Substitution -/

theorem substituteAll_eq (x : Str) (t : AST F) (l : List (AST F)) : substituteAll x t l = l.map (substitute x t) := by
  induction l with
  | nil => rfl
  | cons a l ih => rw [substituteAll, ih, List.map_cons]

theorem substituteRows_eq (x : Str) (t : AST F) (m : List (List (AST F))) : substituteRows x t m = m.map fun r => r.map (substitute x t) := by
  induction m with
  | nil => rfl
  | cons a l ih => rw [substituteRows, ih, List.map_cons, substituteAll_eq]

theorem substituteEqs_eq (x : Str) (t : AST F) (es : List (AST F × AST F)) :
    substituteEqs x t es = es.map fun p => (substitute x t p.1, substitute x t p.2) := by
  induction es with
  | nil => rfl
  | cons p l ih => obtain ⟨l, r⟩ := p; rw [substituteEqs, ih, List.map_cons]

theorem forall₂_map_right {α β : Type} {R : α → β → Prop} {f : α → β} {l : List α} (h : ∀ a ∈ l, R a (f a)) : List.Forall₂ R l (l.map f) := by
  induction l with
  | nil => exact .nil
  | cons a l ih => exact .cons (h a (by simp)) (ih fun a ha => h a (by simp [ha]))

theorem replaced_substitute (x : Str) (t b : AST F) : Replaced (fun a a' => a = .variable x ∧ a' = t) (· = x) b (substitute x t b) := by
  induction b using AST.ind with
  | scalar s => exact .same _
  | vector v ih => rw [substitute, substituteAll_eq]; exact .vector _ _ (forall₂_map_right ih)
  | matrix m ih => rw [substitute, substituteRows_eq]; exact .matrix _ _ (forall₂_map_right fun r hr => forall₂_map_right (ih r hr))
  | list v ih => rw [substitute, substituteAll_eq]; exact .list _ _ (forall₂_map_right ih)
  | var n =>
    rw [substitute]
    split
    · rename_i h; exact .part _ _ ⟨by rw [h], rfl⟩
    · exact .same _
  | function n l ih => rw [substitute, substituteAll_eq]; exact .function _ _ _ (forall₂_map_right ih)
  | simple op l r hl hr => rw [substitute]; exact .simple _ _ _ _ _ hl hr
  | integral e y l u he hl hu =>
    rw [substitute]
    split
    · exact .bounds _ _ _ _ _ _ hl hu
    · rename_i h; exact .integral _ _ _ _ _ _ _ h he hl hu
  | derivative e y a he ha =>
    rw [substitute]
    split
    · exact .point _ _ _ _ ha
    · rename_i h; exact .derivative _ _ _ _ _ h he ha
  | equation es vs ih =>
    rw [substitute]
    split
    · exact .same _
    · rename_i h
      rw [substituteEqs_eq]
      refine .equation _ _ _ (fun n hn hx => h (hx ▸ hn)) ?_ ?_
      · rw [List.map_map, List.forall₂_map_left_iff, List.forall₂_map_right_iff]
        exact List.forall₂_same.2 fun p hp => (ih p hp).1
      · rw [List.map_map, List.forall₂_map_left_iff, List.forall₂_map_right_iff]
        exact List.forall₂_same.2 fun p hp => (ih p hp).2

theorem var_finished {cfg : Cfg} {n : Nat} {x : Str} {c : Context F} (h : eval cfg n (.variable x) c ≠ .timeout) :
    eval cfg n (.variable x) c = match c.findVar x with
      | some vs => .ok vs
      | none => .err (.noVariable x) := by
  cases n with
  | zero => exact absurd rfl h
  | succ n => rfl

/-- C79: in a context in which the variable `x` has the single value `v`, writing the value in place of `x` changes
nothing. -/
theorem C79_substitute (cfg : Cfg) (b : AST F) (c : Context F) (x : Str) (v : Value F) (hx : c.findVar x = some [v])
    (r : Out EvalError (List (Value F))) :
    Finishes (fun n => eval cfg n (substitute x (AST.fromValue v) b) c) r ↔ Finishes (fun n => eval cfg n b c) r := by
  refine (C79_replace (X := (· = x)) (g := fun _ => some [v]) cfg 2 ?_ ?_ (replaced_substitute x _ b) ?_ r).symm
  · rintro a a' ⟨rfl, rfl⟩ c hc n hn
    rw [C28_from_value, var_finished hn, hc x rfl]
  · rintro a a' ⟨rfl, rfl⟩ c hc n hn
    have h1 : eval cfg n (AST.fromValue v) c = .ok [v] := by
      have := evalRec_le cfg (Nat.le_add_right n 2) (AST.fromValue v) c []
      exact (this.eq_of_ne hn).trans (C28_from_value cfg v c n)
    rw [h1]
    have := var_finished (cfg := cfg) (n := n + 2) (x := x) (c := c) (by rw [eval, evalRec]; cases c.findVar x <;> simp)
    rw [this, hc x rfl]
  · rintro y rfl
    exact hx

/-- C79: defining a variable and using it, or writing its value at every place instead, is the same – if no function refers
to it and nothing else in the expression binds it. -/
theorem C79_define (cfg : Cfg) (b : AST F) (c : Context F) (x : Str) (v : Value F)
    (hb : Mentions (· ≠ x) (fun _ => True) (substitute x (AST.fromValue v) b))
    (hf : ∀ f ∈ c.funs, Mentions (fun y => y ≠ x ∨ y ∈ f.inputs) (fun _ => True) f.ast) (r : Out EvalError (List (Value F))) :
    Finishes (fun n => eval cfg n (substitute x (AST.fromValue v) b) c) r ↔ Finishes (fun n => eval cfg n b (c.addVar ⟨x, [v]⟩)) r := by
  have h : ∀ n, eval cfg n (substitute x (AST.fromValue v) b) (c.addVar ⟨x, [v]⟩) = eval cfg n (substitute x (AST.fromValue v) b) c :=
    fun n => C25_unmentioned cfg n _ c ⟨x, [v]⟩ hb hf
  have hx : (c.addVar ⟨x, [v]⟩).findVar x = some [v] := by
    simp only [findVar_entries, Context.addVar, entries_append, entries_filter_ne, entries_cons]
    simp [entries]
  rw [← C79_substitute cfg b _ x v hx r]
  simp only [h]

/-- The hypotheses of `C79_define` are met: `D(2*x*y,y,x)` with `x` defined as `v`, and with `v` written in its place. -/
example (cfg : Cfg) (v : Value F) (c : Context F) (hf : c.funs = []) (r : Out EvalError (List (Value F))) :
    Finishes (fun n => eval cfg n (.derivative (.simple .mult (.simple .mult (.scalar (FArith.ofInt 2)) (AST.fromValue v)) (.variable (str! "y")))
        (str! "y") (AST.fromValue v)) c) r ↔
      Finishes (fun n => eval cfg n (.derivative (.simple .mult (.simple .mult (.scalar (FArith.ofInt 2)) (.variable (str! "x"))) (.variable (str! "y")))
        (str! "y") (.variable (str! "x"))) (c.addVar ⟨str! "x", [v]⟩)) r := by
  refine C79_define cfg (.derivative (.simple .mult (.simple .mult (.scalar (FArith.ofInt 2)) (.variable (str! "x"))) (.variable (str! "y")))
        (str! "y") (.variable (str! "x"))) c (str! "x") v ?_ (by simp [hf]) r
  exact .derivative _ _ _ (.simple _ _ _ (.simple _ _ _ (.scalar _) (mentions_fromValue v)) (.variable _ (by decide))) (mentions_fromValue v)

/-- The hypotheses of `C79_replace` are met: a sum of two numbers may be worked out beforehand, wherever it stands, also
below integrals, derivatives and equations. -/
example (cfg : Cfg) (s t : F) {b b' : AST F}
    (hb : Replaced (fun a a' => a = .simple .add (.scalar s) (.scalar t) ∧ a' = .scalar (FArith.add s t)) (fun _ => False) b b')
    (c : Context F) (r : Out EvalError (List (Value F))) :
    Finishes (fun n => eval cfg n b c) r ↔ Finishes (fun n => eval cfg n b' c) r := by
  refine C79_replace (g := fun _ => none) cfg 1 ?_ ?_ hb (by intro y hy; exact hy.elim) r
  · rintro a a' ⟨rfl, rfl⟩ c _ n hn
    match n, hn with
    | 0, hn => exact absurd rfl hn
    | 1, hn => exact absurd rfl hn
    | n + 2, _ => rfl
  · rintro a a' ⟨rfl, rfl⟩ c _ n hn
    match n, hn with
    | 0, hn => exact absurd rfl hn
    | n + 1, _ => rfl

/-- The relation holds of `I(x*(1+2),x,0,1+2)` and `I(x*3,x,0,3)`. -/
example (a b : F) : Replaced (fun u u' => u = .simple .add (.scalar a) (.scalar b) ∧ u' = .scalar (FArith.add a b)) (fun _ => False)
    (.integral (.simple .mult (.variable (str! "x")) (.simple .add (.scalar a) (.scalar b))) (str! "x") (.scalar a) (.simple .add (.scalar a) (.scalar b)))
    (.integral (.simple .mult (.variable (str! "x")) (.scalar (FArith.add a b))) (str! "x") (.scalar a) (.scalar (FArith.add a b))) :=
  .integral _ _ _ _ _ _ _ nofun (.simple _ _ _ _ _ (.same _) (.part _ _ ⟨rfl, rfl⟩)) (.same _) (.part _ _ ⟨rfl, rfl⟩)

end
end MUL
