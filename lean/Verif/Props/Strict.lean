import Verif.Spec.Strict
import Verif.Props.Errors
import Verif.Proofs.AstInd
/-!
# C97: a failed of a part is never hidden
-/

set_option linter.unusedSectionVars false

namespace MUL
open Out Spec

section
variable {F : Type} [FNum F]

/-- `y` is the failure (or the lack of an end) of `x`, if `x` has no value. -/
def SameFail {ε α β : Type} : Out ε α → Out ε β → Prop
  | .ok _, _ => True
  | .err e, y => y = .err e
  | .panic, y => y = .panic
  | .timeout, y => y = .timeout

theorem sameFail_bind {ε α β : Type} (x : Out ε α) (k : α → Out ε β) : SameFail x (x >>= k) := by
  cases x <;> trivial

theorem SameFail.trans {ε α β γ : Type} {x : Out ε α} {y : Out ε β} {z : Out ε γ} (h : SameFail x y) (h' : SameFail y z) : SameFail x z := by
  cases x with
  | ok => trivial
  | err e => rw [show y = .err e from h] at h'; exact h'
  | panic => rw [show y = .panic from h] at h'; exact h'
  | timeout => rw [show y = .timeout from h] at h'; exact h'

theorem SameFail.bind {ε α β γ : Type} {x : Out ε α} {y : Out ε β} (h : SameFail x y) (k : β → Out ε γ) : SameFail x (y >>= k) :=
  h.trans (sameFail_bind y k)

theorem sameFail_bind2 {ε α β γ δ : Type} {x : Out ε α} {f : α → Out ε β} {g : α → Out ε γ} (h : ∀ a, SameFail (f a) (g a)) (k : γ → Out ε δ) :
    SameFail (x >>= f) (x >>= fun a => g a >>= k) := by
  cases x with
  | ok a => exact (h a).bind k
  | _ => trivial

theorem sameFail_mapM {ε α β γ : Type} {f : α → Out ε β} {g : α → Out ε γ} (l : List α) (h : ∀ a ∈ l, SameFail (f a) (g a))
    (h' : ∀ a ∈ l, ∀ b, f a = .ok b → ∃ c, g a = .ok c) : SameFail (l.mapM f) (l.mapM g) := by
  induction l with
  | nil => trivial
  | cons a l ih =>
    simp only [List.mapM_cons]
    have h1 := h a (by simp)
    cases hf : f a with
    | ok b =>
      obtain ⟨c, hc⟩ := h' a (by simp) b hf
      have h2 := ih (fun a ha => h a (by simp [ha])) fun a ha => h' a (by simp [ha])
      rw [hc, ok_bind, ok_bind]
      cases hl : l.mapM f with
      | ok => trivial
      | err e => rw [hl] at h2; rw [show l.mapM g = .err e from h2]; rfl
      | panic => rw [hl] at h2; rw [show l.mapM g = .panic from h2]; rfl
      | timeout => rw [hl] at h2; rw [show l.mapM g = .timeout from h2]; rfl
    | err e => rw [hf] at h1; rw [show g a = .err e from h1]; rfl
    | panic => rw [hf] at h1; rw [show g a = .panic from h1]; rfl
    | timeout => rw [hf] at h1; rw [show g a = .timeout from h1]; rfl

/-- The check of the values of a part. -/
def entryCheck (t : AST F) (vs : List (Value F)) : Out EvalError Unit :=
  match t with
  | .vector _ => allScalars .nonScalarInVector vs >>= fun _ => .ok ()
  | .matrix _ => allScalars .nonScalarInMatrix vs >>= fun _ => .ok ()
  | _ => .ok ()

theorem allScalars_cases (e : EvalError) (vs : List (Value F)) :
    (allScalars e vs = .err e ∧ ¬ ∀ v ∈ vs, ∃ x, v = .scalar x) ∨ ((∃ xs, allScalars e vs = .ok xs) ∧ ∀ v ∈ vs, ∃ x, v = .scalar x) := by
  by_cases h : ∀ v ∈ vs, ∃ x, v = .scalar x
  · right
    refine ⟨?_, h⟩
    have : ∃ xs : List F, vs = xs.map .scalar := by
      clear e
      induction vs with
      | nil => exact ⟨[], rfl⟩
      | cons v vs ih =>
        obtain ⟨x, rfl⟩ := h v (by simp)
        obtain ⟨xs, rfl⟩ := ih fun v hv => h v (by simp [hv])
        exact ⟨x :: xs, rfl⟩
    obtain ⟨xs, rfl⟩ := this
    exact ⟨xs, allScalars_scalars e xs⟩
  · left
    refine ⟨allScalars_fail ?_, h⟩
    push Not at h
    obtain ⟨v, hv, h⟩ := h
    refine ⟨v, hv, ?_⟩
    cases v with
    | scalar x => exact absurd rfl (h x)
    | _ => rfl

theorem entryCheck_ok {t : AST F} {vs : List (Value F)} (h : Allowed t vs) : entryCheck t vs = .ok () := by
  cases t <;> first
    | rfl
    | (simp only [entryCheck, Allowed] at h ⊢
       rcases allScalars_cases (F := F) _ vs with ⟨_, h2⟩ | ⟨⟨xs, h2⟩, _⟩
       · exact absurd h h2
       · rw [h2]; rfl)

theorem findFun_of {ctx : Context F} {n : Str} {args : List (AST F)} (h : Callable ctx (.function n args)) :
    n ≠ [] ∧ ∃ f, ctx.findFun n = some f ∧ args.length = f.inputs.length := by
  obtain ⟨h0, before, f, after, hc, hb, rfl, hl⟩ := h
  refine ⟨h0, f, ?_, hl⟩
  simp only [Context.findFun, hc]
  rw [List.find?_append, List.find?_eq_none.2 (by simpa using hb), List.find?_cons_of_pos (by simp)]
  rfl

theorem callable_of {ctx : Context F} {n : Str} {args : List (AST F)} {f : Function F} (h0 : n ≠ []) (h : ctx.findFun n = some f)
    (hl : args.length = f.inputs.length) : Callable ctx (.function n args) := by
  unfold Context.findFun at h
  obtain ⟨hn, l, r, h1, h2⟩ := List.find?_eq_some_iff_append.1 h
  exact ⟨h0, l, f, r, h1, by simpa using h2, by simpa using hn, hl⟩

/-- The parts are evaluated one after the other, and nothing else happens before. -/
theorem node_fails (cfg : Cfg) (n : Nat) (t : AST F) (ctx : Context F) (hc : Callable ctx t) :
    SameFail ((operands t).mapM fun q => evalRec cfg n q ctx [] >>= entryCheck t) (evalRec cfg (n + 1) t ctx []) := by
  have hk : ∀ (x : Out EvalError (List (Value F))) (e : EvalError),
      (∃ b, (x >>= fun vs => allScalars e vs >>= fun _ => .ok ()) = .ok b) → ∃ c, (x >>= allScalars e) = .ok c := by
    intro x e
    cases x with
    | ok vs => rcases allScalars_cases (F := F) e vs with ⟨h, _⟩ | ⟨⟨xs, h⟩, _⟩ <;> simp [h]
    | _ => rintro ⟨b, hb⟩; cases hb
  have hs : ∀ (x : Out EvalError (List (Value F))) (e : EvalError),
      SameFail (x >>= fun vs => allScalars e vs >>= fun _ => (.ok () : Out EvalError Unit)) (x >>= allScalars e) := by
    intro x e
    cases x with
    | ok vs => rcases allScalars_cases (F := F) e vs with ⟨h, _⟩ | ⟨⟨xs, h⟩, _⟩ <;> simp [h, SameFail]
    | _ => trivial
  have hp : ∀ (x : Out EvalError (List (Value F))), SameFail (x >>= fun _ => (.ok () : Out EvalError Unit)) x := by
    intro x
    cases x <;> trivial
  have hpo : ∀ (x : Out EvalError (List (Value F))) (b : Unit), (x >>= fun _ => (.ok () : Out EvalError Unit)) = .ok b → ∃ c, x = .ok c := by
    intro x b h
    cases x with
    | ok v => exact ⟨v, rfl⟩
    | _ => cases h
  cases t with
  | scalar => trivial
  | «variable» => trivial
  | equation => trivial
  | vector v =>
    simp only [operands, evalRec]
    exact (sameFail_mapM v (fun a _ => hs _ _) fun a _ b hb => hk _ _ ⟨b, hb⟩).bind _
  | list v =>
    simp only [operands, evalRec]
    exact (sameFail_mapM v (fun a _ => hp _) fun a _ b hb => hpo _ b hb).bind _
  | matrix m =>
    simp only [operands, evalRec]
    refine SameFail.bind ?_ _
    have e : m.flatten = m.flatMap id := by simp
    rw [e, mapM_flatMap]
    have h1 : SameFail (m.mapM fun r => r.mapM fun q => evalRec cfg n q ctx [] >>= entryCheck (.matrix m))
        (m.mapM fun i => i.mapM fun j => evalRec cfg n j ctx [] >>= allScalars .nonScalarInMatrix) := by
      refine sameFail_mapM m (fun r _ => sameFail_mapM r (fun a _ => hs _ _) fun a _ b hb => hk _ _ ⟨b, hb⟩) fun r hr b hb => ?_
      have h2 := mapM_eq_ok.1 hb
      clear hb hr
      induction h2 with
      | nil => exact ⟨[], rfl⟩
      | cons hb _ ih =>
        obtain ⟨c, hc⟩ := hk _ .nonScalarInMatrix ⟨_, hb⟩
        obtain ⟨cs, hcs⟩ := ih
        refine ⟨c :: cs, ?_⟩
        rw [List.mapM_cons, hc, ok_bind, hcs]
        rfl
    revert h1
    simp only [id]
    generalize (m.mapM fun r => r.mapM fun q => evalRec cfg n q ctx [] >>= entryCheck (.matrix m)) = x
    intro h1
    cases x with
    | ok => trivial
    | _ => exact h1
  | function f args =>
    obtain ⟨h0, g, hg, hl⟩ := findFun_of hc
    simp only [operands, evalRec, hg]
    rw [if_neg (fun h => h0 h.symm), if_neg (not_not.2 hl)]
    exact (sameFail_mapM args (fun a _ => hp _) fun a _ b hb => hpo _ b hb).bind _
  | simple op l r =>
    simp only [operands, evalRec, List.mapM_cons, List.mapM_nil]
    cases evalRec cfg n l ctx [] with
    | ok a =>
      simp only [ok_bind, entryCheck]
      cases evalRec cfg n r ctx [] <;> trivial
    | _ => trivial
  | integral e x lo hi =>
    simp only [operands, evalRec, List.mapM_cons, List.mapM_nil]
    cases evalRec cfg n lo ctx [] with
    | ok a =>
      simp only [ok_bind, entryCheck]
      cases evalRec cfg n hi ctx [] <;> trivial
    | _ => trivial
  | derivative e x a =>
    simp only [operands, evalRec, List.mapM_cons, List.mapM_nil]
    cases evalRec cfg n a ctx [] <;> trivial

theorem finishes_of {cfg : Cfg} {n : Nat} {t : AST F} {ctx : Context F} {r : Out EvalError (List (Value F))} (hr : r ≠ .timeout)
    (h : evalRec cfg n t ctx [] = r) : Finishes (fun n => eval cfg n t ctx) r := ⟨hr, n, h⟩

/-- The value of a call means that the call is possible. -/
theorem callable_ok {cfg : Cfg} {n : Nat} {t : AST F} {ctx : Context F} {vs : List (Value F)} (h : evalRec cfg (n + 1) t ctx [] = .ok vs) :
    Callable ctx t := by
  cases t with
  | function f args =>
    simp only [evalRec] at h
    split at h
    · cases h
    · rename_i h0
      split at h
      · cases h
      · rename_i g hg
        split at h
        · cases h
        · rename_i hl
          exact callable_of (fun h => h0 h.symm) hg (not_not.1 hl)
  | _ => trivial

theorem parts_ok {cfg : Cfg} {n : Nat} {t : AST F} {ctx : Context F} {vs : List (Value F)} (h : evalRec cfg (n + 1) t ctx [] = .ok vs) :
    ∀ q ∈ operands t, ∃ us, evalRec cfg n q ctx [] = .ok us := by
  have hf := node_fails cfg n t ctx (callable_ok h)
  rw [h] at hf
  intro q hq
  cases hx : (operands t).mapM fun q => evalRec cfg n q ctx [] >>= entryCheck t with
  | ok us =>
    have := List.forall₂_iff_get.1 (mapM_eq_ok.1 hx)
    obtain ⟨i, hi, rfl⟩ := List.getElem_of_mem hq
    have h2 := this.2 i hi (by have := this.1; omega)
    obtain ⟨us, h3, _⟩ := bind_eq_ok.1 h2
    exact ⟨us, h3⟩
  | _ => rw [hx] at hf; cases hf

/-- **C97.** If an expression has a value, so has each of its parts: no failed of a part is hidden, whether its value matters or not. -/
theorem C97_every_part (cfg : Cfg) (t p : AST F) (ctx : Context F) (hp : Inside p t) (vs : List (Value F))
    (h : Finishes (fun n => eval cfg n t ctx) (.ok vs)) : ∃ us, Finishes (fun n => eval cfg n p ctx) (.ok us) := by
  obtain ⟨_, n, hn⟩ := h
  have key : ∀ (p t : AST F), Inside p t → ∀ n vs, evalRec cfg n t ctx [] = .ok vs → ∃ us, Finishes (fun n => eval cfg n p ctx) (.ok us) := by
    intro p t hp
    induction hp with
    | direct hq =>
      intro n vs h
      cases n with
      | zero => cases h
      | succ n =>
        obtain ⟨us, hus⟩ := parts_ok h _ hq
        exact ⟨us, finishes_of (by simp) hus⟩
    | deeper _ hq ih =>
      intro n vs h
      cases n with
      | zero => cases h
      | succ n =>
        obtain ⟨us, hus⟩ := parts_ok h _ hq
        exact ih n us hus
  exact key p t hp n vs hn

theorem mapM_prefix {ε α β : Type} {f : α → Out ε β} {before after : List α} {p : α} (hb : ∀ q ∈ before, ∃ b, f q = .ok b) :
    SameFail (f p) ((before ++ p :: after).mapM f) := by
  induction before with
  | nil =>
    rw [List.nil_append, List.mapM_cons]
    exact sameFail_bind _ _
  | cons a l ih =>
    obtain ⟨b, h⟩ := hb a (by simp)
    rw [List.cons_append, List.mapM_cons, h, ok_bind]
    exact (ih fun q hq => hb q (by simp [hq])).bind _

theorem prefix_budget {cfg : Cfg} {t : AST F} {ctx : Context F} (before : List (AST F))
    (hb : ∀ q ∈ before, ∃ us, Finishes (fun n => eval cfg n q ctx) (.ok us) ∧ Allowed t us) :
    ∃ N, ∀ n ≥ N, ∀ q ∈ before, ∃ b, (evalRec cfg n q ctx [] >>= entryCheck t) = .ok b := by
  induction before with
  | nil => exact ⟨0, fun n _ q hq => by cases hq⟩
  | cons a l ih =>
    obtain ⟨N, hN⟩ := ih fun q hq => hb q (by simp [hq])
    obtain ⟨us, h1, h2⟩ := hb a (by simp)
    obtain ⟨M, hM⟩ := finishes_from (w := []) h1
    refine ⟨max N M, fun n hn q hq => ?_⟩
    rcases List.mem_cons.1 hq with rfl | hq
    · rw [hM n (by omega), ok_bind, entryCheck_ok h2]
      exact ⟨_, rfl⟩
    · exact hN n (by omega) q hq

/-- **C97.** The failed of the first part that fails is the failed of the whole: its error, or its panic. -/
theorem C97_first_failure (cfg : Cfg) (t p : AST F) (before after : List (AST F)) (ctx : Context F) (hc : Callable ctx t)
    (ho : operands t = before ++ p :: after)
    (hb : ∀ q ∈ before, ∃ us, Finishes (fun n => eval cfg n q ctx) (.ok us) ∧ Allowed t us) (o : Option EvalError)
    (h : Finishes (fun n => eval cfg n p ctx) (failed o)) : Finishes (fun n => eval cfg n t ctx) (failed o) := by
  obtain ⟨N, hN⟩ := prefix_budget before hb
  obtain ⟨M, hM⟩ := finishes_from (w := []) h
  have h1 := node_fails cfg (max N M) t ctx hc
  rw [ho] at h1
  have h2 := (mapM_prefix (f := fun q => evalRec cfg (max N M) q ctx [] >>= entryCheck t) (p := p) (after := after) (hN _ (by omega))).trans h1
  rw [hM _ (by omega)] at h2
  refine ⟨by cases o <;> simp [failed], max N M + 1, ?_⟩
  cases o with
  | some e => exact h2
  | none => exact h2

/-- **C97.** If the first part without a value never ends, the whole never ends. -/
theorem C97_divergence (cfg : Cfg) (t p : AST F) (before after : List (AST F)) (ctx : Context F) (hc : Callable ctx t)
    (ho : operands t = before ++ p :: after)
    (hb : ∀ q ∈ before, ∃ us, Finishes (fun n => eval cfg n q ctx) (.ok us) ∧ Allowed t us)
    (h : Diverges (fun n => eval cfg n p ctx)) : Diverges (fun n => eval cfg n t ctx) := by
  obtain ⟨N, hN⟩ := prefix_budget before hb
  intro n
  have h1 := node_fails cfg (max N n) t ctx hc
  rw [ho] at h1
  have h2 := (mapM_prefix (f := fun q => evalRec cfg (max N n) q ctx [] >>= entryCheck t) (p := p) (after := after) (hN _ (by omega))).trans h1
  have h3 : evalRec cfg (max N n) p ctx [] = .timeout := h _
  rw [h3] at h2
  by_contra hn
  have := (evalRec_le cfg (show n ≤ max N n + 1 by omega) t ctx []).eq_of_ne hn
  exact hn (this.trans h2)

/-- The failure `o` of `p` is its own: all its parts have values, or it is a call that is not possible, or an entry that is no number. -/
def Spec.Own (cfg : Cfg) (ctx : Context F) (p : AST F) (o : Option EvalError) : Prop :=
  (∀ q ∈ operands p, ∃ us, Finishes (fun n => eval cfg n q ctx) (.ok us)) ∨ ¬ Callable ctx p ∨
    (o = some .nonScalarInVector ∧ ∃ v, p = .vector v) ∨ (o = some .nonScalarInMatrix ∧ ∃ m, p = .matrix m)

theorem mapM_blame {ε α β : Type} {f : α → Out ε β} {l : List α} {o : Option ε} (h : l.mapM f = failed o) : ∃ q ∈ l, f q = failed o := by
  induction l with
  | nil => cases o <;> cases h
  | cons a l ih =>
    rw [List.mapM_cons] at h
    cases hf : f a with
    | ok b =>
      rw [hf, ok_bind] at h
      cases hl : l.mapM f with
      | ok bs => rw [hl] at h; cases o <;> cases h
      | err e =>
        rw [hl] at h
        cases o with
        | none => cases h
        | some e' =>
          cases h
          obtain ⟨q, hq, h⟩ := ih hl
          exact ⟨q, by simp [hq], h⟩
      | panic =>
        rw [hl] at h
        cases o with
        | none =>
          obtain ⟨q, hq, h⟩ := ih hl
          exact ⟨q, by simp [hq], h⟩
        | some e' => cases h
      | timeout => rw [hl] at h; cases o <;> cases h
    | err e => rw [hf] at h; exact ⟨a, by simp, by cases o <;> cases h; exact hf⟩
    | panic => rw [hf] at h; exact ⟨a, by simp, by cases o <;> cases h; exact hf⟩
    | timeout => rw [hf] at h; cases o <;> cases h

theorem blame (cfg : Cfg) (ctx : Context F) (o : Option EvalError) (t : AST F) : ∀ n, evalRec cfg n t ctx [] = failed o →
    ∃ p, (p = t ∨ Inside p t) ∧ Finishes (fun n => eval cfg n p ctx) (failed o) ∧ Own cfg ctx p o := by
  have hno : (failed o : Out EvalError (List (Value F))) ≠ .timeout := by cases o <;> simp [failed]
  have key : ∀ n, ∀ t, evalRec cfg n t ctx [] = failed o →
      ∃ p, (p = t ∨ Inside p t) ∧ Finishes (fun n => eval cfg n p ctx) (failed o) ∧ Own cfg ctx p o := by
    intro n
    induction n with
    | zero => intro t h; exact absurd h.symm hno
    | succ n ih =>
      intro t h
      by_cases hc : Callable ctx t
      · have hf := node_fails cfg n t ctx hc
        rw [h] at hf
        cases hx : (operands t).mapM fun q => evalRec cfg n q ctx [] >>= entryCheck t with
        | ok us =>
          refine ⟨t, Or.inl rfl, finishes_of hno h, Or.inl fun q hq => ?_⟩
          have := List.forall₂_iff_get.1 (mapM_eq_ok.1 hx)
          obtain ⟨i, hi, rfl⟩ := List.getElem_of_mem hq
          have h2 := this.2 i hi (by have := this.1; omega)
          obtain ⟨us, h3, _⟩ := bind_eq_ok.1 h2
          exact ⟨us, finishes_of (by simp) h3⟩
        | timeout => rw [hx] at hf; exact absurd hf hno
        | _ =>
          rw [hx] at hf
          have hx' : ((operands t).mapM fun q => evalRec cfg n q ctx [] >>= entryCheck t) = failed o := by
            rw [hx]
            cases o <;> cases hf <;> rfl
          obtain ⟨q, hq, hqf⟩ := mapM_blame hx'
          cases hv : evalRec cfg n q ctx [] with
          | ok us =>
            rw [hv, ok_bind] at hqf
            refine ⟨t, Or.inl rfl, finishes_of hno h, Or.inr (Or.inr ?_)⟩
            cases t with
            | vector v =>
              simp only [entryCheck] at hqf
              rcases allScalars_cases (F := F) .nonScalarInVector us with ⟨h1, _⟩ | ⟨⟨xs, h1⟩, _⟩
              · rw [h1] at hqf
                cases o <;> cases hqf
                exact Or.inl ⟨rfl, v, rfl⟩
              · rw [h1] at hqf
                cases o <;> cases hqf
            | matrix m =>
              simp only [entryCheck] at hqf
              rcases allScalars_cases (F := F) .nonScalarInMatrix us with ⟨h1, _⟩ | ⟨⟨xs, h1⟩, _⟩
              · rw [h1] at hqf
                cases o <;> cases hqf
                exact Or.inr ⟨rfl, m, rfl⟩
              · rw [h1] at hqf
                cases o <;> cases hqf
            | _ => cases o <;> cases hqf
          | timeout => rw [hv] at hqf; cases o <;> cases hqf
          | _ =>
            rw [hv] at hqf
            obtain ⟨p, hp, hp2⟩ := ih q (by rw [hv]; cases o <;> cases hqf <;> rfl)
            refine ⟨p, Or.inr ?_, hp2⟩
            rcases hp with rfl | hp
            · exact .direct hq
            · exact .deeper hp hq
      · exact ⟨t, Or.inl rfl, finishes_of hno h, Or.inr (Or.inl hc)⟩
  exact fun n h => key n t h

/-- **C97.** Every failure has its origin in a part (or the whole) whose own failure it is. -/
theorem C97_origin (cfg : Cfg) (t : AST F) (ctx : Context F) (o : Option EvalError) (h : Finishes (fun n => eval cfg n t ctx) (failed o)) :
    ∃ p, (p = t ∨ Inside p t) ∧ Finishes (fun n => eval cfg n p ctx) (failed o) ∧ Own cfg ctx p o := by
  obtain ⟨_, n, hn⟩ := h
  exact blame cfg ctx o t n hn

section
variable [UTable]

/-- **C97.** A text in which a variable is used that the context does not have is never evaluated to a value, whatever is done with the variable. -/
theorem C97_unknown_variable (cfg : Cfg) (text : Str) (t : AST F) (ht : parse cfg text = .ok t) (v : Str) (hv : Inside (.variable v) t)
    (ctx : Context F) (hctx : ∀ u ∈ ctx.vars, u.name ≠ v) (n : Nat) (vs : List (Value F)) : quickEval cfg n text ctx ≠ .ok vs := by
  intro h
  unfold quickEval at h
  rw [ht] at h
  have h1 : eval cfg n t ctx = .ok vs := by
    change (eval cfg n t ctx).mapErr QuickEvalError.evalError = .ok vs at h
    generalize eval cfg n t ctx = x at h ⊢
    cases x with
    | ok => cases h; rfl
    | _ => cases h
  obtain ⟨us, _, k, hk⟩ := C97_every_part cfg t _ ctx hv vs ⟨by simp, n, h1⟩
  obtain ⟨_, m, hm⟩ := (C21_missing cfg ctx v []).2.2 hctx
  have e1 := (evalRec_le cfg (show k ≤ max k m by omega) (.variable v) ctx []).eq_of_ne (by
    have : evalRec cfg k (.variable v) ctx [] = .ok us := hk
    rw [this]; simp)
  have e2 := (evalRec_le cfg (show m ≤ max k m by omega) (.variable v) ctx []).eq_of_ne (by
    have : evalRec cfg m (.variable v) ctx [] = .err (.noVariable v) := hm
    rw [this]; simp)
  have e3 : (Out.ok us : Out EvalError (List (Value F))) = .err (.noVariable v) := (hk.symm.trans e1).trans (e2.symm.trans hm)
  cases e3

end

/-- `[0*y,f(x)]` without `y`: the error of `y` is the error of the vector, and `f` is never looked up. -/
example (cfg : Cfg) (ctx : Context F) (h : ∀ u ∈ ctx.vars, u.name ≠ ['y']) (f : Str) (a : F) (args : List (AST F)) :
    Finishes (fun n => eval cfg n (.vector [.simple .mult (.scalar a) (.variable ['y']), .function f args]) ctx) (.err (.noVariable ['y'])) := by
  have h1 : Finishes (fun n => eval cfg n (.variable ['y']) ctx) (failed (some (.noVariable ['y']))) := (C21_missing cfg ctx ['y'] []).2.2 h
  have h2 := C97_first_failure cfg (.simple .mult (.scalar a) (.variable ['y'])) _ [.scalar a] [] ctx trivial rfl
    (fun q hq => by
      simp only [List.mem_singleton] at hq
      subst hq
      exact ⟨_, ⟨by simp, 1, rfl⟩, trivial⟩) _ h1
  exact C97_first_failure cfg (.vector [_, _]) _ [] [_] ctx trivial rfl (fun q hq => by cases hq) _ h2

/-- The origin of that error is `y` itself. -/
example (cfg : Cfg) (ctx : Context F) : Own cfg ctx (.variable ['y']) (some (.noVariable ['y'])) :=
  Or.inl fun q hq => by cases hq

end
end MUL
