import Verif.Model.Out
import Mathlib.Data.List.Forall2
/-!
# Lemmas about outcomes: the approximation order and the safety predicate
-/

namespace MUL
namespace Out

variable {ε α β : Type}

/-- `Le x y`: `y` is what `x` becomes when more steps are allowed. -/
def Le (x y : Out ε α) : Prop := x = .timeout ∨ x = y

theorem Le.refl (x : Out ε α) : Le x x := Or.inr rfl

theorem Le.trans {x y z : Out ε α} (h : Le x y) (h' : Le y z) : Le x z := by
  rcases h with rfl | rfl
  · exact Or.inl rfl
  · exact h'

theorem Le.eq_of_ne {x y : Out ε α} (h : Le x y) (hx : x ≠ .timeout) : x = y := by
  rcases h with rfl | rfl
  · exact absurd rfl hx
  · rfl

theorem Le.bind {x y : Out ε α} {f g : α → Out ε β} (h : Le x y) (h' : ∀ a, Le (f a) (g a)) :
    Le (x >>= f) (y >>= g) := by
  rcases h with rfl | rfl
  · exact Or.inl rfl
  · cases x with
    | ok a => exact h' a
    | err e => exact Le.refl _
    | panic => exact Le.refl _
    | timeout => exact Le.refl _

theorem Le.mapErr {ε' : Type} {x y : Out ε α} (f : ε → ε') (h : Le x y) :
    Le (x.mapErr f) (y.mapErr f) := by
  rcases h with rfl | rfl
  · exact Or.inl rfl
  · exact Le.refl _

theorem Le.mapM {f g : α → Out ε β} (l : List α) (h : ∀ a ∈ l, Le (f a) (g a)) :
    Le (l.mapM f) (l.mapM g) := by
  induction l with
  | nil => exact Le.refl _
  | cons a l ih =>
    simp only [List.mapM_cons]
    exact Le.bind (h a (by simp)) fun b =>
      Le.bind (ih fun a ha => h a (by simp [ha])) fun _ => Le.refl _

theorem Le.foldlM {f g : β → α → Out ε β} (l : List α) (h : ∀ b a, Le (f b a) (g b a)) (b : β) :
    Le (l.foldlM f b) (l.foldlM g b) := by
  induction l generalizing b with
  | nil => exact Le.refl _
  | cons a l ih =>
    simp only [List.foldlM_cons]
    exact Le.bind (h b a) fun b' => ih b'

/-- `Post np P x`: if `x` returns a value, the value satisfies `P`; and `x` is not a panic if `np`. -/
def Post (np : Prop) (P : α → Prop) : Out ε α → Prop
  | ok a => P a
  | err _ => True
  | panic => ¬ np
  | timeout => True

/-- `Safe P x`: `x` is not a panic, and if it returns a value, the value satisfies `P`. -/
abbrev Safe (P : α → Prop) (x : Out ε α) : Prop := Post True P x

variable {np : Prop}

@[simp] theorem post_ok (P : α → Prop) (a : α) : Post np P (.ok a : Out ε α) = P a := rfl
@[simp] theorem post_err (P : α → Prop) (e : ε) : Post np P (.err e : Out ε α) = True := rfl
@[simp] theorem post_panic (P : α → Prop) : Post np P (.panic : Out ε α) = ¬ np := rfl
@[simp] theorem post_timeout (P : α → Prop) : Post np P (.timeout : Out ε α) = True := rfl

theorem Post.mono {P Q : α → Prop} {x : Out ε α} (h : Post np P x) (hPQ : ∀ a, P a → Q a) : Post np Q x := by
  cases x <;> simp_all

theorem Post.bind {P : α → Prop} {Q : β → Prop} {x : Out ε α} {f : α → Out ε β}
    (h : Post np P x) (h' : ∀ a, P a → Post np Q (f a)) : Post np Q (x >>= f) := by
  cases x <;> simp_all

/-- Variant of `Post.bind` that also remembers where the value comes from. -/
theorem Post.bind' {P : α → Prop} {Q : β → Prop} {x : Out ε α} {f : α → Out ε β}
    (h : Post np P x) (h' : ∀ a, x = .ok a → P a → Post np Q (f a)) : Post np Q (x >>= f) := by
  cases x <;> simp_all

theorem Post.mapErr {ε' : Type} {P : α → Prop} {x : Out ε α} (f : ε → ε') (h : Post np P x) :
    Post np P (x.mapErr f) := by
  cases x <;> simp_all [Out.mapErr]

theorem Post.mapM {P : β → Prop} {f : α → Out ε β} (l : List α)
    (h : ∀ a ∈ l, Post np P (f a)) :
    Post np (fun r => r.length = l.length ∧ ∀ b ∈ r, P b) (l.mapM f) := by
  induction l with
  | nil => simp [List.mapM_nil]
  | cons a l ih =>
    simp only [List.mapM_cons]
    refine Post.bind (h a (by simp)) fun b hb => ?_
    refine Post.bind (ih fun a ha => h a (by simp [ha])) fun r hr => ?_
    simp [hr.1, hb]
    exact hr.2

theorem Post.foldlM {P : β → Prop} {f : β → α → Out ε β} (l : List α)
    (h : ∀ b, P b → ∀ a ∈ l, Post np P (f b a)) (b : β) (hb : P b) : Post np P (l.foldlM f b) := by
  induction l generalizing b with
  | nil => simpa using hb
  | cons a l ih =>
    simp only [List.foldlM_cons]
    exact Post.bind (h b hb a (by simp)) fun b' hb' => ih (fun b hb a ha => h b hb a (by simp [ha])) b' hb'

theorem Post.and {P Q : α → Prop} {x : Out ε α} (h : Post np P x) (h' : Post np Q x) :
    Post np (fun a => P a ∧ Q a) x := by
  cases x <;> simp_all

theorem Post.of_ok {P : α → Prop} {x : Out ε α} {a : α} (h : Post np P x) (h' : x = .ok a) : P a := by
  subst h'; exact h

theorem Safe.ne_panic {P : α → Prop} {x : Out ε α} (h : Safe P x) : x ≠ .panic := by
  rintro rfl; exact h trivial

theorem bind_eq_ok {x : Out ε α} {f : α → Out ε β} {b : β} :
    (x >>= f) = .ok b ↔ ∃ a, x = .ok a ∧ f a = .ok b := by
  cases x <;> simp

theorem bind_eq_err {x : Out ε α} {f : α → Out ε β} {e : ε} :
    (x >>= f) = .err e ↔ x = .err e ∨ ∃ a, x = .ok a ∧ f a = .err e := by
  cases x <;> simp

theorem bind_eq_panic {x : Out ε α} {f : α → Out ε β} :
    (x >>= f) = .panic ↔ x = .panic ∨ ∃ a, x = .ok a ∧ f a = .panic := by
  cases x <;> simp

theorem bind_eq_timeout {x : Out ε α} {f : α → Out ε β} :
    (x >>= f) = .timeout ↔ x = .timeout ∨ ∃ a, x = .ok a ∧ f a = .timeout := by
  cases x <;> simp

theorem mapErr_eq_ok {ε' : Type} {x : Out ε α} {f : ε → ε'} {a : α} :
    x.mapErr f = .ok a ↔ x = .ok a := by
  cases x <;> simp [Out.mapErr]

@[simp] theorem mapErr_ok {ε' : Type} (f : ε → ε') (a : α) : (.ok a : Out ε α).mapErr f = .ok a := rfl
@[simp] theorem mapErr_err {ε' : Type} (f : ε → ε') (e : ε) :
    (.err e : Out ε α).mapErr f = .err (f e) := rfl
@[simp] theorem mapErr_panic {ε' : Type} (f : ε → ε') : (.panic : Out ε α).mapErr f = .panic := rfl
@[simp] theorem mapErr_timeout {ε' : Type} (f : ε → ε') :
    (.timeout : Out ε α).mapErr f = .timeout := rfl

theorem mapM_eq_ok {f : α → Out ε β} {l : List α} {r : List β} :
    l.mapM f = .ok r ↔ List.Forall₂ (fun a b => f a = .ok b) l r := by
  induction l generalizing r with
  | nil =>
    simp only [List.mapM_nil, pure_eq]
    constructor
    · intro h; cases h; exact .nil
    · intro h; cases h; rfl
  | cons a l ih =>
    simp only [List.mapM_cons]
    constructor
    · intro h
      obtain ⟨b, hb, h⟩ := bind_eq_ok.1 h
      obtain ⟨bs, hbs, h⟩ := bind_eq_ok.1 h
      cases h
      exact .cons hb (ih.1 hbs)
    · intro h
      cases h with
      | cons hb hbs => rw [hb, ok_bind, ih.2 hbs]; rfl

theorem mapM_ok_of_forall {f : α → Out ε β} {g : α → β} {l : List α}
    (h : ∀ a ∈ l, f a = .ok (g a)) : l.mapM f = .ok (l.map g) := by
  induction l with
  | nil => rfl
  | cons a l ih =>
    simp only [List.mapM_cons, List.map_cons]
    rw [h a (by simp), ok_bind, ih fun a ha => h a (by simp [ha])]
    rfl

theorem mapM_congr {f g : α → Out ε β} {l : List α} (h : ∀ a ∈ l, f a = g a) :
    l.mapM f = l.mapM g := by
  induction l with
  | nil => rfl
  | cons a l ih =>
    simp only [List.mapM_cons]
    rw [h a (by simp), ih fun a ha => h a (by simp [ha])]

theorem foldlM_ok_of_forall {f : β → α → Out ε β} {g : β → α → β} {l : List α} (b : β)
    (h : ∀ b, ∀ a ∈ l, f b a = .ok (g b a)) : l.foldlM f b = .ok (l.foldl g b) := by
  induction l generalizing b with
  | nil => rfl
  | cons a l ih =>
    simp only [List.foldlM_cons, List.foldl_cons]
    rw [h b a (by simp), ok_bind, ih _ fun b a ha => h b a (by simp [ha])]

/-- The first outcome that is not a value decides a `mapM`. -/
theorem mapM_fail {f : α → Out ε β} {l₁ l₂ : List α} {a : α} {r : List β} {x : Out ε (List β)}
    (h₁ : l₁.mapM f = .ok r) (h : (f a >>= fun _ => (.ok [] : Out ε (List β))) = x)
    (hx : ∀ b, f a ≠ .ok b) : (l₁ ++ a :: l₂).mapM f = x := by
  induction l₁ generalizing r with
  | nil =>
    simp only [List.nil_append, List.mapM_cons]
    cases hfa : f a with
    | ok b => exact absurd hfa (hx b)
    | err e => rw [hfa] at h; exact h
    | panic => rw [hfa] at h; exact h
    | timeout => rw [hfa] at h; exact h
  | cons c l₁ ih =>
    simp only [List.mapM_cons] at h₁
    obtain ⟨b, hb, h₁⟩ := bind_eq_ok.1 h₁
    obtain ⟨bs, hbs, h₁⟩ := bind_eq_ok.1 h₁
    simp only [List.cons_append, List.mapM_cons]
    rw [hb, ok_bind, ih hbs]
    subst h
    cases hfa : f a with
    | ok b => exact absurd hfa (hx b)
    | err e => rfl
    | panic => rfl
    | timeout => rfl

theorem unwrap_post {P : α → Prop} {o : Option α} (h : ∃ a, o = some a ∧ P a) :
    Post np P (unwrap o : Out ε α) := by
  obtain ⟨a, rfl, ha⟩ := h
  exact ha

end Out

theorem idx_eq_ok {ε α : Type} {l : List α} {i : Nat} {a : α} :
    (idx l i : Out ε α) = .ok a ↔ l[i]? = some a := by
  unfold idx Out.unwrap
  cases l[i]? <;> simp

theorem idx_lt {ε α : Type} {l : List α} {i : Nat} (h : i < l.length) :
    (idx l i : Out ε α) = .ok l[i] := by
  rw [idx_eq_ok]; simp [h]

theorem idx_ge {ε α : Type} {l : List α} {i : Nat} (h : l.length ≤ i) :
    (idx l i : Out ε α) = .panic := by
  simp [idx, Out.unwrap, h]

theorem idx_post {ε α : Type} {np : Prop} {P : α → Prop} {l : List α} {i : Nat} (h : i < l.length)
    (hP : P l[i]) : Out.Post np P (idx l i : Out ε α) := by
  rw [idx_lt h]; exact hP

theorem slice_ok {ε α : Type} {l : List α} {a b : Nat} (h : a ≤ b) (h' : b ≤ l.length) :
    (slice l a b : Out ε (List α)) = .ok ((l.take b).drop a) := by
  simp [slice, h, h']

theorem slice_eq_ok {ε α : Type} {l r : List α} {a b : Nat} :
    (slice l a b : Out ε (List α)) = .ok r ↔ a ≤ b ∧ b ≤ l.length ∧ r = (l.take b).drop a := by
  unfold slice
  split
  · rename_i h; simp [h.1, h.2, eq_comm]
  · rename_i h
    constructor
    · intro h'; cases h'
    · intro ⟨h1, h2, _⟩; exact absurd ⟨h1, h2⟩ h

end MUL

namespace MUL.Out

theorem bind_congr {ε α β : Type} {x : Out ε α} {f g : α → Out ε β}
    (h : ∀ a, x = .ok a → f a = g a) : (x >>= f) = (x >>= g) := by
  cases x with
  | ok a => exact h a rfl
  | err e => rfl
  | panic => rfl
  | timeout => rfl

/-- `Term x`: the outcome is not a timeout. -/
def Term {ε α : Type} (x : Out ε α) : Prop := x ≠ .timeout

theorem Term.bind {ε α β : Type} {x : Out ε α} {f : α → Out ε β} (h : Term x)
    (h' : ∀ a, x = .ok a → Term (f a)) : Term (x >>= f) := by
  cases x with
  | ok a => exact h' a rfl
  | err e => intro h; cases h
  | panic => intro h; cases h
  | timeout => exact absurd rfl h

theorem Term.mapM {ε α β : Type} {f : α → Out ε β} (l : List α) (h : ∀ a ∈ l, Term (f a)) :
    Term (l.mapM f) := by
  induction l with
  | nil => intro h; cases h
  | cons a l ih =>
    simp only [List.mapM_cons]
    refine Term.bind (h a (by simp)) fun b _ => ?_
    refine Term.bind (ih fun a ha => h a (by simp [ha])) fun _ _ => ?_
    intro h; cases h

theorem term_ok {ε α : Type} (a : α) : Term (.ok a : Out ε α) := by intro h; cases h
theorem term_err {ε α : Type} (e : ε) : Term (.err e : Out ε α) := by intro h; cases h
theorem term_panic {ε α : Type} : Term (.panic : Out ε α) := by intro h; cases h

end MUL.Out

namespace MUL

theorem idx_term {ε α : Type} (l : List α) (i : Nat) : Out.Term (idx l i : Out ε α) := by
  unfold idx Out.unwrap
  cases l[i]? <;> (intro h; cases h)

theorem unwrap_term {ε α : Type} (o : Option α) : Out.Term (Out.unwrap o : Out ε α) := by
  cases o <;> (intro h; cases h)

theorem slice_term {ε α : Type} (l : List α) (a b : Nat) : Out.Term (slice l a b : Out ε (List α)) := by
  unfold slice
  split <;> (intro h; cases h)

end MUL
