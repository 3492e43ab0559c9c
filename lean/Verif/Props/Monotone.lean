import Verif.Spec.Monotone
import Verif.Props.FloatMonotone
import Verif.Props.Rewrite
import Verif.Props.SidesAnywhere
import Verif.Num.Tens
/-!
# C110: rounding keeps the order
-/

set_option linter.unusedSectionVars false

namespace MUL
open Out FArith FElem Spec

namespace Ext

/-- The value without the sign of zero. -/
def plain : Ext ℚ → Ext ℚ
  | .negZero => .fin 0
  | a => a

theorem lt_plain (a b : Ext ℚ) : Ext.lt a b = Ext.lt (plain a) (plain b) := by
  cases a <;> cases b <;> rfl

theorem add_plain (a b c : Ext ℚ) : Ext.lt (Ext.add a b) c = Ext.lt (Ext.add (plain a) (plain b)) c ∧ Ext.lt c (Ext.add a b) = Ext.lt c (Ext.add (plain a) (plain b)) := by
  cases a <;> cases b <;> simp [plain, Ext.add, Ext.value] <;> cases c <;> simp [Ext.lt, Ext.value]

theorem add_both {a b c d : Ext ℚ} (h : Ext.lt (Ext.add b d) (Ext.add a c) = true) : Ext.lt b a = true ∨ Ext.lt d c = true := by
  rw [(add_plain b d _).1, (add_plain a c _).2] at h
  rw [lt_plain b a, lt_plain d c]
  revert h
  have np : ∀ e : Ext ℚ, (∃ x, plain e = .fin x) ∨ (∃ s, plain e = .inf s) ∨ plain e = .nan := by
    intro e
    cases e with
    | fin x => exact Or.inl ⟨x, rfl⟩
    | negZero => exact Or.inl ⟨0, rfl⟩
    | inf s => exact Or.inr (Or.inl ⟨s, rfl⟩)
    | nan => exact Or.inr (Or.inr rfl)
  rcases np a with ⟨x, ha⟩ | ⟨s, ha⟩ | ha <;> rcases np b with ⟨y, hb⟩ | ⟨t, hb⟩ | hb <;> rcases np c with ⟨z, hc⟩ | ⟨s', hc⟩ | hc <;>
    rcases np d with ⟨w, hd⟩ | ⟨t', hd⟩ | hd <;> rw [ha, hb, hc, hd] <;> (try cases s) <;> (try cases t) <;> (try cases s') <;> (try cases t') <;>
    simp [Ext.add, Ext.lt, Ext.value]
  intro h
  by_contra hn
  push Not at hn
  linarith [hn.1, hn.2]

theorem mul_mono_nonneg {a b c : Ext ℚ} (hc : Ext.lt c (.fin 0) = false) (h : Ext.lt (Ext.mul b c) (Ext.mul a c) = true) : Ext.lt b a = true := by
  by_cases hp : Ext.lt (.fin 0) c = true
  · exact mul_mono_pos hp h
  · exfalso
    have hz : c = .fin 0 ∨ c = .negZero ∨ c = .nan := by
      rcases c with z | _ | (_ | _) | _
      · have h1 : ¬ z < 0 := by simpa [Ext.lt, Ext.value] using hc
        have h2 : ¬ 0 < z := by simpa [Ext.lt, Ext.value] using hp
        exact Or.inl (by rw [le_antisymm (not_lt.1 h2) (not_lt.1 h1)])
      · exact Or.inr (Or.inl rfl)
      · exact absurd rfl hp
      · cases hc
      · exact Or.inr (Or.inr rfl)
    have : ∀ e : Ext ℚ, (∃ s, Ext.mul e c = Ext.mk 0 s) ∨ Ext.mul e c = .nan := by
      intro e
      rcases hz with rfl | rfl | rfl <;> rcases e with z | _ | (_ | _) | _ <;> simp [Ext.mul, Ext.value]
    rcases this b with ⟨s, hb⟩ | hb <;> rcases this a with ⟨t, ha⟩ | ha <;> rw [hb, ha] at h <;>
      first | (rw [lt_mk_left, lt_mk_right] at h; simp [Ext.lt, Ext.value] at h) | (rw [lt_mk_left] at h; simp [Ext.lt] at h) | (simp [Ext.lt] at h)

theorem sub_neg_iff {a b : Ext ℚ} (h : Ext.lt (Ext.sub a b) (.fin 0) = true) : Ext.lt a b = true := by
  unfold Ext.sub at h
  rw [(add_plain _ _ _).1] at h
  rw [lt_plain a b]
  have hp : plain (Ext.neg b) = plain (Ext.neg (plain b)) := by
    rcases b with y | _ | (_ | _) | _
    · rfl
    · simp [plain, Ext.neg, Ext.mk]
    all_goals rfl
  rw [hp] at h
  have np : ∀ e : Ext ℚ, (∃ x, plain e = .fin x) ∨ (∃ s, plain e = .inf s) ∨ plain e = .nan := by
    intro e
    cases e with
    | fin x => exact Or.inl ⟨x, rfl⟩
    | negZero => exact Or.inl ⟨0, rfl⟩
    | inf s => exact Or.inr (Or.inl ⟨s, rfl⟩)
    | nan => exact Or.inr (Or.inr rfl)
  have nn : ∀ y : ℚ, plain (Ext.neg (.fin y)) = .fin (-y) := by
    intro y
    by_cases hy : y = 0
    · subst hy
      simp [Ext.neg, Ext.mk, plain]
    · simp [Ext.neg, Ext.mk, hy, plain]
  revert h
  rcases np a with ⟨x, ha⟩ | ⟨s, ha⟩ | ha <;> rcases np b with ⟨y, hb⟩ | ⟨t, hb⟩ | hb <;> rw [ha, hb] <;> (try cases s) <;> (try cases t) <;>
    (try rw [nn]) <;> simp [Ext.add, Ext.lt, Ext.value, Ext.neg, plain]

theorem lt_irrefl' (a : Ext ℚ) : Ext.lt a a = false := by
  rcases a with x | _ | (_ | _) | _ <;> simp [Ext.lt, Ext.value]

end Ext

section
variable {F : Type} [FNum F] [Binary64 F] {cfg : Cfg}

theorem lt_irrefl_f (a : F) : FArith.lt a a = false := by rw [Binary64.bits_lt]; exact Ext.lt_irrefl' _

/-- `a ≤ b` in the sense that `b` is not below `a`; turned around if not rising. -/
def notBelow (d : Bool) (a b : F) : Bool := !(if d then FArith.lt b a else FArith.lt a b)

theorem add_order {d : Bool} {a b x y : F} (h : (if d then FArith.lt b a else FArith.lt a b) = false) (h' : (if d then FArith.lt y x else FArith.lt x y) = false) :
    (if d then FArith.lt (FArith.add b y) (FArith.add a x) else FArith.lt (FArith.add a x) (FArith.add b y)) = false := by
  have key : ∀ {a b x y : F}, FArith.lt b a = false → FArith.lt y x = false → FArith.lt (FArith.add b y) (FArith.add a x) = false := by
    intro a b x y h h'
    by_contra hn
    rw [Bool.not_eq_false, Binary64.bits_lt, Binary64.bits_add, Binary64.bits_add] at hn
    rw [Binary64.bits_lt] at h h'
    rcases Ext.add_both (F64.rnd_mono hn) with h1 | h1
    · exact absurd (h1.symm.trans h) (by decide)
    · exact absurd (h1.symm.trans h') (by decide)
  cases d
  · exact key h h'
  · exact key h h'

theorem neg_order {d : Bool} {a b : F} (h : (if d then FArith.lt b a else FArith.lt a b) = false) :
    (if !d then FArith.lt (FArith.mul (FArith.ofInt (-1)) b) (FArith.mul (FArith.ofInt (-1)) a)
      else FArith.lt (FArith.mul (FArith.ofInt (-1)) a) (FArith.mul (FArith.ofInt (-1)) b)) = false := by
  have key : ∀ a b : F, FArith.lt (FArith.mul (FArith.ofInt (-1)) a) (FArith.mul (FArith.ofInt (-1)) b) = FArith.lt b a := by
    intro a b
    rw [(C72_negated a).1, (C72_negated b).1, Binary64.bits_lt (FArith.neg a), Binary64.bits_lt b, Binary64.bits_neg, Binary64.bits_neg]
    exact Ext.neg_anti _ _
  cases d
  · simpa [key] using h
  · simpa [key] using h

theorem mul_order {d : Bool} {a b c : F} (hc : FArith.lt c (FArith.ofInt 0) = false) (h : (if d then FArith.lt b a else FArith.lt a b) = false) :
    (if d then FArith.lt (FArith.mul b c) (FArith.mul a c) else FArith.lt (FArith.mul a c) (FArith.mul b c)) = false := by
  have h0 : Binary64.bits (FArith.ofInt 0 : F) = ⟨.fin 0⟩ := by simpa using bits_whole (F := F) 0 (by norm_num)
  rw [Binary64.bits_lt, h0] at hc
  have key : ∀ {a b : F}, FArith.lt b a = false → FArith.lt (FArith.mul b c) (FArith.mul a c) = false := by
    intro a b h
    by_contra hn
    rw [Bool.not_eq_false, Binary64.bits_lt, Binary64.bits_mul, Binary64.bits_mul] at hn
    rw [Binary64.bits_lt] at h
    exact absurd ((Ext.mul_mono_nonneg hc (F64.rnd_mono hn)).symm.trans h) (by decide)
  cases d
  · exact key h
  · exact key h

theorem div_order {d : Bool} {a b c : F} (hc : FArith.lt (FArith.ofInt 0) c = true) (h : (if d then FArith.lt b a else FArith.lt a b) = false) :
    (if d then FArith.lt (FArith.div b c) (FArith.div a c) else FArith.lt (FArith.div a c) (FArith.div b c)) = false := by
  have h0 : Binary64.bits (FArith.ofInt 0 : F) = ⟨.fin 0⟩ := by simpa using bits_whole (F := F) 0 (by norm_num)
  rw [Binary64.bits_lt, h0] at hc
  have key : ∀ {a b : F}, FArith.lt b a = false → FArith.lt (FArith.div b c) (FArith.div a c) = false := by
    intro a b h
    by_contra hn
    rw [Bool.not_eq_false, Binary64.bits_lt, Binary64.bits_div, Binary64.bits_div] at hn
    rw [Binary64.bits_lt] at h
    exact absurd ((Ext.div_mono_pos hc (F64.rnd_mono hn)).symm.trans h) (by decide)
  cases d
  · exact key h
  · exact key h

theorem lt_asymm_f {a b : F} (h : FArith.lt a b = true) : FArith.lt b a = false := by
  rw [Binary64.bits_lt] at h ⊢
  exact Ext.lt_asymm' h

/-! ## Values -/

theorem inOrder_refl (d : Bool) (v : Value F) : InOrder d v v := Or.inl rfl

theorem inOrder_scalar {d : Bool} {v : Value F} {a : F} (h : InOrder d (.scalar a) v) :
    ∃ b, v = .scalar b ∧ (if d then FArith.lt b a else FArith.lt a b) = false := by
  rcases h with rfl | ⟨x, y, h1, h3, h2⟩
  · refine ⟨a, rfl, ?_⟩
    cases d <;> simp [lt_irrefl_f]
  · cases h1
    exact ⟨y, h3, h2⟩

theorem inOrder_cases {d : Bool} {v w : Value F} (h : InOrder d v w) :
    (∃ a b, v = .scalar a ∧ w = .scalar b ∧ (if d then FArith.lt b a else FArith.lt a b) = false) ∨ ((∀ a, v ≠ .scalar a) ∧ v = w) := by
  cases v with
  | scalar a =>
    obtain ⟨b, rfl, h⟩ := inOrder_scalar h
    exact Or.inl ⟨a, b, rfl, rfl, by assumption⟩
  | vector a =>
    rcases h with rfl | ⟨x, y, h1, _⟩
    · exact Or.inr ⟨nofun, rfl⟩
    · cases h1
  | matrix a =>
    rcases h with rfl | ⟨x, y, h1, _⟩
    · exact Or.inr ⟨nofun, rfl⟩
    · cases h1

theorem vAdd_order {d : Bool} {v v' w w' r r' : Value F} (h : InOrder d v v') (h' : InOrder d w w') (hr : vAdd v w = .ok r) (hr' : vAdd v' w' = .ok r') :
    InOrder d r r' := by
  rcases inOrder_cases h with ⟨a, b, rfl, rfl, h1⟩ | ⟨hn, rfl⟩
  · rcases inOrder_cases h' with ⟨x, y, rfl, rfl, h2⟩ | ⟨hn, rfl⟩
    · cases hr
      cases hr'
      exact Or.inr ⟨_, _, rfl, rfl, add_order h1 h2⟩
    · cases w <;> first | exact absurd rfl (hn _) | cases hr
  · rcases inOrder_cases h' with ⟨x, y, rfl, rfl, h2⟩ | ⟨hn', rfl⟩
    · cases v <;> first | exact absurd rfl (hn _) | cases hr
    · rw [hr] at hr'
      cases hr'
      exact inOrder_refl _ _

theorem negated_order {d : Bool} {v w : Value F} (h : InOrder d v w) : InOrder (!d) (negated v) (negated w) := by
  rcases inOrder_cases h with ⟨a, b, rfl, rfl, h1⟩ | ⟨_, rfl⟩
  · exact Or.inr ⟨_, _, rfl, rfl, neg_order h1⟩
  · exact inOrder_refl _ _

theorem vMult_order {d : Bool} {v w r r' : Value F} {c : F} (hc : FArith.lt c (FArith.ofInt 0) = false) (h : InOrder d v w)
    (hr : vMult v (.scalar c) = .ok r) (hr' : vMult w (.scalar c) = .ok r') : InOrder d r r' := by
  rcases inOrder_cases h with ⟨a, b, rfl, rfl, h1⟩ | ⟨_, rfl⟩
  · cases hr
    cases hr'
    exact Or.inr ⟨_, _, rfl, rfl, mul_order hc h1⟩
  · rw [hr] at hr'
    cases hr'
    exact inOrder_refl _ _

theorem vDiv_order {d : Bool} {v w r r' : Value F} {c : F} (hc : FArith.lt (FArith.ofInt 0) c = true) (h : InOrder d v w)
    (hr : vDiv v (.scalar c) = .ok r) (hr' : vDiv w (.scalar c) = .ok r') : InOrder d r r' := by
  rcases inOrder_cases h with ⟨a, b, rfl, rfl, h1⟩ | ⟨_, rfl⟩
  · cases hr
    cases hr'
    exact Or.inr ⟨_, _, rfl, rfl, div_order hc h1⟩
  · rw [hr] at hr'
    cases hr'
    exact inOrder_refl _ _

/-! ## Lists of values -/

theorem mapM_related {ε α β : Type} {R : α → α → Prop} {S : β → β → Prop} {f g : α → Out ε β} {l l' : List α} {z z' : List β}
    (hl : List.Forall₂ R l l') (h : ∀ a a' b b', R a a' → f a = .ok b → g a' = .ok b' → S b b') (hz : l.mapM f = .ok z) (hz' : l'.mapM g = .ok z') :
    List.Forall₂ S z z' := by
  have h1 := mapM_eq_ok.1 hz
  have h2 := mapM_eq_ok.1 hz'
  induction hl generalizing z z' with
  | nil =>
    cases h1
    cases h2
    exact .nil
  | cons ha _ ih =>
    cases h1 with
    | cons hb h1 =>
      cases h2 with
      | cons hb' h2 => exact .cons (h _ _ _ _ ha hb hb') (ih (mapM_eq_ok.2 h1) (mapM_eq_ok.2 h2) h1 h2)

theorem applyAll_order {op : SimpleOp} {R S T : Value F → Value F → Prop}
    (h : ∀ i i' j j' rs rs', R i i' → S j j' → applyOp op i j = .ok rs → applyOp op i' j' = .ok rs' → List.Forall₂ T rs rs')
    {lv lv' rv rv' vs ws : List (Value F)} (hl : List.Forall₂ R lv lv') (hr : List.Forall₂ S rv rv')
    (hv : applyAll op lv rv = .ok vs) (hw : applyAll op lv' rv' = .ok ws) : List.Forall₂ T vs ws := by
  unfold applyAll at hv hw
  obtain ⟨z, hz, hv⟩ := bind_eq_ok.1 hv
  obtain ⟨z', hz', hw⟩ := bind_eq_ok.1 hw
  cases hv
  cases hw
  refine List.rel_flatten (mapM_related hl (S := List.Forall₂ T) ?_ hz hz')
  intro i i' b b' hi hb hb'
  obtain ⟨r, hr1, hb⟩ := bind_eq_ok.1 hb
  obtain ⟨r', hr1', hb'⟩ := bind_eq_ok.1 hb'
  cases hb
  cases hb'
  exact List.rel_flatten (mapM_related hr (fun j j' rs rs' hj => h i i' j j' rs rs' hi hj) hr1 hr1')

theorem one_ok {x : Out String (Value F)} {rs : List (Value F)} (h : (liftMath x >>= fun v => (.ok [v] : Out EvalError (List (Value F)))) = .ok rs) :
    ∃ v, x = .ok v ∧ rs = [v] := by
  obtain ⟨v, h1, h⟩ := bind_eq_ok.1 h
  cases h
  exact ⟨v, mapErr_eq_ok.1 h1, rfl⟩

theorem one_order {d : Bool} {x x' : Out String (Value F)} {rs rs' : List (Value F)} (h : ∀ v v', x = .ok v → x' = .ok v' → InOrder d v v')
    (hr : (liftMath x >>= fun v => (.ok [v] : Out EvalError (List (Value F)))) = .ok rs)
    (hr' : (liftMath x' >>= fun v => (.ok [v] : Out EvalError (List (Value F)))) = .ok rs') : List.Forall₂ (InOrder d) rs rs' := by
  obtain ⟨v, h1, rfl⟩ := one_ok hr
  obtain ⟨v', h1', rfl⟩ := one_ok hr'
  exact .cons (h v v' h1 h1') .nil

theorem inOrder_all (d : Bool) (vs : List (Value F)) : List.Forall₂ (InOrder d) vs vs := List.forall₂_same.2 fun v _ => inOrder_refl d v

/-! ## Contexts -/

variable {X : Str → Prop}

theorem raised_findVar {c c' : Context F} (h : Raised X c c') (y : Str) : (∀ vs ws, c.findVar y = some vs → c'.findVar y = some ws → List.Forall₂ (InOrder true) vs ws) ∧
    (¬ X y → c.findVar y = c'.findVar y) := by
  obtain ⟨hf, h⟩ := h
  unfold Context.findVar
  revert h
  generalize c.vars = l
  generalize c'.vars = l'
  intro h
  induction h with
  | nil => exact ⟨nofun, fun _ => rfl⟩
  | @cons p q l l' hpq _ ih =>
    obtain ⟨hn, ho, he⟩ := hpq
    by_cases hy : p.name = y
    · have h1 : (p.name == y) = true := by simpa using hy
      have h2 : (q.name == y) = true := by simpa using hn ▸ hy
      rw [List.find?_cons_of_pos (p := fun w : Variable F => w.name == y) h1, List.find?_cons_of_pos (p := fun w : Variable F => w.name == y) h2]
      refine ⟨?_, fun hx => congrArg some (he (hy ▸ hx))⟩
      intro vs ws hvs hws
      cases hvs
      cases hws
      exact ho
    · have h1 : ¬ (p.name == y) = true := by simpa using hy
      have h2 : ¬ (q.name == y) = true := by simpa using hn ▸ hy
      rw [List.find?_cons_of_neg (p := fun w : Variable F => w.name == y) h1, List.find?_cons_of_neg (p := fun w : Variable F => w.name == y) h2]
      exact ih

theorem eval_without {e : AST F} (he : Without X e) {c c' : Context F} (h : Raised X c c') (n : Nat) : eval cfg n e c = eval cfg n e c' := by
  induction he generalizing n with
  | number s => cases n <;> simp only [eval, evalRec]
  | «variable» y hy =>
    cases n with
    | zero => rfl
    | succ n => simp only [eval, evalRec, (raised_findVar h y).2 hy]
  | operation op l r _ _ ihl ihr =>
    cases n with
    | zero => rfl
    | succ n => rw [eval_simple, eval_simple, ihl n, ihr n]

theorem eval_same_ok {e : AST F} {c : Context F} {n m : Nat} {vs ws : List (Value F)} (h : eval cfg n e c = .ok vs) (h' : eval cfg m e c = .ok ws) : vs = ws := by
  have h1 := eval_more (Nat.le_max_left n m) h
  rw [eval_more (Nat.le_max_right n m) h'] at h1
  cases h1
  rfl

/-- Removing a variable and adding the same one. -/
theorem raised_set {c c' : Context F} (h : Raised X c c') (x : Str) (p : F) :
    Raised X ⟨eraseFirstVar c.vars x ++ [⟨x, [.scalar p]⟩], c.funs⟩ ⟨eraseFirstVar c'.vars x ++ [⟨x, [.scalar p]⟩], c'.funs⟩ := by
  obtain ⟨hf, h⟩ := h
  refine ⟨hf, ?_⟩
  show List.Forall₂ _ (eraseFirstVar c.vars x ++ [⟨x, [.scalar p]⟩]) (eraseFirstVar c'.vars x ++ [⟨x, [.scalar p]⟩])
  unfold eraseFirstVar
  revert h
  generalize c.vars = l
  generalize c'.vars = l'
  intro h
  induction h with
  | nil => exact .cons ⟨rfl, inOrder_all _ _, fun _ => rfl⟩ .nil
  | @cons a b l l' hab hl ih =>
    by_cases hy : a.name = x
    · have h1 : (a.name == x) = true := by simpa using hy
      have h2 : (b.name == x) = true := by simpa using hab.1 ▸ hy
      rw [List.eraseP_cons_of_pos (p := fun w : Variable F => w.name == x) h1, List.eraseP_cons_of_pos (p := fun w : Variable F => w.name == x) h2]
      exact List.rel_append hl (.cons ⟨rfl, inOrder_all _ _, fun _ => rfl⟩ .nil)
    · have h1 : ¬ (a.name == x) = true := by simpa using hy
      have h2 : ¬ (b.name == x) = true := by simpa using hab.1 ▸ hy
      rw [List.eraseP_cons_of_neg (p := fun w : Variable F => w.name == x) h1, List.eraseP_cons_of_neg (p := fun w : Variable F => w.name == x) h2]
      exact .cons hab ih

/-! ## Integrals -/

theorem accumulate_order {d : Bool} {ss ss' es es' rs rs' : List (Value F)} (hs : List.Forall₂ (InOrder d) ss ss') (he : List.Forall₂ (InOrder d) es es')
    (h : accumulate ss es = .ok rs) (h' : accumulate ss' es' = .ok rs') : List.Forall₂ (InOrder d) rs rs' := by
  induction he generalizing ss ss' rs rs' with
  | nil =>
    cases hs with
    | nil =>
      cases h
      cases h'
      exact .nil
    | cons h1 h2 =>
      cases h
      cases h'
      exact .cons h1 h2
  | cons h1 _ ih =>
    cases hs with
    | nil =>
      obtain ⟨r, h2, h⟩ := bind_eq_ok.1 h
      obtain ⟨r', h2', h'⟩ := bind_eq_ok.1 h'
      cases h
      cases h'
      exact .cons h1 (ih .nil h2 h2')
    | cons h3 h4 =>
      obtain ⟨s, h5, h⟩ := bind_eq_ok.1 h
      obtain ⟨s', h5', h'⟩ := bind_eq_ok.1 h'
      obtain ⟨r, h2, h⟩ := bind_eq_ok.1 h
      obtain ⟨r', h2', h'⟩ := bind_eq_ok.1 h'
      cases h
      cases h'
      exact .cons (vAdd_order h3 h1 (mapErr_eq_ok.1 h5) (mapErr_eq_ok.1 h5')) (ih h4 h2 h2')

theorem integralLoop_order {d : Bool} {ev ev' : Evaluator F} {e : AST F} {x : Str} {l l' : List (Variable F)} {fs fs' : List (Function F)} {ub dx : F}
    (hev : ∀ p vs ws, ev e ⟨l ++ [⟨x, [.scalar p]⟩], fs⟩ = .ok vs → ev' e ⟨l' ++ [⟨x, [.scalar p]⟩], fs'⟩ = .ok ws → List.Forall₂ (InOrder d) vs ws)
    {n m : Nat} {b : F} {ss ss' rs rs' : List (Value F)} (hs : List.Forall₂ (InOrder d) ss ss')
    (h : integralLoop ev e x l fs ub dx n b ss = .ok rs) (h' : integralLoop ev' e x l' fs' ub dx m b ss' = .ok rs') : List.Forall₂ (InOrder d) rs rs' := by
  induction n generalizing m b ss ss' with
  | zero =>
    unfold integralLoop at h
    cases hb : FArith.lt b ub with
    | true => rw [hb] at h; cases h
    | false =>
      rw [hb] at h
      cases h
      cases m with
      | zero =>
        unfold integralLoop at h'
        rw [hb] at h'
        cases h'
        exact hs
      | succ m =>
        unfold integralLoop at h'
        rw [hb] at h'
        cases h'
        exact hs
  | succ n ih =>
    unfold integralLoop at h
    cases hb : FArith.lt b ub with
    | false =>
      rw [hb] at h
      cases h
      cases m with
      | zero =>
        unfold integralLoop at h'
        rw [hb] at h'
        cases h'
        exact hs
      | succ m =>
        unfold integralLoop at h'
        rw [hb] at h'
        cases h'
        exact hs
    | true =>
      rw [hb] at h
      cases m with
      | zero =>
        unfold integralLoop at h'
        rw [hb] at h'
        cases h'
      | succ m =>
        unfold integralLoop at h'
        rw [hb] at h'
        simp only [if_true] at h h'
        obtain ⟨es, h1, h⟩ := bind_eq_ok.1 h
        obtain ⟨es', h1', h'⟩ := bind_eq_ok.1 h'
        obtain ⟨ts, h2, h⟩ := bind_eq_ok.1 h
        obtain ⟨ts', h2', h'⟩ := bind_eq_ok.1 h'
        exact ih (accumulate_order hs (hev _ _ _ h1 h1') h2 h2') h h'

/-- The width of the slices is not negative. -/
theorem width_order (hP : FArith.lt (FArith.ofInt 0 : F) (powi (ofInt 10) ((cfg.prec : Int) - 3)) = true) {ub lb : F} (h : FArith.lt ub lb = false) :
    FArith.lt (FArith.div (FArith.sub ub lb) (powi (ofInt 10) ((cfg.prec : Int) - 3))) (FArith.ofInt 0) = false := by
  have h0 : Binary64.bits (FArith.ofInt 0 : F) = ⟨.fin 0⟩ := by simpa using bits_whole (F := F) 0 (by norm_num)
  have r0 : F64.rnd (.fin 0) = ⟨.fin 0⟩ := by decide +kernel
  by_contra hn
  rw [Bool.not_eq_false, Binary64.bits_lt, Binary64.bits_div, h0] at hn
  rw [Binary64.bits_lt, h0] at hP
  generalize Binary64.bits (powi (ofInt 10 : F) ((cfg.prec : Int) - 3)) = P at hn hP
  have h1 : Ext.lt (Ext.div (Binary64.bits (FArith.sub ub lb)).ext P.ext) (.fin 0) = true := F64.rnd_mono (by rw [r0]; exact hn)
  have h2 : Ext.lt (Binary64.bits (FArith.sub ub lb)).ext (.fin 0) = true := by
    refine Ext.div_mono_pos (c := P.ext) hP ?_
    have : Ext.div (.fin 0) P.ext = .fin 0 := by
      revert hP
      show Ext.lt (.fin 0) P.ext = true → _
      generalize P.ext = q
      rcases q with z | _ | (_ | _) | _ <;> simp [Ext.lt, Ext.value, Ext.div, Ext.mk, Ext.signNeg]
      intro hz
      have : ¬ z < 0 := by linarith
      simp [hz.ne', this]
    rw [this]
    exact h1
  rw [Binary64.bits_sub] at h2
  have h3 : Ext.lt (Ext.sub (Binary64.bits ub).ext (Binary64.bits lb).ext) (.fin 0) = true := F64.rnd_mono (by rw [r0]; exact h2)
  rw [Binary64.bits_lt] at h
  have h4 : Ext.lt (Binary64.bits ub).ext (Binary64.bits lb).ext = true := Ext.sub_neg_iff h3
  rw [show Ext.lt _ _ = false from h] at h4
  cases h4

theorem integral_ok {n : Nat} {e lo hi : AST F} {x : Str} {c : Context F} {vs : List (Value F)} (h : eval cfg n (.integral e x lo hi) c = .ok vs) :
    ∃ m lv hv z, n = m + 1 ∧ eval cfg m lo c = .ok lv ∧ eval cfg m hi c = .ok hv ∧
      lv.mapM (fun i => hv.mapM (fun j => calculateIntegral cfg (eval cfg m) m e x i j c) >>= fun r => (.ok r.flatten : Out EvalError (List (Value F)))) = .ok z ∧
      vs = z.flatten := by
  cases n with
  | zero => cases h
  | succ m =>
    simp only [eval, evalRec] at h
    obtain ⟨lv, h1, h⟩ := bind_eq_ok.1 h
    obtain ⟨hv, h2, h⟩ := bind_eq_ok.1 h
    obtain ⟨z, h3, h⟩ := bind_eq_ok.1 h
    cases h
    exact ⟨m, lv, hv, z, rfl, h1, h2, h3, rfl⟩

theorem calculateIntegral_order (hP : FArith.lt (FArith.ofInt 0 : F) (powi (ofInt 10) ((cfg.prec : Int) - 3)) = true) {d : Bool} {e : AST F} {x : Str}
    {ev ev' : Evaluator F} {n m : Nat} {c c' : Context F}
    (hev : ∀ p vs ws, ev e ⟨eraseFirstVar c.vars x ++ [⟨x, [.scalar p]⟩], c.funs⟩ = .ok vs →
      ev' e ⟨eraseFirstVar c'.vars x ++ [⟨x, [.scalar p]⟩], c'.funs⟩ = .ok ws → List.Forall₂ (InOrder d) vs ws)
    {i j : Value F} {vs ws : List (Value F)} (hv : calculateIntegral cfg ev n e x i j c = .ok vs)
    (hw : calculateIntegral cfg ev' m e x i j c' = .ok ws) : List.Forall₂ (InOrder d) vs ws := by
  unfold calculateIntegral at hv hw
  cases i with
  | scalar a =>
    cases j with
    | scalar b =>
      dsimp only at hv hw
      by_cases hab : beq a b = true
      · rw [if_pos hab] at hv hw
        cases hv
        cases hw
        exact inOrder_all _ _
      · rw [if_neg hab] at hv hw
        obtain ⟨ss, h1, hv⟩ := bind_eq_ok.1 hv
        obtain ⟨ss', h1', hw⟩ := bind_eq_ok.1 hw
        have hw' : FArith.lt (if FArith.lt b a = true then a else b) (if FArith.lt b a = true then b else a) = false := by
          by_cases hlt : FArith.lt b a = true
          · rw [if_pos hlt, if_pos hlt]
            exact lt_asymm_f hlt
          · rw [if_neg hlt, if_neg hlt]
            simpa using hlt
        refine mapM_related (integralLoop_order hev .nil h1 h1') ?_ hv hw
        intro s s' r r' hs hr hr'
        exact vMult_order (width_order hP hw') hs (mapErr_eq_ok.1 hr) (mapErr_eq_ok.1 hr')
    | vector b => cases hv
    | matrix b => cases hv
  | vector a => cases hv
  | matrix a => cases hv

theorem rising (hP : FArith.lt (FArith.ofInt 0 : F) (powi (ofInt 10) ((cfg.prec : Int) - 3)) = true) {d : Bool} {e : AST F} (he : Rises X d e)
    {c c' : Context F} (hc : Raised X c c') {n m : Nat} {vs ws : List (Value F)} (hv : eval cfg n e c = .ok vs) (hw : eval cfg m e c' = .ok ws) :
    List.Forall₂ (InOrder d) vs ws := by
  have same : ∀ {e : AST F}, Without X e → ∀ {c c' : Context F}, Raised X c c' → ∀ {n m : Nat} {vs ws : List (Value F)},
      eval cfg n e c = .ok vs → eval cfg m e c' = .ok ws → vs = ws := by
    intro e he c c' hc n m vs ws hv hw
    rw [eval_without he hc] at hv
    exact eval_same_ok hv hw
  have vneg : ∀ j : Value F, vNeg j = .ok (negated j) := fun j => by cases j <;> rfl
  have hcom : Commutes F := commutes_binary64
  have h01 : ∀ {c : F}, FArith.lt (FArith.ofInt 0) c = true → FArith.lt c (FArith.ofInt 0) = false := fun h => lt_asymm_f h
  have number : ∀ {n : Nat} {s : F} {c : Context F} {vs : List (Value F)}, eval cfg n (.scalar s) c = .ok vs → vs = [.scalar s] := by
    intro n s c vs h
    cases n with
    | zero => cases h
    | succ n =>
      simp only [eval, evalRec] at h
      cases h
      rfl
  have sub_order : ∀ {d : Bool} {v v' w w' r r' : Value F}, InOrder d v v' → InOrder (!d) w w' → vSub v w = .ok r → vSub v' w' = .ok r' → InOrder d r r' := by
    intro d v v' w w' r r' h h' hr hr'
    have h2 := negated_order h'
    rw [Bool.not_not] at h2
    exact vAdd_order h h2 ((sub_negated hcom _ _ _).1 hr) ((sub_negated hcom _ _ _).1 hr')
  induction he generalizing c c' n m vs ws with
  | without d e he =>
    rw [same he hc hv hw]
    exact inOrder_all _ _
  | var x hx =>
    cases n with
    | zero => cases hv
    | succ n =>
      cases m with
      | zero => cases hw
      | succ m =>
        simp only [eval, evalRec] at hv hw
        have hf := (raised_findVar hc x).1
        cases hv1 : c.findVar x with
        | none => rw [hv1] at hv; cases hv
        | some a =>
          cases hw1 : c'.findVar x with
          | none => rw [hw1] at hw; cases hw
          | some b =>
            rw [hv1] at hv
            rw [hw1] at hw
            cases hv
            cases hw
            exact hf _ _ hv1 hw1
  | add d l r _ _ ihl ihr =>
    obtain ⟨n, lv, rv, rfl, h1, h2, h3⟩ := simple_ok hv
    obtain ⟨m, lv', rv', rfl, h1', h2', h3'⟩ := simple_ok hw
    exact applyAll_order (op := .add) (R := InOrder d) (S := InOrder d) (fun i i' j j' rs rs' hi hj hr hr' => one_order (fun v v' => vAdd_order hi hj) hr hr') (ihl hc h1 h1') (ihr hc h2 h2') h3 h3'
  | sub d l r _ _ ihl ihr =>
    obtain ⟨n, lv, rv, rfl, h1, h2, h3⟩ := simple_ok hv
    obtain ⟨m, lv', rv', rfl, h1', h2', h3'⟩ := simple_ok hw
    exact applyAll_order (op := .sub) (R := InOrder d) (S := InOrder (!d)) (fun i i' j j' rs rs' hi hj hr hr' => one_order (fun v v' => sub_order hi hj) hr hr') (ihl hc h1 h1') (ihr hc h2 h2') h3 h3'
  | addSub d l r _ hr0 ihl =>
    obtain ⟨n, lv, rv, rfl, h1, h2, h3⟩ := simple_ok hv
    obtain ⟨m, lv', rv', rfl, h1', h2', h3'⟩ := simple_ok hw
    obtain rfl := same hr0 hc h2 h2'
    refine applyAll_order (R := InOrder d) (S := Eq) (fun i i' j j' rs rs' hi hj hr hr' => ?_) (ihl hc h1 h1') (List.forall₂_same.2 fun _ _ => rfl) h3 h3'
    obtain ⟨a, h4, hr⟩ := bind_eq_ok.1 hr
    obtain ⟨b, h5, hr⟩ := bind_eq_ok.1 hr
    obtain ⟨a', h4', hr'⟩ := bind_eq_ok.1 hr'
    obtain ⟨b', h5', hr'⟩ := bind_eq_ok.1 hr'
    cases hr
    cases hr'
    subst hj
    exact .cons (vAdd_order hi (inOrder_refl _ _) (mapErr_eq_ok.1 h4) (mapErr_eq_ok.1 h4'))
      (.cons (sub_order hi (inOrder_refl _ _) (mapErr_eq_ok.1 h5) (mapErr_eq_ok.1 h5')) .nil)
  | neg d l r hl0 _ ih =>
    obtain ⟨n, lv, rv, rfl, h1, h2, h3⟩ := simple_ok hv
    obtain ⟨m, lv', rv', rfl, h1', h2', h3'⟩ := simple_ok hw
    obtain rfl := same hl0 hc h1 h1'
    refine applyAll_order (op := .neg) (R := Eq) (S := InOrder (!d)) (fun i i' j j' rs rs' hi hj hr hr' => one_order (x := vNeg j) (x' := vNeg j') (fun v v' h5 h5' => ?_) hr hr') (List.forall₂_same.2 fun _ _ => rfl)
      (ih hc h2 h2') h3 h3'
    rw [vneg] at h5 h5'
    cases h5
    cases h5'
    have := negated_order hj
    rwa [Bool.not_not] at this
  | paren d l r _ hr0 ih =>
    obtain ⟨n, lv, rv, rfl, h1, h2, h3⟩ := simple_ok hv
    obtain ⟨m, lv', rv', rfl, h1', h2', h3'⟩ := simple_ok hw
    obtain rfl := same hr0 hc h2 h2'
    refine applyAll_order (R := InOrder d) (S := Eq) (fun i i' j j' rs rs' hi hj hr hr' => ?_) (ih hc h1 h1') (List.forall₂_same.2 fun _ _ => rfl) h3 h3'
    cases hr
    cases hr'
    exact .cons hi .nil
  | times d op k e hop hk _ ih =>
    obtain ⟨n, lv, rv, rfl, h1, h2, h3⟩ := simple_ok hv
    obtain ⟨m, lv', rv', rfl, h1', h2', h3'⟩ := simple_ok hw
    rw [number h1] at h3
    rw [number h1'] at h3'
    have hm : ∀ (j : Value F), applyOp op (.scalar k) j = applyOp .mult (.scalar k) j := by
      rcases hop with rfl | rfl <;> exact fun _ => rfl
    refine applyAll_order (R := fun i i' => i = .scalar k ∧ i' = .scalar k) (fun i i' j j' rs rs' hi hj hr hr' => ?_) (.cons ⟨rfl, rfl⟩ .nil)
      (ih hc h2 h2') h3 h3'
    obtain ⟨rfl, rfl⟩ := hi
    rw [hm] at hr hr'
    exact one_order (fun v v' => vMult_order (h01 hk) hj) ((scalar_mult hcom k j rs).1 hr) ((scalar_mult hcom k j' rs').1 hr')
  | timesRight d op k e hop hk _ ih =>
    obtain ⟨n, lv, rv, rfl, h1, h2, h3⟩ := simple_ok hv
    obtain ⟨m, lv', rv', rfl, h1', h2', h3'⟩ := simple_ok hw
    rw [number h2] at h3
    rw [number h2'] at h3'
    have hm : ∀ (j : Value F), applyOp op j (.scalar k) = applyOp .mult j (.scalar k) := by
      rcases hop with rfl | rfl <;> exact fun _ => rfl
    refine applyAll_order (S := fun i i' => i = .scalar k ∧ i' = .scalar k) (fun i i' j j' rs rs' hi hj hr hr' => ?_) (ih hc h1 h1')
      (.cons ⟨rfl, rfl⟩ .nil) h3 h3'
    obtain ⟨rfl, rfl⟩ := hj
    rw [hm] at hr hr'
    exact one_order (fun v v' => vMult_order (h01 hk) hi) hr hr'
  | divided d k e hk _ ih =>
    obtain ⟨n, lv, rv, rfl, h1, h2, h3⟩ := simple_ok hv
    obtain ⟨m, lv', rv', rfl, h1', h2', h3'⟩ := simple_ok hw
    rw [number h2] at h3
    rw [number h2'] at h3'
    refine applyAll_order (S := fun i i' => i = .scalar k ∧ i' = .scalar k) (fun i i' j j' rs rs' hi hj hr hr' => ?_) (ih hc h1 h1')
      (.cons ⟨rfl, rfl⟩ .nil) h3 h3'
    obtain ⟨rfl, rfl⟩ := hj
    exact one_order (fun v v' => vDiv_order hk hi) hr hr'
  | integral d e x lo hi _ hlo hhi ih =>
    obtain ⟨n, lv, hv', z, rfl, h1, h2, h3, rfl⟩ := integral_ok hv
    obtain ⟨m, lv', hw', z', rfl, h1', h2', h3', rfl⟩ := integral_ok hw
    obtain rfl := same hlo hc h1 h1'
    obtain rfl := same hhi hc h2 h2'
    refine List.rel_flatten (mapM_related (R := Eq) (List.forall₂_same.2 fun _ _ => rfl) ?_ h3 h3')
    intro i i' b b' hi hb hb'
    subst hi
    obtain ⟨r, h4, hb⟩ := bind_eq_ok.1 hb
    obtain ⟨r', h4', hb'⟩ := bind_eq_ok.1 hb'
    cases hb
    cases hb'
    refine List.rel_flatten (mapM_related (R := Eq) (List.forall₂_same.2 fun _ _ => rfl) ?_ h4 h4')
    intro j j' rs rs' hj hr hr'
    subst hj
    exact calculateIntegral_order hP (fun p vs ws h5 h5' => ih (raised_set hc x p) h5 h5') hr hr'

theorem without_tree {e : Ex} (he : WithoutEx X e) : Without X (e.tree cfg : AST F) := by
  induction he with
  | num ip fp => exact .number _
  | var y hy => exact .variable _ hy
  | paren e _ ih => exact .operation _ _ _ ih (.number _)
  | neg e _ ih => exact .operation _ _ _ (.number _) ih
  | fn n op e _ ih => exact .operation _ _ _ ih (.number _)
  | root a b _ _ iha ihb => exact .operation _ _ _ iha ihb
  | bin op l r _ _ ihl ihr => exact .operation _ _ _ ihl ihr

/-- The numeral is positive. -/
def PositiveNumeral (F : Type) [FArith F] (ip : Str) (fp : Option Str) : Prop :=
  FArith.lt (FArith.ofInt 0) (FArith.ofDec (digitsVal (ip ++ fp.getD [])) (-((fp.getD []).length : Int)) : F) = true

theorem rises_tree {d : Bool} {e : Ex} (he : RisesEx (PositiveNumeral F) X d e) : Rises X d (e.tree cfg : AST F) := by
  induction he with
  | without d e h => exact .without _ _ (without_tree h)
  | var x hx => exact .var _ hx
  | paren d e _ ih => exact .paren _ _ _ ih (.number _)
  | neg d e _ ih => exact .neg _ _ _ (.number _) ih
  | add d l r _ _ ihl ihr => exact .add _ _ _ ihl ihr
  | sub d l r _ _ ihl ihr => exact .sub _ _ _ ihl ihr
  | addSub d l r _ hr ih => exact .addSub _ _ _ ih (without_tree hr)
  | times d op ip fp e hop hp _ ih => exact .times _ _ _ _ (by rcases hop with rfl | rfl; exacts [Or.inl rfl, Or.inr rfl]) hp ih
  | timesRight d op ip fp e hop hp _ ih => exact .timesRight _ _ _ _ (by rcases hop with rfl | rfl; exacts [Or.inl rfl, Or.inr rfl]) hp ih
  | divided d ip fp e hp _ ih => exact .divided _ _ _ hp ih
  | integ d e x lo hi _ hlo hhi ih => exact .integral _ _ _ _ _ ih (without_tree hlo) (without_tree hhi)

theorem slices_positive [Tens F] (h3 : 3 ≤ cfg.prec) (h25 : cfg.prec ≤ 25) :
    FArith.lt (FArith.ofInt 0 : F) (powi (ofInt 10) ((cfg.prec : Int) - 3)) = true := by
  have h := Tens.tens (F := F) (cfg.prec - 3) (by omega)
  rw [show ((cfg.prec - 3 : Nat) : Int) = (cfg.prec : Int) - 3 by omega] at h
  have h0 : Binary64.bits (FArith.ofInt 0 : F) = ⟨.fin 0⟩ := by simpa using bits_whole (F := F) 0 (by norm_num)
  rw [Binary64.bits_lt, h0]
  have h' : (Binary64.bits (powi (ofInt 10 : F) ((cfg.prec : Int) - 3))).ext.value = some (10 ^ (cfg.prec - 3)) := h
  show Ext.lt (.fin 0) (Binary64.bits (powi (ofInt 10 : F) ((cfg.prec : Int) - 3))).ext = true
  revert h'
  generalize (Binary64.bits (powi (ofInt 10 : F) ((cfg.prec : Int) - 3))).ext = q
  intro h'
  have hp : (0 : ℚ) < 10 ^ (cfg.prec - 3) := by positivity
  rcases q with z | _ | s | _
  · cases h'
    simp [Ext.lt, Ext.value]
  · exact absurd (Option.some.inj h') hp.ne
  · cases h'
  · cases h'

/-- **C110.** Expressions that rise by their form do so in binary64, value by value: whatever the rounding errors, larger values of the variables
never give a smaller value, or of falling expressions a larger one. -/
theorem C110_trees [Tens F] (h3 : 3 ≤ cfg.prec) (h25 : cfg.prec ≤ 25) {d : Bool} {e : AST F} (he : Rises X d e) {c c' : Context F} (hc : Raised X c c')
    {n m : Nat} {vs ws : List (Value F)} (hv : eval cfg n e c = .ok vs) (hw : eval cfg m e c' = .ok ws) : List.Forall₂ (InOrder d) vs ws :=
  rising (slices_positive h3 h25) he hc hv hw

/-- **C110.** The same from texts. -/
theorem C110_text [UTable] [Tens F] (h3 : 3 ≤ cfg.prec) (h25 : cfg.prec ≤ 25) {d : Bool} {e : Ex} (hwf : e.WF) (he : RisesEx (PositiveNumeral F) X d e)
    {c c' : Context F} (hc : Raised X c c') {n m : Nat} {vs ws : List (Value F)} (hv : quickEval cfg n e.text c = .ok vs)
    (hw : quickEval cfg m e.text c' = .ok ws) : List.Forall₂ (InOrder d) vs ws :=
  C110_trees h3 h25 (rises_tree (cfg := cfg) he) hc ((quickEval_results e hwf n c vs).1 hv) ((quickEval_results e hwf m c' ws).1 hw)

end

/-! ## Witnesses -/

/-- In double precision with `a` raised from 1 to 2: no value of `I(2a-x/3,x,0,1)-7` falls. -/
example [UTable] (n m : Nat) (vs ws : List (Value Double))
    (hv : quickEval Cfg.default n "I(2a-x/3,x,0,1)-7".toList ⟨[⟨['a'], [.scalar (FArith.ofInt 1)]⟩], []⟩ = .ok vs)
    (hw : quickEval Cfg.default m "I(2a-x/3,x,0,1)-7".toList ⟨[⟨['a'], [.scalar (FArith.ofInt 2)]⟩], []⟩ = .ok ws) :
    List.Forall₂ (InOrder true) vs ws := by
  have h0 : (Ex.num ['0'] none).WF := wf_num (s := "0") (by decide)
  have h1 : (Ex.num ['1'] none).WF := wf_num (s := "1") (by decide)
  have h2 : (Ex.num ['2'] none).WF := wf_num (s := "2") (by decide)
  have h3 : (Ex.num ['3'] none).WF := wf_num (s := "3") (by decide)
  have h7 : (Ex.num ['7'] none).WF := wf_num (s := "7") (by decide)
  have ha : (Ex.var ['a']).WF := wf_name (n := "a") (by decide)
  have hx : (Ex.var ['x']).WF := wf_name (n := "x") (by decide)
  have hj : Juxtaposable ['2'] ['a'] := ⟨'2', 'a', [], [], rfl, rfl, nofun, Or.inl ⟨by decide, by decide⟩⟩
  let two : Ex := .bin .juxt (.num ['2'] none) (.var ['a'])
  let third : Ex := .bin .div (.var ['x']) (.num ['3'] none)
  have hi : (Ex.integ (.bin .sub two third) ['x'] (.num ['0'] none) (.num ['1'] none)).WF :=
    ⟨⟨⟨h2, ha, by decide, by decide, fun _ => hj⟩, ⟨hx, h3, by decide, by decide, nofun⟩, by decide, by decide, nofun⟩,
      nameShape_letters (by decide) (by decide), h0, h1⟩
  refine C110_text (cfg := Cfg.default) (X := fun y => y = ['a']) (by decide) (by decide)
    (e := .bin .sub (.integ (.bin .sub two third) ['x'] (.num ['0'] none) (.num ['1'] none)) (.num ['7'] none)) ⟨hi, h7, by decide, by decide, nofun⟩ ?_ ?_ hv hw
  rotate_left
  · exact ⟨rfl, .cons ⟨rfl, .cons (Or.inr ⟨_, _, rfl, rfl, by decide +kernel⟩) .nil, fun h => absurd rfl h⟩ .nil⟩
  refine .sub _ _ _ (.integ _ _ _ _ _ (.sub _ _ _ ?_ ?_) (.num _ _) (.num _ _)) (.without _ _ (.num _ _))
  · exact .times _ _ _ _ _ (Or.inr rfl) (show _ = true by decide +kernel) (.var _ rfl)
  · exact .without _ _ (.bin _ _ _ (.var _ (by decide)) (.num _ _))

/-- Falling: `5-a*2` at 1 and 2. -/
example : (eval Cfg.default 9 (.simple .sub (.scalar (FArith.ofInt 5)) (.simple .mult (.variable ['a']) (.scalar (FArith.ofInt 2))))
      (⟨[⟨['a'], [.scalar (FArith.ofInt 1)]⟩], []⟩ : Context Double) matches .ok [.scalar _]) ∧
    (∀ n m (vs ws : List (Value Double)),
      eval Cfg.default n (.simple .sub (.scalar (FArith.ofInt 5)) (.simple .mult (.variable ['a']) (.scalar (FArith.ofInt 2))))
        ⟨[⟨['a'], [.scalar (FArith.ofInt 1)]⟩], []⟩ = .ok vs →
      eval Cfg.default m (.simple .sub (.scalar (FArith.ofInt 5)) (.simple .mult (.variable ['a']) (.scalar (FArith.ofInt 2))))
        ⟨[⟨['a'], [.scalar (FArith.ofInt 2)]⟩], []⟩ = .ok ws → List.Forall₂ (InOrder false) vs ws) :=
  ⟨rfl, fun n m vs ws hv hw => by
    refine C110_trees (X := fun y => y = ['a']) (by decide) (by decide) ?_ ?_ hv hw
    · exact .sub _ _ _ (.without _ _ (.number _)) (.timesRight _ _ _ _ (Or.inl rfl) (by decide +kernel) (.var _ rfl))
    · exact ⟨rfl, .cons ⟨rfl, .cons (Or.inr ⟨_, _, rfl, rfl, by decide +kernel⟩) .nil, fun h => absurd rfl h⟩ .nil⟩⟩

end MUL
