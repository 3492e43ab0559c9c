import Verif.Num.Mirror
import Verif.Proofs.Replace
import Verif.Proofs.EqSafe2
import Verif.Props.Ragged
import Verif.Props.Reported
/-!
# The sides of an equation

Exchanging the two sides of an equation in one unknown changes the sign of what is set to zero, and nothing that the search depends on. For C106.
-/

set_option linter.unusedSectionVars false
set_option linter.unusedSimpArgs false

namespace MUL
open Out FArith FElem Spec

section
variable {F : Type} [FNum F] [Mirror F]

/-- Two lists of values: the first values are opposite numbers, or both are vectors, or both matrices, or there is none. -/
inductive Flip : List (Value F) → List (Value F) → Prop
  | nil : Flip [] []
  | number {a b : F} {l l'} : Mirror.Opp a b → Flip (.scalar a :: l) (.scalar b :: l')
  | vector {a b l l'} : Flip (.vector a :: l) (.vector b :: l')
  | matrix {a b l l'} : Flip (.matrix a :: l) (.matrix b :: l')

theorem msub_swap_ok {a b : List (List F)} {v : Value F} (h : msub a b = .ok v) : ∃ v', msub b a = .ok v' := by
  have h0 := table_clean b fun y => mul y (ofInt (-1))
  have hp : ¬ msub a b = .panic := by rw [h]; nofun
  rw [msub_panic] at hp
  push Not at hp
  obtain ⟨hb, hp⟩ := hp
  have hlw : a.length = b.length ∧ width a = width b := by
    unfold msub at h
    obtain ⟨t, ht, h⟩ := bind_eq_ok.1 h
    obtain ⟨e1, e2⟩ := madd_ok h
    obtain ⟨e3, e4, -⟩ := h0.2.2 t ht
    exact ⟨e1.trans e3, e2.trans e4⟩
  obtain ⟨hane, haw⟩ := hp hlw.1
  have hsa := haw hlw.2
  have h0' := table_clean a fun y => mul y (ofInt (-1))
  rcases h0'.1 with hq | ⟨t, ht⟩
  · exact absurd (h0'.2.1.1 hq) hsa
  obtain ⟨e3, e4, e5, -⟩ := h0'.2.2 t ht
  have hm : msub b a = madd b t := by
    unfold msub
    rw [ht, ok_bind]
  rw [hm]
  have hnp : madd b t ≠ .panic := by
    rw [Ne, madd_panic]
    rintro ⟨-, rfl | ⟨-, hs | hs⟩⟩
    · exact hane (List.length_eq_zero_iff.1 (by simpa using hlw.1))
    · exact hb hs
    · exact e5 hs
  cases hres : madd b t with
  | ok v' => exact ⟨v', rfl⟩
  | panic => exact absurd hres hnp
  | timeout => exact absurd hres (madd_term _ _)
  | err s =>
    exfalso
    unfold madd at hres
    rw [if_neg (by simp [e3, hlw.1])] at hres
    cases b with
    | nil => exact hane (List.length_eq_zero_iff.1 (by simpa using hlw.1))
    | cons b0 b =>
      cases t with
      | nil => simp at e3; rw [hlw.1] at e3; simp at e3
      | cons t0 t =>
        simp only [idx, List.getElem?_cons_zero, Out.unwrap, ok_bind] at hres
        have hw : b0.length = t0.length := by
          have := e4.trans hlw.2
          simpa [width] using this.symm
        rw [if_neg (by simpa using hw)] at hres
        rw [bind_eq_err] at hres
        rcases hres with hres | ⟨o, -, hres⟩
        · have hc := (mapM_clean (ε := String) (List.range (b0 :: b).length) fun i _ =>
            (mapM_clean (ε := String) (List.range b0.length) fun j _ =>
              (pair_clean add (clean_idx2 (b0 :: b) i j) (clean_idx2 (t0 :: t) i j)).1).1).1
          rcases hc with hc | ⟨o, hc⟩ <;> rw [hc] at hres <;> cases hres
        · cases hres

theorem vSub_swap {i j v : Value F} (h : vSub i j = .ok v) : ∃ v', vSub j i = .ok v' ∧ ∀ l l', Flip (v :: l) (v' :: l') := by
  cases i with
  | scalar a =>
    cases j with
    | scalar b =>
      cases h
      exact ⟨_, rfl, fun l l' => .number (Mirror.diff_swap a b)⟩
    | vector b => cases h
    | matrix b => cases h
  | vector a =>
    cases j with
    | scalar b => cases h
    | matrix b => cases h
    | vector b =>
      change vsub a b = .ok v at h
      show ∃ v', vsub b a = .ok v' ∧ _
      unfold vsub at h ⊢
      by_cases hl : a.length = b.length
      · rw [vadd_eq _ _ (by simpa using hl)] at h
        rw [vadd_eq _ _ (by simpa using hl.symm)]
        cases h
        exact ⟨_, rfl, fun l l' => .vector⟩
      · rw [vadd_err _ _ (by simpa using hl)] at h
        cases h
  | matrix a =>
    cases j with
    | scalar b => cases h
    | vector b => cases h
    | matrix b =>
      change msub a b = .ok v at h
      show ∃ v', msub b a = .ok v' ∧ _
      obtain ⟨v', hv'⟩ := msub_swap_ok h
      have hm : ∀ {p q : List (List F)} {w : Value F}, msub p q = .ok w → ∃ m, w = .matrix m := by
        intro p q w hw
        unfold msub at hw
        obtain ⟨t, -, hw⟩ := bind_eq_ok.1 hw
        unfold madd at hw
        split at hw
        · cases hw
        obtain ⟨_, -, hw⟩ := bind_eq_ok.1 hw
        obtain ⟨_, -, hw⟩ := bind_eq_ok.1 hw
        split at hw
        · cases hw
        obtain ⟨o, -, hw⟩ := bind_eq_ok.1 hw
        cases hw
        exact ⟨_, rfl⟩
      obtain ⟨m, rfl⟩ := hm h
      obtain ⟨m', rfl⟩ := hm hv'
      exact ⟨_, hv', fun l l' => .matrix⟩

/-- The value of a computation that succeeds. -/
def theValue (x : Out String (Value F)) : Value F := match x with | .ok v => v | _ => .scalar (ofInt 0)

theorem applyAll_sub {lv rv : List (Value F)} (h : ∀ i ∈ lv, ∀ j ∈ rv, ∃ v, vSub i j = .ok v) :
    applyAll .sub lv rv = .ok (lv.flatMap fun i => rv.map fun j => theValue (vSub i j)) := by
  unfold applyAll
  have h1 : ∀ i ∈ lv, (rv.mapM (fun j => applyOp .sub i j) >>= fun r => (.ok r.flatten : Out EvalError (List (Value F)))) =
      .ok (rv.map fun j => theValue (vSub i j)) := by
    intro i hi
    rw [mapM_ok_of_forall (g := fun j => [theValue (vSub i j)])]
    · rw [ok_bind]
      congr 1
      clear h
      induction rv with
      | nil => rfl
      | cons j rv ih => simpa using ih
    · intro j hj
      obtain ⟨v, hv⟩ := h i hi j hj
      show (liftMath (vSub i j) >>= _) = _
      rw [hv]
      rfl
  rw [mapM_ok_of_forall h1, ok_bind, List.flatMap_def]

theorem applyAll_swap {lv rv vs : List (Value F)} (h : applyAll .sub lv rv = .ok vs) : ∃ vs', applyAll .sub rv lv = .ok vs' ∧ Flip vs vs' := by
  have hall : ∀ i ∈ lv, ∀ j ∈ rv, ∃ v, vSub i j = .ok v := by
    intro i hi j hj
    unfold applyAll at h
    obtain ⟨r, h1, -⟩ := bind_eq_ok.1 h
    rw [mapM_eq_ok] at h1
    obtain ⟨b, -, hb⟩ := forall₂_mem_of h1.flip i hi
    obtain ⟨r', h2, -⟩ := bind_eq_ok.1 hb
    rw [mapM_eq_ok] at h2
    obtain ⟨c, -, hc⟩ := forall₂_mem_of h2.flip j hj
    change (liftMath (vSub i j) >>= _) = _ at hc
    cases hv : vSub i j with
    | ok v => exact ⟨v, rfl⟩
    | err e => rw [hv] at hc; cases hc
    | panic => rw [hv] at hc; cases hc
    | timeout => rw [hv] at hc; cases hc
  have hall' : ∀ j ∈ rv, ∀ i ∈ lv, ∃ v, vSub j i = .ok v := fun j hj i hi => by
    obtain ⟨v, hv⟩ := hall i hi j hj
    obtain ⟨v', hv', -⟩ := vSub_swap hv
    exact ⟨v', hv'⟩
  rw [applyAll_sub hall] at h
  cases h
  refine ⟨_, applyAll_sub hall', ?_⟩
  cases lv with
  | nil =>
    have : (rv.flatMap fun i => ([] : List (Value F)).map fun j => theValue (vSub i j)) = [] := by simp
    rw [this]
    exact .nil
  | cons i lv =>
    cases rv with
    | nil =>
      have : ((i :: lv).flatMap fun i => ([] : List (Value F)).map fun j => theValue (vSub i j)) = [] := by simp
      rw [this]
      exact .nil
    | cons j rv =>
      obtain ⟨v, hv⟩ := hall i (by simp) j (by simp)
      obtain ⟨v', hv', hf⟩ := vSub_swap hv
      simp only [List.flatMap_cons, List.map_cons, List.cons_append, hv, hv', theValue]
      exact hf _ _

variable {cfg : Cfg} {n : Nat}

/-- Exchanging the sides keeps the value, or flips it. -/
def Flips (cfg : Cfg) (n : Nat) (e e' : AST F) : Prop :=
  ∀ ctx vs, eval cfg n e ctx = .ok vs → ∃ vs', eval cfg n e' ctx = .ok vs' ∧ Flip vs vs'

theorem flips_sub (l r : AST F) : Flips cfg n (.simple .sub l r) (.simple .sub r l) := by
  intro ctx vs h
  cases n with
  | zero => cases h
  | succ n =>
    rw [eval, evalRec.eq_def] at h ⊢
    dsimp only at h ⊢
    obtain ⟨lv, hl, h⟩ := bind_eq_ok.1 h
    obtain ⟨rv, hr, h⟩ := bind_eq_ok.1 h
    rw [hr, hl, ok_bind, ok_bind]
    exact applyAll_swap h

/-- The same expression, or the two sides exchanged. -/
def Turned (cfg : Cfg) (n : Nat) (e e' : AST F) : Prop := e = e' ∨ Flips cfg n e e'

theorem turned_first {e e' : AST F} (h : Turned cfg n e e') {ctx : Context F} {y : F} (hy : (eval cfg n e ctx >>= fun r => firstScalar r) = .ok y) :
    ∃ y', (eval cfg n e' ctx >>= fun r => firstScalar r) = .ok y' ∧ (y = y' ∨ Mirror.Opp y y') := by
  rcases h with rfl | h
  · exact ⟨y, hy, Or.inl rfl⟩
  · obtain ⟨r, hr, hy⟩ := bind_eq_ok.1 hy
    obtain ⟨r', hr', hf⟩ := h ctx r hr
    rw [hr', ok_bind]
    cases hf with
    | nil => cases hy
    | number ho =>
      cases hy
      exact ⟨_, rfl, Or.inr ho⟩
    | vector => cases hy
    | matrix => cases hy

theorem turned_scalars {es es' : List (AST F)} (h : List.Forall₂ (Turned cfg n) es es') {ctx : Context F} {ys : List F}
    (hy : evalScalars (eval cfg n) es ctx = .ok ys) :
    ∃ ys', evalScalars (eval cfg n) es' ctx = .ok ys' ∧ List.Forall₂ (fun y y' => y = y' ∨ Mirror.Opp y y') ys ys' := by
  unfold evalScalars at hy ⊢
  rw [mapM_eq_ok] at hy
  induction h generalizing ys with
  | nil =>
    cases hy
    exact ⟨[], rfl, .nil⟩
  | cons h1 h2 ih =>
    cases hy with
    | cons hy1 hy2 =>
      obtain ⟨ys', e1, e2⟩ := ih hy2
      obtain ⟨y', e3, e4⟩ := turned_first h1 hy1
      refine ⟨y' :: ys', ?_, .cons e4 e2⟩
      rw [mapM_eq_ok] at e1 ⊢
      exact .cons e3 e1

theorem small_turned {ys ys' : List F} (h : List.Forall₂ (fun y y' => y = y' ∨ Mirror.Opp y y') ys ys') : normSmall cfg ys = normSmall cfg ys' := by
  have key : ∀ s : F, ys.foldl (fun s f => add s (powi f 2)) s = ys'.foldl (fun s f => add s (powi f 2)) s := by
    induction h with
    | nil => intro s; rfl
    | @cons a b _ _ h1 _ ih =>
      intro s
      have : powi a 2 = powi b 2 := by
        rcases h1 with rfl | h1
        · rfl
        · exact Mirror.square h1
      simp only [List.foldl_cons]
      rw [this]
      exact ih _
  unfold normSmall norm
  rw [key]

/-- The outcomes of a step that do not end the search. -/
def Kept {α : Type} (o : Out EvalError α) : Prop :=
  (∃ r, o = .ok r) ∨ o = .err .naNOrInf ∨ o = .err .expressionCheckFailed ∨ o = .err .infiniteSolutions

theorem not_kept {α : Type} {e : EvalError} (he : e ≠ .infiniteSolutions ∧ e ≠ .naNOrInf ∧ e ≠ .expressionCheckFailed) : ¬ Kept (.err e : Out EvalError α) := by
  rintro (⟨r, h⟩ | h | h | h) <;> cases h
  · exact he.2.1 rfl
  · exact he.2.2 rfl
  · exact he.1 rfl

theorem eval_kept {t : AST F} {ctx : Context F} (h : Kept (eval cfg n t ctx)) : ∃ vs, eval cfg n t ctx = .ok vs := by
  cases hr : eval cfg n t ctx with
  | ok vs => exact ⟨vs, rfl⟩
  | err e =>
    rw [hr] at h
    have hj := C105_justified cfg n t ctx e hr
    exact absurd h (not_kept ⟨by rintro rfl; exact hj, by rintro rfl; exact hj, by rintro rfl; exact hj⟩)
  | panic => rw [hr] at h; rcases h with ⟨r, h⟩ | h | h | h <;> cases h
  | timeout => rw [hr] at h; rcases h with ⟨r, h⟩ | h | h | h <;> cases h

theorem bind_kept {α β : Type} {x : Out EvalError α} {f : α → Out EvalError β} (h : Kept (x >>= f)) : Kept x := by
  cases x with
  | ok a => exact Or.inl ⟨a, rfl⟩
  | err e =>
    rcases h with ⟨r, h⟩ | h | h | h
    · cases h
    · cases h; exact Or.inr (Or.inl rfl)
    · cases h; exact Or.inr (Or.inr (Or.inl rfl))
    · cases h; exact Or.inr (Or.inr (Or.inr rfl))
  | panic => rcases h with ⟨r, h⟩ | h | h | h <;> cases h
  | timeout => rcases h with ⟨r, h⟩ | h | h | h <;> cases h

theorem unwrap_kept {α : Type} {x : Option α} (h : Kept (Out.unwrap x : Out EvalError α)) : ∃ a, x = some a := by
  cases x with
  | some a => exact ⟨a, rfl⟩
  | none => rcases h with ⟨r, h⟩ | h | h | h <;> cases h

theorem first_kept {t : AST F} {ctx : Context F} (h : Kept (eval cfg n t ctx >>= fun r => firstScalar r)) : ∃ y, (eval cfg n t ctx >>= fun r => firstScalar r) = .ok y := by
  obtain ⟨vs, hv⟩ := eval_kept (bind_kept h)
  rw [hv, ok_bind] at h ⊢
  unfold firstScalar at h ⊢
  obtain ⟨v, hv⟩ := unwrap_kept (bind_kept h)
  rw [hv] at h ⊢
  simp only [Out.unwrap, ok_bind] at h ⊢
  obtain ⟨s, hs⟩ := unwrap_kept h
  rw [hs]
  exact ⟨s, rfl⟩

theorem scalars_kept {es : List (AST F)} {ctx : Context F} (h : Kept (evalScalars (eval cfg n) es ctx)) : ∃ ys, evalScalars (eval cfg n) es ctx = .ok ys := by
  unfold evalScalars at h ⊢
  induction es with
  | nil => exact ⟨[], rfl⟩
  | cons e es ih =>
    rw [List.mapM_cons] at h ⊢
    obtain ⟨y, hy⟩ := first_kept (bind_kept h)
    rw [hy, ok_bind] at h ⊢
    obtain ⟨ys, hys⟩ := ih (bind_kept h)
    rw [hys, ok_bind]
    exact ⟨_, rfl⟩

theorem jacobi_is {e : AST F} {x : Str} {a y : F} {ctx : Context F} :
    jacobiAndGauss cfg (eval cfg n) [e] [⟨x, [.scalar a]⟩] ctx [y] =
      (calculateDerivativeNewton cfg (eval cfg n) e x (.scalar a) (some (.scalar y)) ⟨ctx.vars ++ [], ctx.funs⟩ >>= fun d => Out.unwrap d.getScalar >>= fun d =>
        .ok [⟨x, [.scalar (add (div (mul (ofInt (-1)) y) d) a)]⟩]) := by
  unfold jacobiAndGauss
  have hr1 : List.range [e].length = [0] := rfl
  have hr2 : List.range [(⟨x, [.scalar a]⟩ : Variable F)].length = [0] := rfl
  simp only [hr1, hr2, mapM_single, idx, List.getElem?_cons_zero, ok_bind, Out.unwrap]
  have hoth' : (([0] : List Nat).filter fun k => 0 != k).filterMap (fun k => [(⟨x, [.scalar a]⟩ : Variable F)][k]?) = [] := rfl
  rw [hoth']
  cases calculateDerivativeNewton cfg (eval cfg n) e x (.scalar a) (some (.scalar y)) ⟨ctx.vars ++ [], ctx.funs⟩ with
  | ok d =>
    cases d with
    | scalar d => rfl
    | vector d => rfl
    | matrix d => rfl
  | err e => rfl
  | panic => rfl
  | timeout => rfl

/-- The step, the context it is taken in. -/
def stepCtx (cfg : Cfg) (ctx : Context F) (x : Str) (a : F) : Context F :=
  (dropVar (⟨ctx.vars ++ [], ctx.funs⟩ : Context F) x).addVar ⟨x, [.scalar (add a (powi (ofInt 10) (-(cfg.prec : Int))))]⟩

theorem derivative_is {e : AST F} {x : Str} {a y : F} {ctx : Context F} :
    (calculateDerivativeNewton cfg (eval cfg n) e x (.scalar a) (some (.scalar y)) ⟨ctx.vars ++ [], ctx.funs⟩ >>= fun d => (Out.unwrap d.getScalar : Out EvalError F)) =
      (eval cfg n e (stepCtx cfg ctx x a) >>= fun r => Out.unwrap r[0]? >>= fun fxh =>
        eval cfg n (differenceQuotient cfg fxh (.scalar y)) (stepCtx cfg ctx x a) >>= fun r => firstScalar r) := by
  unfold calculateDerivativeNewton
  simp only [ok_bind]
  rw [bind_assoc]
  refine _root_.bind_congr fun r => ?_
  rw [bind_assoc]
  refine _root_.bind_congr fun r => ?_
  rw [bind_assoc]
  rfl

theorem quotient_scalar (z y : F) (ctx : Context F) :
    eval cfg (n + 3) (differenceQuotient cfg (.scalar z) (.scalar y)) ctx = .ok [.scalar (div (add z (mul y (ofInt (-1)))) (stepH F cfg))] := rfl

/-- A difference quotient that has a value is one of numbers. -/
theorem quotient_is {fxh : Value F} {y : F} {ctx : Context F} {vs : List (Value F)}
    (h : eval cfg n (differenceQuotient cfg fxh (.scalar y)) ctx = .ok vs) : ∃ z m, fxh = .scalar z ∧ n = m + 3 := by
  have h4 : eval cfg (n + 4) (differenceQuotient cfg fxh (.scalar y)) ctx = .ok vs := by
    rcases evalRec_le cfg (show n ≤ n + 4 by omega) (differenceQuotient cfg fxh (.scalar y)) ctx [] with hle | hle
    · unfold eval at h
      rw [hle] at h
      cases h
    · unfold eval at h ⊢
      rw [← hle]
      exact h
  unfold eval at h4
  rw [diffQuotient_eval] at h4
  cases fxh with
  | vector v => cases h4
  | matrix v => cases h4
  | scalar z =>
    refine ⟨z, n - 3, rfl, ?_⟩
    rcases n with _ | _ | _ | n
    · cases h
    · cases h
    · cases h
    · omega

theorem derivative_flip {e e' : AST F} (he : Flips cfg n e e') {x : Str} {a y y' d : F} {ctx : Context F} (hy : Mirror.Opp y y')
    (h : (eval cfg n e (stepCtx cfg ctx x a) >>= fun r => Out.unwrap r[0]? >>= fun fxh =>
        eval cfg n (differenceQuotient cfg fxh (.scalar y)) (stepCtx cfg ctx x a) >>= fun r => firstScalar r) = .ok d) :
    ∃ d', (eval cfg n e' (stepCtx cfg ctx x a) >>= fun r => Out.unwrap r[0]? >>= fun fxh =>
        eval cfg n (differenceQuotient cfg fxh (.scalar y')) (stepCtx cfg ctx x a) >>= fun r => firstScalar r) = .ok d' ∧ Mirror.Opp d d' := by
  obtain ⟨r, h1, h⟩ := bind_eq_ok.1 h
  obtain ⟨fxh, h2, h⟩ := bind_eq_ok.1 h
  obtain ⟨r2, h3, h⟩ := bind_eq_ok.1 h
  obtain ⟨z, m, rfl, rfl⟩ := quotient_is h3
  obtain ⟨r', h1', hf⟩ := he _ _ h1
  rw [h1', ok_bind]
  rw [quotient_scalar] at h3
  cases h3
  obtain rfl : div (add z (mul y (ofInt (-1)))) (stepH F cfg) = d := by
    simpa [firstScalar, Out.unwrap, Value.getScalar] using h
  cases hf with
  | nil => cases h2
  | vector => cases h2
  | matrix => cases h2
  | @number b b' l l' ho =>
    obtain rfl : b = z := by simpa [Out.unwrap] using h2
    simp only [List.getElem?_cons_zero, Out.unwrap, ok_bind]
    rw [quotient_scalar, ok_bind]
    exact ⟨_, rfl, Mirror.div_opp _ (Mirror.diff_opp ho hy)⟩

theorem derivative_kept {e : AST F} {x : Str} {a y : F} {ctx : Context F}
    (h : Kept (eval cfg n e (stepCtx cfg ctx x a) >>= fun r => Out.unwrap r[0]? >>= fun fxh =>
        eval cfg n (differenceQuotient cfg fxh (.scalar y)) (stepCtx cfg ctx x a) >>= fun r => firstScalar r)) :
    ∃ d, (eval cfg n e (stepCtx cfg ctx x a) >>= fun r => Out.unwrap r[0]? >>= fun fxh =>
        eval cfg n (differenceQuotient cfg fxh (.scalar y)) (stepCtx cfg ctx x a) >>= fun r => firstScalar r) = .ok d := by
  obtain ⟨vs, hv⟩ := eval_kept (bind_kept h)
  rw [hv, ok_bind] at h ⊢
  obtain ⟨v, hv⟩ := unwrap_kept (bind_kept h)
  rw [hv] at h ⊢
  simp only [Out.unwrap, ok_bind] at h ⊢
  exact first_kept h

theorem newton_turned (hp : cfg.prec ≤ 22) {e e' : AST F} (he : Turned cfg n e e') {cs cs' : List (AST F)} (hcs : List.Forall₂ (Turned cfg n) cs cs')
    {x : Str} {a : F} {ctx : Context F} (hk : Kept (newton cfg (eval cfg n) [e] cs [⟨x, [.scalar a]⟩] ctx).1) :
    newton cfg (eval cfg n) [e'] cs' [⟨x, [.scalar a]⟩] ctx = newton cfg (eval cfg n) [e] cs [⟨x, [.scalar a]⟩] ctx ∧
      ∀ x' c', newton cfg (eval cfg n) [e] cs [⟨x, [.scalar a]⟩] ctx = (.ok (.nextX x'), c') → ∃ b, x' = [⟨x, [.scalar b]⟩] := by
  have hs : ∃ ys, evalScalars (eval cfg n) [e] (addVars ctx [⟨x, [.scalar a]⟩]) = .ok ys := by
    refine scalars_kept ?_
    unfold newton at hk
    dsimp only at hk
    cases hr : evalScalars (eval cfg n) [e] (addVars ctx [⟨x, [.scalar a]⟩]) with
    | ok ys => exact Or.inl ⟨ys, rfl⟩
    | err er =>
      rw [hr] at hk
      dsimp only at hk
      rcases hk with ⟨r, h⟩ | h | h | h <;> cases h
      · exact Or.inr (Or.inl rfl)
      · exact Or.inr (Or.inr (Or.inl rfl))
      · exact Or.inr (Or.inr (Or.inr rfl))
    | panic => rw [hr] at hk; rcases hk with ⟨r, h⟩ | h | h | h <;> cases h
    | timeout => rw [hr] at hk; rcases hk with ⟨r, h⟩ | h | h | h <;> cases h
  obtain ⟨ys, hys⟩ := hs
  obtain ⟨ys', hys', hf⟩ := turned_scalars (.cons he .nil) hys
  obtain ⟨y, rfl⟩ : ∃ y, ys = [y] := by
    unfold evalScalars at hys
    rw [mapM_eq_ok] at hys
    cases hys with
    | cons _ h2 => cases h2; exact ⟨_, rfl⟩
  obtain ⟨y', rfl⟩ : ∃ y', ys' = [y'] := by
    cases hf with
    | cons _ h2 => cases h2; exact ⟨_, rfl⟩
  have hsm := small_turned (cfg := cfg) hf
  unfold newton at hk ⊢
  dsimp only at hk ⊢
  rw [hys] at hk ⊢
  rw [hys']
  dsimp only at hk ⊢
  rw [← hsm]
  cases hb : normSmall cfg [y] with
  | true =>
    simp only [hb, ↓reduceIte] at hk ⊢
    cases hc : evalScalars (eval cfg n) cs (addVars (removeVars (addVars ctx [⟨x, [.scalar a]⟩]) [⟨x, [.scalar a]⟩]) [⟨x, [.scalar a]⟩]) with
    | ok rs =>
      obtain ⟨rs', hrs', hf'⟩ := turned_scalars hcs hc
      rw [hrs']
      have h1 := small_turned (cfg := cfg) hf'
      have h2 : rs'.isEmpty = rs.isEmpty := by cases hf' <;> rfl
      dsimp only
      rw [h1, h2]
      refine ⟨rfl, fun x' c' h => ?_⟩
      split at h
      · cases h
      · split at h <;> cases h
    | err er =>
      rw [hc] at hk
      dsimp only at hk
      exfalso
      obtain ⟨ys, h⟩ := scalars_kept (cfg := cfg) (n := n) (es := cs) (ctx := addVars (removeVars (addVars ctx [⟨x, [.scalar a]⟩]) [⟨x, [.scalar a]⟩]) [⟨x, [.scalar a]⟩]) (by
        rw [hc]
        rcases hk with ⟨r, h⟩ | h | h | h <;> cases h
        · exact Or.inr (Or.inl rfl)
        · exact Or.inr (Or.inr (Or.inl rfl))
        · exact Or.inr (Or.inr (Or.inr rfl)))
      rw [hc] at h
      cases h
    | panic => rw [hc] at hk; rcases hk with ⟨r, h⟩ | h | h | h <;> cases h
    | timeout => rw [hc] at hk; rcases hk with ⟨r, h⟩ | h | h | h <;> cases h
  | false =>
    simp only [hb, Bool.false_eq_true, ↓reduceIte] at hk ⊢
    generalize removeVars (addVars ctx [⟨x, [.scalar a]⟩]) [⟨x, [.scalar a]⟩] = c2 at hk ⊢
    have J : ∀ (t : AST F) (z : F), jacobiAndGauss cfg (eval cfg n) [t] [⟨x, [.scalar a]⟩] c2 [z] =
        ((eval cfg n t (stepCtx cfg c2 x a) >>= fun r => Out.unwrap r[0]? >>= fun fxh =>
          eval cfg n (differenceQuotient cfg fxh (.scalar z)) (stepCtx cfg c2 x a) >>= fun r => firstScalar r) >>= fun d =>
        .ok [⟨x, [.scalar (add (div (mul (ofInt (-1)) z) d) a)]⟩]) := by
      intro t z
      rw [jacobi_is, ← bind_assoc, derivative_is]
    have hD : ∃ d, (eval cfg n e (stepCtx cfg c2 x a) >>= fun r => Out.unwrap r[0]? >>= fun fxh =>
        eval cfg n (differenceQuotient cfg fxh (.scalar y)) (stepCtx cfg c2 x a) >>= fun r => firstScalar r) = .ok d := by
      apply derivative_kept
      rw [J] at hk
      cases hd : (eval cfg n e (stepCtx cfg c2 x a) >>= fun r => Out.unwrap r[0]? >>= fun fxh =>
        eval cfg n (differenceQuotient cfg fxh (.scalar y)) (stepCtx cfg c2 x a) >>= fun r => firstScalar r) with
      | ok d => exact Or.inl ⟨d, rfl⟩
      | err er =>
        rw [hd] at hk
        rcases hk with ⟨r, h⟩ | h | h | h <;> cases h
        · exact Or.inr (Or.inl rfl)
        · exact Or.inr (Or.inr (Or.inl rfl))
        · exact Or.inr (Or.inr (Or.inr rfl))
      | panic => rw [hd] at hk; rcases hk with ⟨r, h⟩ | h | h | h <;> cases h
      | timeout => rw [hd] at hk; rcases hk with ⟨r, h⟩ | h | h | h <;> cases h
    obtain ⟨d, hd⟩ := hD
    have M : ∀ b : F, ([⟨x, [.scalar b]⟩] : List (Variable F)).mapM (fun i => (Out.unwrap i.values[0]? : Out EvalError (Value F))) = .ok [.scalar b] := fun _ => rfl
    have A : ∀ b : F, ([.scalar b] : List (Value F)).any Value.isInfOrNan = (isNaN b || isInf b) := by
      intro b
      simp [Value.isInfOrNan, Bool.or_comm]
    rw [J e y, hd, ok_bind]
    dsimp only
    rw [M]
    dsimp only
    rw [A]
    refine ⟨?_, fun x' c' h => ?_⟩
    · rcases he with rfl | he
      · have : y = y' := by
          have := hys.symm.trans hys'
          simpa using this
        subst this
        rw [J e y, hd, ok_bind]
        dsimp only
        rw [M]
        dsimp only
        rw [A]
      · have ho : Mirror.Opp y y' := by
          obtain ⟨r, hr, hr2⟩ := bind_eq_ok.1 (show (eval cfg n e (addVars ctx [⟨x, [.scalar a]⟩]) >>= fun r => firstScalar r) = .ok y by
            unfold evalScalars at hys
            rw [mapM_eq_ok] at hys
            cases hys with
            | cons h _ => exact h)
          have hr' := (show (eval cfg n e' (addVars ctx [⟨x, [.scalar a]⟩]) >>= fun r => firstScalar r) = .ok y' by
            unfold evalScalars at hys'
            rw [mapM_eq_ok] at hys'
            cases hys' with
            | cons h _ => exact h)
          obtain ⟨r', h1, hfl⟩ := he _ _ hr
          rw [h1, ok_bind] at hr'
          cases hfl with
          | nil => cases hr2
          | vector => cases hr2
          | matrix => cases hr2
          | number ho =>
            cases hr2
            cases hr'
            exact ho
        obtain ⟨d', hd', hod⟩ := derivative_flip he ho hd
        rw [J e' y', hd', ok_bind]
        dsimp only
        rw [M]
        dsimp only
        rw [A]
        rcases Mirror.step hp ho hod hb a with h | ⟨h, h'⟩
        · rw [h]
        · rw [if_pos (by simpa using h'), if_pos (by simpa using h)]
    · split at h
      · cases h
      · cases h
        exact ⟨_, rfl⟩

theorem loop1_turned (hp : cfg.prec ≤ 22) {e e' : AST F} (he : Turned cfg n e e') {cs cs' : List (AST F)} (hcs : List.Forall₂ (Turned cfg n) cs cs')
    {x : Str} (k : Nat) {a : F} {ctx : Context F} {r : Loop1 F} (h : solveLoop1 cfg (eval cfg n) [e] cs k [⟨x, [.scalar a]⟩] ctx = .ok r) :
    solveLoop1 cfg (eval cfg n) [e'] cs' k [⟨x, [.scalar a]⟩] ctx = .ok r := by
  induction k generalizing a ctx with
  | zero => exact h
  | succ k ih =>
    have hk : Kept (newton cfg (eval cfg n) [e] cs [⟨x, [.scalar a]⟩] ctx).1 := by
      unfold solveLoop1 at h
      split at h
      · rename_i hn; rw [hn]; exact Or.inl ⟨_, rfl⟩
      · rename_i hn; rw [hn]; exact Or.inl ⟨_, rfl⟩
      · rename_i hn; rw [hn]; exact Or.inr (Or.inr (Or.inr rfl))
      · rename_i hn; rw [hn]; exact Or.inr (Or.inl rfl)
      · rename_i hn; rw [hn]; exact Or.inr (Or.inr (Or.inl rfl))
      · cases h
      · cases h
      · cases h
    obtain ⟨h1, h2⟩ := newton_turned hp he hcs hk
    unfold solveLoop1 at h ⊢
    rw [h1]
    generalize newton cfg (eval cfg n) [e] cs [⟨x, [.scalar a]⟩] ctx = p at h h2
    obtain ⟨o, c⟩ := p
    cases o with
    | ok o =>
      cases o with
      | nextX x' =>
        obtain ⟨b, rfl⟩ := h2 x' c rfl
        exact ih h
      | finishedX x' => exact h
    | err er => cases er <;> exact h
    | panic => exact h
    | timeout => exact h

theorem loop0_turned (hp : cfg.prec ≤ 22) {e e' : AST F} (he : Turned cfg n e e') {cs cs' : List (AST F)} (hcs : List.Forall₂ (Turned cfg n) cs cs')
    {x : Str} (js : List Int) {ctx : Context F} {acc vs : List (Value F)} (h : solveLoop0 cfg (eval cfg n) [e] cs [x] js ctx acc = .ok vs) :
    solveLoop0 cfg (eval cfg n) [e'] cs' [x] js ctx acc = .ok vs := by
  induction js generalizing ctx acc with
  | nil => exact h
  | cons j js ih =>
    unfold solveLoop0 at h ⊢
    obtain ⟨r, hr, h⟩ := bind_eq_ok.1 h
    have hr' := loop1_turned hp he hcs 1000 hr
    have hr'' : solveLoop1 cfg (eval cfg n) [e'] cs' 1000 ([x].map fun k => (⟨k, [.scalar (ofInt j)]⟩ : Variable F)) ctx = .ok r := hr'
    dsimp only
    rw [hr'', ok_bind]
    by_cases hs : r.stop = true
    · rw [if_pos hs] at h ⊢
      exact h
    · rw [if_neg hs] at h ⊢
      exact ih h

theorem roots_turned (hp : cfg.prec ≤ 22) {x : Str} {es es' : List (AST F)} (hes : List.Forall₂ (Turned cfg n) es es') {ctx : Context F}
    (cs : List (List Nat)) (hcs : ∀ c ∈ cs, c.length = 1) (all : List (List Nat)) {vs : List (Value F)}
    (h : findRootsLoop cfg (eval cfg n) ⟨es, all, ctx, [x]⟩ cs = .ok vs) : findRootsLoop cfg (eval cfg n) ⟨es', all, ctx, [x]⟩ cs = .ok vs := by
  induction cs with
  | nil => exact h
  | cons c cs ih =>
    unfold findRootsLoop at h ⊢
    obtain ⟨⟨s, k⟩, hs, h5⟩ := bind_eq_ok.1 h
    obtain ⟨rs, hr, h6⟩ := bind_eq_ok.1 h5
    obtain ⟨cl, hcl, h7⟩ := bind_eq_ok.1 h6
    clear h h5 h6
    obtain ⟨-, hlen⟩ := splitExprs_perm hs
    rcases splitExprs_forall₂ (ε := EvalError) c 0 (List.Forall₂.nil (R := Turned cfg n)) hes with ⟨⟨p, q⟩, ⟨p', q'⟩, h1, h2, h3, h4⟩ | ⟨h1, h2⟩
    · have : (p, q) = (s, k) := by
        have := h1.symm.trans hs
        simpa using this
      cases this
      have hl : s.length = 1 := by simpa [hcs c (by simp)] using hlen
      dsimp only at h3 h4 hr ⊢
      cases h3 with
      | nil => cases hl
      | @cons a b l l' hab ht =>
        cases ht with
        | cons _ _ => simp at hl
        | nil =>
          rw [h2, ok_bind]
          dsimp only
          rw [loop0_turned hp hab h4 startValues hr, ok_bind]
          rw [hcl, ok_bind]
          split at h7
          · rename_i hb
            rw [if_pos hb]
            exact h7
          · rename_i hb
            rw [if_neg hb]
            exact ih (fun c hc => hcs c (by simp [hc])) h7
    · rw [hs] at h1
      cases h1

theorem new_turned {x : Str} {es es' : List (AST F)} (hes : List.Forall₂ (Turned cfg n) es es') (hop : ∀ e ∈ es, e.isOperation = true)
    (hop' : ∀ e ∈ es', e.isOperation = true) {ctx : Context F} {rf : RootFinder F} (h : RootFinder.new (eval cfg n) es ctx [x] = .ok rf) :
    RootFinder.new (eval cfg n) es' ctx [x] = .ok ⟨es', rf.combinations, rf.context, [x]⟩ ∧ rf.expressions = es ∧ rf.searchVarsNames = [x] ∧
      ∀ c ∈ rf.combinations, c.length = 1 := by
  have hl := hes.length_eq
  have ha : ∀ l : List (AST F), (∀ e ∈ l, e.isOperation = true) → (l.any fun e => !e.isOperation) = false := by
    intro l hl
    rw [List.any_eq_false]
    intro e he
    simp [hl e he]
  unfold RootFinder.new at h ⊢
  rw [ha es hop] at h
  rw [ha es' hop', ← hl]
  split at h
  · cases h
  rename_i h0
  rw [if_neg h0]
  rw [if_neg (by simp)] at h ⊢
  split at h
  · cases h
  rename_i h1
  rw [if_neg h1]
  split at h
  · cases h
  rename_i h2
  rw [if_neg h2]
  cases hes with
  | nil => exact absurd rfl h0
  | @cons e e' es es' he hes =>
    have hi : ∀ (a : AST F) (l : List (AST F)), (idx (a :: l) 0 : Out EvalError (AST F)) = .ok a := fun _ _ => rfl
    rw [hi, ok_bind] at h ⊢
    dsimp only at h ⊢
    obtain ⟨r, hr, h⟩ := bind_eq_ok.1 h
    obtain ⟨v, hv, h⟩ := bind_eq_ok.1 h
    have hr' : ∃ r', eval cfg n e' ([x].foldl (fun c i => c.addVar ⟨i, [.scalar (ofDec 821785 (-5))]⟩) ctx) = .ok r' ∧
        ∀ s, v = .scalar s → ∃ s', r'[0]? = some (.scalar s') := by
      rcases he with rfl | he
      · refine ⟨r, hr, fun s hs => ⟨s, ?_⟩⟩
        cases r with
        | nil => cases hv
        | cons w r => cases hv; rw [hs]; rfl
      · obtain ⟨r', h1, hf⟩ := he _ _ hr
        refine ⟨r', h1, fun s hs => ?_⟩
        subst hs
        cases hf with
        | nil => cases hv
        | vector => cases hv
        | matrix => cases hv
        | number _ => exact ⟨_, rfl⟩
    obtain ⟨r', hr', hs⟩ := hr'
    rw [hr', ok_bind]
    cases v with
    | vector v => cases h
    | matrix v => cases h
    | scalar s =>
      obtain ⟨s', hs'⟩ := hs s rfl
      rw [hs']
      simp only [Out.unwrap, ok_bind]
      cases h
      refine ⟨rfl, rfl, rfl, ?_⟩
      intro c hc
      dsimp only at hc
      split at hc
      · rw [genComb_eq_combs, mem_combs] at hc
        exact hc.2
      · rw [List.mem_singleton] at hc
        subst hc
        rw [List.length_range]
        simp only [List.length_cons, List.length_nil] at *
        omega

/-- The same equation, or with the sides exchanged. -/
theorem turned_equation (p : AST F × AST F) : Turned cfg n (AST.simple .sub p.1 p.2) (AST.simple .sub p.2 p.1) := Or.inr (flips_sub _ _)

theorem equations_turned (hp : cfg.prec ≤ 22) {x : Str} {ctx : Context F} {eqs eqs' : List (AST F × AST F)}
    (h : List.Forall₂ (fun p q => q = p ∨ q = (p.2, p.1)) eqs eqs') {vs : List (Value F)}
    (hv : solveEquations cfg (eval cfg n) eqs ctx [x] = .ok vs) : solveEquations cfg (eval cfg n) eqs' ctx [x] = .ok vs := by
  have hes : List.Forall₂ (Turned cfg n) (eqs.map fun i => AST.simple .sub i.1 i.2) (eqs'.map fun i => AST.simple .sub i.1 i.2) := by
    rw [List.forall₂_map_left_iff, List.forall₂_map_right_iff]
    refine h.imp fun p q hpq => ?_
    rcases hpq with rfl | rfl
    · exact Or.inl rfl
    · exact turned_equation p
  have hop : ∀ l : List (AST F × AST F), ∀ e ∈ l.map fun i => AST.simple .sub i.1 i.2, e.isOperation = true := by
    intro l e he
    obtain ⟨i, -, rfl⟩ := List.mem_map.1 he
    rfl
  unfold solveEquations at hv ⊢
  obtain ⟨rf, hrf, hv⟩ := bind_eq_ok.1 hv
  obtain ⟨h1, h2, h3, h4⟩ := new_turned hes (hop _) (hop _) hrf
  dsimp only
  rw [h1, ok_bind]
  unfold RootFinder.findRoots at hv ⊢
  obtain ⟨es, cs, c, ns⟩ := rf
  dsimp only at h2 h3 h4 hv ⊢
  subst h2 h3
  exact roots_turned hp hes cs h4 cs hv

end
end MUL
