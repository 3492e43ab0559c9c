import Verif.Spec.Rewrite
import Verif.Props.SidesAnywhere
import Verif.Props.FloatLaws
import Verif.Props.Scalar
import Verif.Proofs.Rewrite
/-!
# C109: rewriting rules
-/

set_option linter.unusedSectionVars false

namespace MUL
open Out FArith FElem Spec

section
variable {F : Type} [FNum F] {cfg : Cfg}

/-- The laws of numbers the rules need. -/
structure Commutes (F : Type) [FNum F] : Prop where
  add : ∀ a b : F, FArith.add a b = FArith.add b a
  mul : ∀ a b : F, FArith.mul a b = FArith.mul b a
  twice : ∀ a : F, FArith.mul (ofInt (-1)) (FArith.mul (ofInt (-1)) a) = a

theorem eval_simple (n : Nat) (op : SimpleOp) (l r : AST F) (c : Context F) :
    eval cfg (n + 1) (.simple op l r) c = (eval cfg n l c >>= fun lv => eval cfg n r c >>= fun rv => applyAll op lv rv) := by
  simp only [eval, evalRec]

theorem simple_ok {n : Nat} {op : SimpleOp} {l r : AST F} {c : Context F} {vs : List (Value F)} (h : eval cfg n (.simple op l r) c = .ok vs) :
    ∃ m lv rv, n = m + 1 ∧ eval cfg m l c = .ok lv ∧ eval cfg m r c = .ok rv ∧ applyAll op lv rv = .ok vs := by
  cases n with
  | zero => cases h
  | succ m =>
    rw [eval_simple] at h
    obtain ⟨lv, h1, h⟩ := bind_eq_ok.1 h
    obtain ⟨rv, h2, h⟩ := bind_eq_ok.1 h
    exact ⟨m, lv, rv, rfl, h1, h2, h⟩

theorem eval_more {n m : Nat} (hnm : n ≤ m) {t : AST F} {c : Context F} {vs : List (Value F)} (h : eval cfg n t c = .ok vs) : eval cfg m t c = .ok vs := by
  rcases evalRec_le cfg hnm t c [] with h' | h'
  · rw [show evalRec cfg n t c [] = .ok vs from h] at h'
    cases h'
  · exact h'.symm.trans h

theorem applyOp_sole {op : SimpleOp} (hop : op ≠ .addSub) {a b : Value F} {vs : List (Value F)} (h : applyOp op a b = .ok vs) : ∃ v, vs = [v] := by
  have one : ∀ {x : Out String (Value F)} {vs}, (liftMath x >>= fun v => (.ok [v] : Out EvalError (List (Value F)))) = .ok vs → ∃ v, vs = [v] := by
    intro x vs h
    obtain ⟨v, _, h⟩ := bind_eq_ok.1 h
    cases h
    exact ⟨v, rfl⟩
  cases op
  case addSub => exact absurd rfl hop
  case parenths => cases h; exact ⟨_, rfl⟩
  all_goals exact one h

/-- An expression of numbers has one value, a number. -/
theorem one_number {e : AST F} (he : OneNumber e) {n : Nat} {c : Context F} {vs : List (Value F)} (h : eval cfg n e c = .ok vs) : ∃ s, vs = [.scalar s] := by
  induction he generalizing n vs with
  | number s =>
    cases n with
    | zero => cases h
    | succ n =>
      simp only [eval, evalRec] at h
      cases h
      exact ⟨s, rfl⟩
  | operation op l r hop _ _ ihl ihr =>
    obtain ⟨m, lv, rv, rfl, h1, h2, h3⟩ := simple_ok h
    obtain ⟨a, rfl⟩ := ihl h1
    obtain ⟨b, rfl⟩ := ihr h2
    rw [applyAll_single] at h3
    obtain ⟨v, rfl⟩ := applyOp_sole hop h3
    have hn := applyOp_numbers op a b
    rw [h3] at hn
    obtain ⟨s, rfl⟩ := hn.2 v (by simp)
    exact ⟨s, rfl⟩

/-- Combining with one value on either side. -/
theorem applyAll_left {op op' : SimpleOp} {a b : Value F} (h : ∀ j vs, applyOp op a j = .ok vs → applyOp op' j b = .ok vs) {rv vs : List (Value F)}
    (hv : applyAll op [a] rv = .ok vs) : applyAll op' rv [b] = .ok vs := by
  unfold applyAll at hv ⊢
  rw [mapM_single] at hv
  obtain ⟨rs, h1, hv⟩ := bind_eq_ok.1 hv
  obtain ⟨r0, h2, h3⟩ := bind_eq_ok.1 h1
  obtain ⟨r1, h4, h5⟩ := bind_eq_ok.1 h2
  cases h5
  cases h3
  rw [List.flatten_singleton] at hv
  have := mapM_eq_ok.1 h4
  have h6 : rv.mapM (fun i => do
      let r ← [b].mapM fun j => applyOp op' i j
      (.ok r.flatten : Out EvalError (List (Value F)))) = .ok r1 := mapM_eq_ok.2 (this.imp fun j y hj => by rw [mapM_single, h j y hj]; simp)
  rw [h6]
  exact hv

theorem applyAll_right {op op' : SimpleOp} {a b : Value F} (h : ∀ j vs, applyOp op j a = .ok vs → applyOp op' b j = .ok vs) {lv vs : List (Value F)}
    (hv : applyAll op lv [a] = .ok vs) : applyAll op' [b] lv = .ok vs := by
  unfold applyAll at hv ⊢
  obtain ⟨rs, h1, hv⟩ := bind_eq_ok.1 hv
  have h2 := mapM_eq_ok.1 h1
  rw [mapM_single]
  have h3 : lv.mapM (fun j => applyOp op' b j) = .ok rs := mapM_eq_ok.2 (h2.imp fun j y hj => by
    rw [mapM_single] at hj
    obtain ⟨z, h4, h5⟩ := bind_eq_ok.1 hj
    obtain ⟨w, h6, h7⟩ := bind_eq_ok.1 h4
    cases h7
    cases h5
    rw [List.flatten_singleton]
    exact h j w h6)
  rw [h3]
  simpa using hv

theorem scalar_add (hF : Commutes F) (s : F) (j : Value F) (vs : List (Value F)) : applyOp .add (.scalar s) j = .ok vs ↔ applyOp .add j (.scalar s) = .ok vs := by
  cases j with
  | scalar t => simp only [applyOp, vAdd, sadd, hF.add s t]
  | vector v => simp [applyOp, vAdd, liftMath, Out.mapErr]
  | matrix v => simp [applyOp, vAdd, liftMath, Out.mapErr]

theorem scalar_mult (hF : Commutes F) (s : F) (j : Value F) (vs : List (Value F)) : applyOp .mult (.scalar s) j = .ok vs ↔ applyOp .mult j (.scalar s) = .ok vs := by
  cases j with
  | scalar t => simp only [applyOp, vMult, ssmult, hF.mul s t]
  | vector v => rfl
  | matrix v => rfl

/-- Negation of all values. -/
def negated : Value F → Value F
  | .scalar a => .scalar (mul (ofInt (-1)) a)
  | .vector a => .vector (a.map fun x => mul (ofInt (-1)) x)
  | .matrix a => .matrix (a.map fun x => x.map fun y => mul (ofInt (-1)) y)

theorem sub_negated (hF : Commutes F) (a b v : Value F) : vSub a b = .ok v ↔ vAdd a (negated b) = .ok v := by
  have hv : ∀ (a b : List F), vsub a b = vadd a (b.map fun x => mul (ofInt (-1)) x) := fun a b => by
    unfold vsub
    simp only [hF.mul _ (ofInt (-1))]
  cases a <;> cases b <;> simp [negated, vSub, vAdd, hv, msub_ok hF.mul, hF.mul _ (ofInt (-1))]

theorem applyAll_minus (hF : Commutes F) (lv rv vs : List (Value F)) : applyAll .sub lv rv = .ok vs ↔ applyAll .add lv (rv.map negated) = .ok vs := by
  have h0 : ∀ (i j : Value F) ws, applyOp .sub i j = .ok ws ↔ applyOp .add i (negated j) = .ok ws := by
    intro i j ws
    simp only [applyOp, bind_eq_ok, liftMath, mapErr_eq_ok, sub_negated hF]
  have h1 : ∀ (i : Value F) (zs : List (List (Value F))), rv.mapM (fun j => applyOp .sub i j) = .ok zs ↔ (rv.map negated).mapM (fun j => applyOp .add i j) = .ok zs := by
    intro i zs
    rw [mapM_eq_ok, mapM_eq_ok, List.forall₂_map_left_iff]
    simp only [h0]
  unfold applyAll
  simp only [bind_eq_ok, mapM_eq_ok (f := fun i => _ >>= _), h1]

theorem negated_twice (hF : Commutes F) (v : Value F) : negated (negated v) = v := by
  cases v with
  | scalar a => simp [negated, hF.twice]
  | vector a => simp [negated, hF.twice, Function.comp_def]
  | matrix a => simp [negated, hF.twice, Function.comp_def]

theorem applyAll_neg (z : Value F) (lv : List (Value F)) : applyAll .neg [z] lv = .ok (lv.map (negated)) := by
  unfold applyAll
  rw [mapM_single, mapM_ok_of_forall (g := fun v => [negated v]) (fun j _ => by cases j <;> rfl)]
  simp only [ok_bind]
  congr 1
  rw [List.flatten_singleton]
  induction lv with
  | nil => rfl
  | cons a l ih => simpa using ih

theorem applyAll_brackets (z : Value F) (lv : List (Value F)) : applyAll .parenths lv [z] = .ok lv := by
  unfold applyAll
  rw [mapM_ok_of_forall (g := fun v => [v]) (fun j _ => by rw [mapM_single]; rfl)]
  simp only [ok_bind]
  congr 1
  induction lv with
  | nil => rfl
  | cons a l ih => simpa using ih

theorem eval_number (n : Nat) (s : F) (c : Context F) : eval cfg (n + 1) (.scalar s) c = .ok [.scalar s] := by
  simp only [eval, evalRec]

/-- From left to right. -/
theorem rule_forth (hF : Commutes F) {a a' : AST F} (h : Rule a a') (c : Context F) (n : Nat) (vs : List (Value F)) (hv : eval cfg n a c = .ok vs) :
    eval cfg (n + 3) a' c = .ok vs := by
  cases h with
  | sum k e hk =>
    obtain ⟨m, lv, rv, rfl, h1, h2, h3⟩ := simple_ok hv
    obtain ⟨s, rfl⟩ := one_number hk h1
    refine eval_more (n := m + 1) (by omega) ?_
    rw [eval_simple, h1, h2]
    exact applyAll_left (fun j vs => (scalar_add hF s j vs).1) h3
  | product k e hk =>
    obtain ⟨m, lv, rv, rfl, h1, h2, h3⟩ := simple_ok hv
    obtain ⟨s, rfl⟩ := one_number hk h1
    refine eval_more (n := m + 1) (by omega) ?_
    rw [eval_simple, h1, h2]
    exact applyAll_left (fun j vs => (scalar_mult hF s j vs).1) h3
  | hidden l r =>
    obtain ⟨m, lv, rv, rfl, h1, h2, h3⟩ := simple_ok hv
    refine eval_more (n := m + 1) (by omega) ?_
    rw [eval_simple, h1, h2]
    exact h3
  | minus l r =>
    obtain ⟨m, lv, rv, rfl, h1, h2, h3⟩ := simple_ok hv
    refine eval_more (n := m + 3) (by omega) ?_
    rw [eval_simple, eval_more (by omega) h1, eval_simple, eval_number, eval_more (by omega) h2, ok_bind, ok_bind, ok_bind, applyAll_neg]
    exact (applyAll_minus hF _ _ _).1 h3
  | negative e =>
    obtain ⟨m, lv, rv, rfl, h1, h2, h3⟩ := simple_ok hv
    obtain ⟨m, lv', rv', rfl, h4, h5, h6⟩ := simple_ok h2
    obtain ⟨m, lv'', rv'', rfl, h7, h8, h9⟩ := simple_ok h4
    rw [eval_number] at h1 h5 
    cases h1
    cases h5
    cases m with
    | zero => cases h7
    | succ m =>
      rw [eval_number] at h7
      cases h7
      rw [applyAll_neg] at h9 h3
      cases h9
      rw [applyAll_brackets] at h6
      cases h6
      cases h3
      rw [List.map_map]
      have : (negated ∘ negated) = (id : Value F → Value F) := funext fun v => negated_twice hF v
      rw [this, List.map_id]
      exact eval_more (by omega) h8
  | parentheses e =>
    obtain ⟨m, lv, rv, rfl, h1, h2, h3⟩ := simple_ok hv
    cases m with
    | zero => cases h2
    | succ m =>
      rw [eval_number] at h2
      cases h2
      rw [applyAll_brackets] at h3
      cases h3
      exact eval_more (by omega) h1

/-- From right to left. -/
theorem rule_back (hF : Commutes F) {a a' : AST F} (h : Rule a a') (c : Context F) (n : Nat) (vs : List (Value F)) (hv : eval cfg n a' c = .ok vs) :
    eval cfg (n + 3) a c = .ok vs := by
  cases h with
  | sum k e hk =>
    obtain ⟨m, lv, rv, rfl, h1, h2, h3⟩ := simple_ok hv
    obtain ⟨s, rfl⟩ := one_number hk h2
    refine eval_more (n := m + 1) (by omega) ?_
    rw [eval_simple, h1, h2]
    exact applyAll_right (fun j vs => (scalar_add hF s j vs).2) h3
  | product k e hk =>
    obtain ⟨m, lv, rv, rfl, h1, h2, h3⟩ := simple_ok hv
    obtain ⟨s, rfl⟩ := one_number hk h2
    refine eval_more (n := m + 1) (by omega) ?_
    rw [eval_simple, h1, h2]
    exact applyAll_right (fun j vs => (scalar_mult hF s j vs).2) h3
  | hidden l r =>
    obtain ⟨m, lv, rv, rfl, h1, h2, h3⟩ := simple_ok hv
    refine eval_more (n := m + 1) (by omega) ?_
    rw [eval_simple, h1, h2]
    exact h3
  | minus l r =>
    obtain ⟨m, lv, rv, rfl, h1, h2, h3⟩ := simple_ok hv
    obtain ⟨m, lv', rv', rfl, h4, h5, h6⟩ := simple_ok h2
    cases m with
    | zero => cases h4
    | succ m =>
      rw [eval_number] at h4
      cases h4
      rw [applyAll_neg] at h6
      cases h6
      refine eval_more (n := m + 3) (by omega) ?_
      rw [eval_simple, h1, eval_more (by omega) h5]
      exact (applyAll_minus hF _ _ _).2 h3
  | negative e =>
    rw [eval_simple, eval_number, eval_simple, eval_simple, eval_number]
    cases n with
    | zero => cases hv
    | succ n =>
      rw [eval_number, hv]
      simp only [ok_bind, applyAll_neg, applyAll_brackets]
      rw [List.map_map]
      have : (negated ∘ negated) = (id : Value F → Value F) := funext fun v => negated_twice hF v
      rw [this, List.map_id]
  | parentheses e =>
    rw [eval_simple, eval_more (by omega) hv, eval_number, ok_bind, ok_bind, applyAll_brackets]

/-- **C109.** The rules can be used in both directions at any number of places of an expression, also below integrals, derivatives and equations:
the results stay the same. -/
theorem C109_rewrite (hF : Commutes F) {b b' : AST F} (hb : Replaced (fun a a' => Rule a a' ∨ Rule a' a) (fun _ => False) b b') (c : Context F)
    (vs : List (Value F)) : Finishes (fun n => eval cfg n b c) (.ok vs) ↔ Finishes (fun n => eval cfg n b' c) (.ok vs) :=
  C107_same (g := fun _ => none) 3
    (fun _ _ h c _ n vs hv => h.elim (fun h => rule_forth hF h c n vs hv) fun h => rule_back hF h c n vs hv)
    (fun _ _ h c _ n vs hv => h.elim (fun h => rule_back hF h c n vs hv) fun h => rule_forth hF h c n vs hv) hb nofun vs

theorem commutes_binary64 [Binary64 F] : Commutes F where
  add a b := (C83_commutative a b).1
  mul a b := (C83_commutative a b).2
  twice a := by rw [(C72_negated _).1, (C72_negated _).1, (C83_units a).2.2]

/-- **C109**, in binary64: bit for bit, with zeros, infinities and NaN. -/
theorem C109_binary64 [Binary64 F] {b b' : AST F} (hb : Replaced (fun a a' => Rule a a' ∨ Rule a' a) (fun _ => False) b b') (c : Context F)
    (vs : List (Value F)) : Finishes (fun n => eval cfg n b c) (.ok vs) ↔ Finishes (fun n => eval cfg n b' c) (.ok vs) :=
  C109_rewrite commutes_binary64 hb c vs

end

/-! ## Witness: below an integral -/

example (c : Context Double) (vs : List (Value Double)) (lo hi : AST Double) :
    Finishes (fun n => eval Cfg.default n (.integral (.simple .sub (.scalar (FArith.ofInt 2)) (.variable ['x'])) ['x'] lo hi) c) (.ok vs) ↔
      Finishes (fun n => eval Cfg.default n (.integral (.simple .add (.scalar (FArith.ofInt 2)) (.simple .neg (.scalar (FArith.ofInt 0)) (.variable ['x']))) ['x'] lo hi) c) (.ok vs) :=
  C109_binary64 (.integral _ _ _ _ _ _ _ id (.part _ _ (Or.inl (.minus _ _))) (.same _) (.same _)) c vs

end MUL
