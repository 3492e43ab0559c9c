import Verif.Proofs.EqSafe3
import Verif.Proofs.Rounding
import Verif.Props.Roots
import Verif.Props.ParserBasics
import Verif.Num.RatText
import Verif.Model.Lit
/-!
# C80: equations between formulas of numbers do not panic
-/

namespace MUL
open Out Spec

set_option linter.unusedSectionVars false

section
variable {F : Type} [FNum F]

theorem start_of {F : Type} [FNum F] (hstart : ∀ j : Int, -1000 ≤ j → j < 1000 → IsFinite (FArith.ofInt j : F)) :
    ∀ j ∈ startValues, IsFinite (FArith.ofInt j : F) := by
  intro j hj
  unfold startValues at hj
  obtain ⟨k, hk, rfl⟩ := List.mem_map.1 hj
  rw [List.mem_range] at hk
  exact hstart _ (by omega) (by omega)

/-- C80: solving equations between formulas of numbers for at least one unknown never panics, whatever the numbers, the functions of
the formulas and the rest of the context are, and the solutions are well-formed values. Any arithmetic in which the whole numbers from
-1000 to 999 are finite and the absolute value of a finite number is a number. -/
theorem C80_equation (cfg : Cfg) (Φ V : Str → Prop) (eqs : List (AST F × AST F)) (names : List Str) (ctx : Context F)
    (hstart : ∀ j : Int, -1000 ≤ j → j < 1000 → IsFinite (FArith.ofInt j : F))
    (habs : ∀ a : F, IsFinite a → FArith.isNaN (FArith.abs a) = false)
    (hctx : NumberContext Φ V ctx) (hne : names ≠ [])
    (hl : ∀ p ∈ eqs, NumberFormula Φ (fun n => V n ∨ n ∈ names) p.1)
    (hr : ∀ p ∈ eqs, NumberFormula Φ (fun n => V n ∨ n ∈ names) p.2) (n : Nat) :
    eval cfg n (.equation eqs names) ctx ≠ .panic ∧
      ∀ vs, eval cfg n (.equation eqs names) ctx = .ok vs → ∀ v ∈ vs, WFValue v := by
  cases n with
  | zero => exact ⟨nofun, nofun⟩
  | succ n =>
    have := equation_safe cfg habs (start_of hstart) n hctx hne hl hr
    have he : eval cfg (n + 1) (.equation eqs names) ctx = solveEquations cfg (fun a c => evalRec cfg n a c []) eqs ctx names := by
      unfold eval
      rw [evalRec.eq_def]
    rw [he]
    exact ⟨this.ne_panic, fun vs h => this.of_ok h⟩

/-- C80 for trees: an equation may stand anywhere in a well-formed tree. -/
theorem C80_tree (cfg : Cfg) (Φ V : Str → Prop) (b : AST F) (ctx : Context F)
    (hstart : ∀ j : Int, -1000 ≤ j → j < 1000 → IsFinite (FArith.ofInt j : F))
    (habs : ∀ a : F, IsFinite a → FArith.isNaN (FArith.abs a) = false)
    (hb : Harmless Φ V b) (hwf : WFCtx ctx) (hctx : NumberContext Φ V ctx) (n : Nat) :
    eval cfg n b ctx ≠ .panic ∧ ∀ vs, eval cfg n b ctx = .ok vs → ∀ v ∈ vs, WFValue v := by
  have := evalRec_harmless cfg Φ habs (start_of hstart) n V hb ⟨hwf, hctx⟩ []
  exact ⟨this.ne_panic, fun vs h => this.of_ok h⟩

/-- C80 for texts. -/
theorem C80_text [UTable] (cfg : Cfg) (Φ V : Str → Prop) (s : Str) (b : AST F) (ctx : Context F)
    (hstart : ∀ j : Int, -1000 ≤ j → j < 1000 → IsFinite (FArith.ofInt j : F))
    (habs : ∀ a : F, IsFinite a → FArith.isNaN (FArith.abs a) = false)
    (h : parse cfg s = .ok b) (hb : Harmless Φ V b) (hwf : WFCtx ctx) (hctx : NumberContext Φ V ctx) (n : Nat) :
    quickEval cfg n s ctx ≠ .panic ∧ ∀ vs, quickEval cfg n s ctx = .ok vs → ∀ v ∈ vs, WFValue v := by
  have hq : quickEval cfg n s ctx = (eval cfg n b ctx).mapErr .evalError := by
    unfold quickEval
    rw [h]
    rfl
  obtain ⟨h1, h2⟩ := C80_tree cfg Φ V b ctx hstart habs hb hwf hctx n
  rw [hq]
  refine ⟨fun hp => h1 ?_, fun vs hvs => h2 vs (mapErr_eq_ok.1 hvs)⟩
  revert hp
  cases eval cfg n b ctx <;> simp [Out.mapErr]

/-- The side condition on integrals: between bounds that cannot be compared (one of them is NaN), an integral has no value at all. -/
theorem C80_incomparable (cfg : Cfg) (e : AST F) (x : Str) (a b : F) (ctx : Context F) (h0 : FArith.beq a b = false)
    (h1 : FArith.lt a b = false) (h2 : FArith.lt b a = false) (n : Nat) :
    eval cfg (n + 2) (.integral e x (.scalar a) (.scalar b)) ctx = .ok [] := by
  have h : calculateIntegral cfg (fun a c => evalRec cfg (n + 1) a c []) (n + 1) e x (.scalar a) (.scalar b) ctx = .ok [] := by
    unfold calculateIntegral
    simp only [h0, h2, Bool.false_eq_true, if_false]
    unfold integralLoop
    rw [if_neg (by rw [h1]; simp)]
    rfl
  have hs : ∀ s : F, evalRec cfg (n + 1) (.scalar s) ctx [] = .ok [.scalar s] := fun s => by simp only [evalRec]
  unfold eval
  rw [evalRec.eq_def]
  simp only [hs, ok_bind]
  simp [h, ok_bind]

end

/-- C80 in exact arithmetic over the real numbers: no conditions on the arithmetic are left. -/
theorem C80_exact {F : Type} [FNum F] [ExactReal F] (cfg : Cfg) (Φ V : Str → Prop) (b : AST F) (ctx : Context F)
    (hb : Harmless Φ V b) (hwf : WFCtx ctx) (hctx : NumberContext Φ V ctx) (n : Nat) : eval cfg n b ctx ≠ .panic := by
  refine (C80_tree cfg Φ V b ctx (fun j _ _ => start_finite F ℝ j) (fun a ha => ?_) hb hwf hctx n).1
  have h1 := Exact.finite_iff (F := F) (K := ℝ) a
  rw [ha.1, ha.2] at h1
  obtain ⟨x, hx⟩ := Option.isSome_iff_exists.1 (by simpa using h1.symm : (Exact.val a : Option ℝ).isSome)
  have h2 := Exact.finite_iff (F := F) (K := ℝ) (FArith.abs a)
  rw [Exact.val_abs, hx, Option.map_some, Option.isNone_some, Bool.or_eq_false_iff] at h2
  exact h2.2

theorem finite_of_double {F : Type} [FNum F] [Binary64 F] (a : F) : (FArith.isInf a || FArith.isNaN a) = (Binary64.val a).isNone := by
  rw [Binary64.bits_isNaN, Binary64.bits_isInf]
  exact Exact.finite_iff (F := Ext ℚ) (K := ℚ) (Binary64.bits a).ext

/-- C80 in binary64: no conditions on the arithmetic are left. -/
theorem C80_double {F : Type} [FNum F] [Binary64 F] (cfg : Cfg) (Φ V : Str → Prop) (b : AST F) (ctx : Context F)
    (hb : Harmless Φ V b) (hwf : WFCtx ctx) (hctx : NumberContext Φ V ctx) (n : Nat) : eval cfg n b ctx ≠ .panic := by
  refine (C80_tree cfg Φ V b ctx (fun j h1 h2 => ?_) (fun a ha => ?_) hb hwf hctx n).1
  · have h := finite_of_double (FArith.ofInt j : F)
    have hj : |j| ≤ 2 ^ 53 := by rw [abs_le]; constructor <;> omega
    rw [val_int hj, Option.isNone_some, Bool.or_eq_false_iff] at h
    exact ⟨h.2, h.1⟩
  · have h1 := finite_of_double a
    rw [ha.1, ha.2] at h1
    obtain ⟨x, hx⟩ := Option.isSome_iff_exists.1 (by simpa using h1.symm : (Binary64.val a).isSome)
    have h2 := finite_of_double (FArith.abs a)
    rw [Binary64.val_abs, hx, Option.map_some, Option.isNone_some, Bool.or_eq_false_iff] at h2
    exact h2.2

/-! ## The conditions are met, and they are needed -/

section
attribute [local instance] UTable.ascii

/-- `eq(f(x)+y=3,D(y,y,x)*x-y=1,x,y)` with `f(t)=t^2*a` and `a=2,-2` is harmless, wherever it stands. -/
example {F : Type} [FNum F] (two three one : F) :
    Harmless (F := F) (fun g => g = str! "f") (fun n => n = str! "a")
      (.simple .add (.scalar one) (.equation
        [(.simple .add (.function str! "f" [.variable str! "x"]) (.variable str! "y"), .scalar three),
         (.simple .sub (.simple .mult (.derivative (.variable str! "y") str! "y" (.variable str! "x")) (.variable str! "x")) (.variable str! "y"),
          .scalar one)]
        [str! "x", str! "y"])) ∧
    NumberContext (F := F) (fun g => g = str! "f") (fun n => n = str! "a")
      ⟨[⟨str! "a", [.scalar two, .scalar (FArith.neg two)]⟩, ⟨str! "v", [.vector [one, two]]⟩],
       [⟨str! "f", .simple .mult (.simple .pow (.variable str! "t") (.scalar two)) (.variable str! "a"), [str! "t"]⟩,
        ⟨str! "g", .vector [.variable str! "t"], [str! "t"]⟩]⟩ ∧
    WFCtx (F := F)
      ⟨[⟨str! "a", [.scalar two, .scalar (FArith.neg two)]⟩, ⟨str! "v", [.vector [one, two]]⟩],
       [⟨str! "f", .simple .mult (.simple .pow (.variable str! "t") (.scalar two)) (.variable str! "a"), [str! "t"]⟩,
        ⟨str! "g", .vector [.variable str! "t"], [str! "t"]⟩]⟩ := by
  refine ⟨.simple _ _ _ (.scalar _) (.equation _ _ (by simp) ?_ ?_), ⟨?_, ?_⟩, ⟨?_, ?_⟩⟩
  · intro p hp
    simp only [List.mem_cons, List.not_mem_nil, or_false] at hp
    rcases hp with rfl | rfl
    · exact .simple _ _ _ (.function _ _ rfl (by simpa using .variable _ (by simp))) (.variable _ (by simp))
    · exact .simple _ _ _ (.simple _ _ _ (.derivative _ _ _ (.variable _ (by simp)) (.variable _ (by simp))) (.variable _ (by simp)))
        (.variable _ (by simp))
  · intro p hp
    simp only [List.mem_cons, List.not_mem_nil, or_false] at hp
    rcases hp with rfl | rfl <;> exact .scalar _
  · intro v hv hn
    simp only [List.mem_cons, List.not_mem_nil, or_false] at hv
    rcases hv with rfl | rfl
    · exact ⟨by simp, by simp⟩
    · simp at hn
  · intro f hf hn
    simp only [List.mem_cons, List.not_mem_nil, or_false] at hf
    rcases hf with rfl | rfl
    · exact .simple _ _ _ (.simple _ _ _ (.variable _ (by simp)) (.scalar _)) (.variable _ (by simp))
    · simp at hn
  · intro v hv x hx
    simp only [List.mem_cons, List.not_mem_nil, or_false] at hv
    rcases hv with rfl | rfl <;> simp only [List.mem_cons, List.not_mem_nil, or_false] at hx
    · rcases hx with rfl | rfl <;> trivial
    · subst hx
      exact List.cons_ne_nil _ _
  · intro f hf
    simp only [List.mem_cons, List.not_mem_nil, or_false] at hf
    rcases hf with rfl | rfl
    · exact .simple _ _ _ (.simple _ _ _ (.variable _) (.scalar _)) (.variable _)
    · exact .vector _ (by simp) (by simpa using .variable _)

/-- Without the condition on integrals the claim is false: the upper bound is not a number. -/
theorem C80_integral_false : quickEval Cfg.default 10 str! "eq(I(1,t,0,sqrt(0-4))=x,x)" (⟨[], []⟩ : Context Q) = .panic := by
  decide +kernel

/-- With vectors in an equation other than the first the claim is false. -/
theorem C80_vector_false : quickEval Cfg.default 10 str! "eq(x=1,[1,2]=[1,y],x,y)" (⟨[], []⟩ : Context Q) = .panic := by
  decide +kernel

end

end MUL
