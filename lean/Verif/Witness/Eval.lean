import Verif.Props.Construct
import Verif.Props.EvalSafe
import Verif.Props.Counts
import Verif.Props.Depth
import Verif.Props.EqSafe
import Verif.Props.EqTest
import Verif.Props.Equality
import Verif.Props.Errors
import Verif.Props.Cycles
import Verif.Witness.Calculus
/-!
# Concrete cases for the theorems about evaluation
(Props/Eval.lean, EvalCtx.lean, EvalSafe.lean, Construct.lean, ContextMap.lean, Counts.lean, Depth.lean, EqSafe.lean, EqTest.lean, Equality.lean,
Errors.lean)
-/

namespace MUL
open Out Spec FArith

attribute [local instance] UTable.ascii

/-- `f(t)=t*a` and `a` with the two values 2 and 3, and a vector `v`. -/
def wF : Function Q := ⟨['f'], .simple .mult (.variable ['t']) (.variable ['a']), [['t']]⟩
def wC : Context Q := ⟨[⟨['a'], [.scalar (.fin 2), .scalar (.fin 3)]⟩, ⟨['v'], [.vector [.fin 1, .fin 2]]⟩], [wF]⟩
/-- `f(x±1)` where `x` is bound later. -/
def wT : AST Q := .simple .add (.function ['f'] [.simple .addSub (wN 5) (wN 1)]) (wN 10)

theorem wC_wf : WFCtx wC := by
  refine ⟨?_, ?_⟩
  · intro v hv x hx
    simp only [wC, List.mem_cons, List.not_mem_nil, or_false] at hv
    rcases hv with rfl | rfl <;> simp only [List.mem_cons, List.not_mem_nil, or_false] at hx
    · rcases hx with rfl | rfl <;> trivial
    · subst hx; simp [WFValue]
  · intro f hf
    simp only [wC, List.mem_cons, List.not_mem_nil, or_false] at hf
    subst hf
    exact .simple _ _ _ (.variable _) (.variable _)

theorem wT_free : EqFree wT := .simple _ _ _ (.function _ _ (by simpa using .simple _ _ _ (.scalar _) (.scalar _))) (.scalar _)

theorem wT_val : Finishes (fun n => eval Cfg.default n wT wC)
    (.ok [.scalar (.fin 22), .scalar (.fin 28), .scalar (.fin 18), .scalar (.fin 22)]) := by
  refine ⟨by simp, 5, ?_⟩
  beta_reduce
  decide +kernel

example (cfg : Cfg) := C26_no_panic cfg 7 wT wC wT_free wC_wf
example := C27_wellformed Cfg.default 5 wT wC wT_free wC_wf (vs := [.scalar (.fin 22), .scalar (.fin 28), .scalar (.fin 18), .scalar (.fin 22)])
  (by decide +kernel)
theorem wParse : parse Cfg.default "f(a)*v".toList = .ok (.simple .mult (.function ['f'] [.variable ['a']]) (.variable ['v']) : AST Q) := rfl
example := C26_text Cfg.default 7 "f(a)*v".toList _ wC wParse (by rintro h; cases h with
  | left _ _ _ h => cases h with
    | arg _ _ _ ha h => simp only [List.mem_cons, List.not_mem_nil, or_false] at ha; subst ha; cases h
  | right _ _ _ h => cases h) wC_wf

/-! ## Contexts -/

example := C21_constructed Cfg.default [⟨['y'], []⟩] [⟨['x'], []⟩] [] ['x'] [.scalar (.fin 4 : Q)] (by simp)
example := C01_removed (F := Q) Cfg.default 3 wC [.addVar ⟨['x'], []⟩] [.addVar ⟨['y'], []⟩] ['x'] (by simp)
example := C85_order (F := Q) ⟨['x'], [.scalar (.fin 1)]⟩ ⟨['y'], [.scalar (.fin 2)]⟩ (by simp)

/-! ## Calls -/

theorem wF_found : wC.findFun wF.name = some wF := rfl
example (cfg : Cfg) := C22_no_function cfg 3 wC ['g'] [wN 1] (by simp) (by simp [wC, wF])
example (cfg : Cfg) := C22_wrong_count cfg 3 wC wF [wN 1, wN 2] (by simp [wF]) wF_found (by simp [wF])
/-- `f(z)` with an unknown `z`. -/
example (cfg : Cfg) := C22_arg_error cfg wC wF [] [] (.variable ['z']) [] (.noVariable ['z']) (by simp [wF]) wF_found rfl .nil ⟨by simp, 1, rfl⟩
/-- `g(t)=t*b` with an unknown `b`. -/
example (cfg : Cfg) : Finishes (fun n => eval cfg n (.function ['g'] [wN 1]) ⟨[], [⟨['g'], .simple .mult (.variable ['t']) (.variable ['b']), [['t']]⟩]⟩)
    (.err (.noVariable ['b'])) :=
  C22_body_error cfg ⟨[], [⟨['g'], .simple .mult (.variable ['t']) (.variable ['b']), [['t']]⟩]⟩ ⟨['g'], .simple .mult (.variable ['t']) (.variable ['b']), [['t']]⟩
    [wN 1] [[.scalar (.fin 1)]] rfl (by simp) rfl (by simp) (by rintro h; cases h with
      | left _ _ _ h => cases h
      | right _ _ _ h => cases h) (by rintro h; cases h with
      | left _ _ _ h => cases h
      | right _ _ _ h => cases h) (.cons (wN_fin _ _ 1) .nil)
    (fun p => ⟨(p.map fun v => ⟨['t'], [v]⟩), [⟨['g'], .simple .mult (.variable ['t']) (.variable ['b']), [['t']]⟩]⟩) (fun _ => []) [] [] [.scalar (.fin 1)] _ rfl
    (by
      intro p hp
      simp only [choices, List.flatMap_cons, List.flatMap_nil, List.map_cons, List.map_nil, List.append_nil, List.mem_cons, List.not_mem_nil, or_false] at hp
      subst hp
      refine ⟨by simp [NoDupVars], ?_, ?_, fun _ => rfl⟩
      · intro i h _
        match i, h with
        | 0, _ => rfl
      · intro n hn
        simp only [List.mem_cons, List.not_mem_nil, or_false] at hn
        simp [Context.findVar, Ne.symm hn]) (by simp) ⟨by simp, 3, rfl⟩

/-- `{1,2}±{3,4}` has eight values. -/
example := C19_count (cfg := Cfg.default) (op := .addSub) (l := .list [wN 1, wN 2]) (r := .list [wN 3, wN 4]) (ctx := wC) (w := [])
  (lv := [.scalar (.fin 1), .scalar (.fin 2)]) (rv := [.scalar (.fin 3), .scalar (.fin 4)])
  (vs := [.scalar (.fin 4), .scalar (.fin (-2)), .scalar (.fin 5), .scalar (.fin (-3)), .scalar (.fin 5), .scalar (.fin (-1)), .scalar (.fin 6), .scalar (.fin (-2))])
  ⟨by simp, 2, rfl⟩ ⟨by simp, 2, rfl⟩ (n := 3) (by decide +kernel)

/-! ## Termination and depth -/

def wRank : Str → Nat := fun n => if n = ['f'] then 0 else 1
theorem wC_acyclic (ints : Prop) : Acyclic ints wC.funs wRank := by
  intro f hf
  simp only [wC, List.mem_cons, List.not_mem_nil, or_false] at hf
  subst hf
  exact .simple _ _ _ (.variable _) (.variable _)
theorem wT_ranked (ints : Prop) : Ranked wRank ints 1 wT :=
  .simple _ _ _ (.function _ _ (by simp [wRank]) (by simpa using .simple _ _ _ (.scalar _) (.scalar _))) (.scalar _)
/-- `I(f(x),x,0,1)`. -/
theorem wI_ranked : Ranked wRank True 1 (.integral (.function ['f'] [wX]) ['x'] (wN 0) (wN 1)) :=
  .integral _ _ _ _ trivial (.function _ _ (by simp [wRank]) (by simpa using .variable _)) (.scalar _) (.scalar _)

example (cfg : Cfg) := C24_terminates cfg False 0 (fun h => h.elim) wC wRank (wC_acyclic _) 1 wT (wT_ranked _)
example := C24_terminates Cfg.default True _ (fun _ => C43_arrives (K := ℚ) Cfg.default (by decide)) wC wRank (wC_acyclic _) 1 _ wI_ranked
example (cfg : Cfg) := C24_no_functions cfg wE (.simple .add wX (wN 1)) (.simple _ _ _ (.variable _) (.scalar _)) rfl
theorem wC_height : ∀ f ∈ wC.funs, HeightLe 2 f.ast := by
  intro f hf
  simp only [wC, List.mem_cons, List.not_mem_nil, or_false] at hf
  subst hf
  exact .simple _ _ _ _ (.variable _ _) (.variable _ _)
example := C90_depth_integrals Cfg.default _ (C43_arrives (K := ℚ) Cfg.default (by decide)) wC wRank (wC_acyclic _) 2 wC_height 1 3 _ wI_ranked
  (.integral _ _ _ _ _ (.function _ _ _ (by simpa using .variable _ _)) (.scalar _ _) (.scalar _ _)) 100005 (by decide)
example := C90_height Cfg.default "f(a)*v".toList _ wParse
example := C90_text Cfg.default wC wRank (wC_acyclic _) 2 wC_height 1 "f(a)*v".toList (by
  intro b hb
  rw [wParse] at hb
  cases hb
  exact .simple _ _ _ (.function _ _ (by simp [wRank]) (by simpa using .variable _)) (.variable _)) 18 (by decide)
example := C90_unbounded Cfg.default (.var ['x']) (wf_name (n := "x") (by decide)) 100 wC

/-! ## Numbers of values -/

theorem wFinite : ∀ j : Int, -1000 ≤ j → j < 1000 → IsFinite (FArith.ofInt j : Q) := fun _ _ _ => ⟨rfl, rfl⟩
theorem wC_nodup : (wC.vars.map (·.name)).Nodup := by decide
theorem wT_count : ValueCount (fun g => wC.findFun g) (countOf wC) wT 4 4 := by
  refine .simple .add _ _ 4 4 1 1 (by decide) ?_ (.scalar _)
  refine .function ['f'] wF 2 2 [(_, 2, 2)] rfl ?_ (.simple .mult _ _ 1 1 2 2 (by decide) (.variable ['t']) (.variable ['a']))
  intro p hp
  rw [List.mem_singleton] at hp
  subst hp
  exact .addSub _ _ 1 1 1 1 (.scalar _) (.scalar _)
example := C82_bounds Cfg.default wT wC 4 4 _ wFinite wC_nodup wT_count wT_val
example := C82_exact Cfg.default wT wC 4 _ wFinite wC_nodup wT_count wT_val
example := C82_one Cfg.default (.simple .mult (.variable ['x']) (wN 2)) ⟨[⟨['x'], [.scalar (.fin 3)]⟩], []⟩ [.scalar (.fin 6)] wFinite (by decide) (by simp)
  (.simple _ _ _ (by decide) (.variable _) (.scalar _)) ⟨by simp, 2, by simp only [eval]; decide +kernel⟩

/-! ## Equations -/

def wEq : List (AST Q × AST Q) := [(.simple .pow wX (wN 2), .function ['f'] [wX])]
theorem wC_numbers : NumberContext (fun g => g = ['f']) (fun n => n = ['a']) wC := by
  refine ⟨?_, ?_⟩
  · intro v hv hn
    simp only [wC, List.mem_cons, List.not_mem_nil, or_false] at hv
    rcases hv with rfl | rfl
    · exact ⟨by simp, by simp⟩
    · cases hn
  · intro f hf _
    simp only [wC, List.mem_cons, List.not_mem_nil, or_false] at hf
    subst hf
    exact .simple _ _ _ (.variable _ (Or.inr (by simp [wF]))) (.variable _ (Or.inl rfl))
theorem wEq_l : ∀ p ∈ wEq, NumberFormula (fun g => g = ['f']) (fun n => n = ['a'] ∨ n ∈ [['x']]) p.1 := by
  simpa [wEq] using .simple _ _ _ (.variable _ (Or.inr (by simp))) (.scalar _)
theorem wEq_r : ∀ p ∈ wEq, NumberFormula (fun g => g = ['f']) (fun n => n = ['a'] ∨ n ∈ [['x']]) p.2 := by
  simpa [wEq] using .function _ _ rfl (by simpa using .variable _ (Or.inr (by simp)))
theorem wAbs : ∀ a : Q, IsFinite a → FArith.isNaN (FArith.abs a) = false := by
  intro a h
  cases a with
  | nan => exact absurd h.1 (by decide)
  | _ => rfl
theorem wHarmless : Harmless (fun g => g = ['f']) (fun n => n = ['a']) (.simple .add (.equation wEq [['x']]) (wN 1)) :=
  .simple _ _ _ (.equation _ _ (by simp) wEq_l wEq_r) (.scalar _)

example := C80_equation Cfg.default _ _ wEq [['x']] wC wFinite wAbs wC_numbers (by simp) wEq_l wEq_r 100
example := C80_tree Cfg.default _ _ _ wC wFinite wAbs wHarmless wC_wf wC_numbers 100
theorem wParseEq : parse Cfg.default "eq(f(x)=a,x)".toList = .ok (.equation [(.function ['f'] [.variable ['x']], .variable ['a'])] [['x']] : AST Q) := rfl
example := C80_text Cfg.default (fun g => g = ['f']) (fun n => n = ['a']) "eq(f(x)=a,x)".toList _ wC wFinite wAbs wParseEq
  (.equation _ _ (by simp) (by simpa using .function _ _ rfl (by simpa using .variable _ (Or.inr (by simp)))) (by simpa using .variable _ (Or.inl rfl)))
  wC_wf wC_numbers 100
example := C80_incomparable Cfg.default wX ['x'] .nan (.fin 1) wC rfl rfl rfl 3
example := C80_exact (F := Ext ℝ) Cfg.default (fun _ => False) (fun _ => False) (.equation [(.variable ['x'], .scalar (ofInt 3))] [['x']]) Context.empty
  (.equation _ _ (by simp) (by simpa using .variable _ rfl) (by simpa using .scalar _)) ⟨by simp [Context.empty], by simp [Context.empty]⟩
  ⟨by simp [Context.empty], by simp [Context.empty]⟩ 100
example := C80_double (F := Double) Cfg.default (fun _ => False) (fun _ => False) (.equation [(.variable ['x'], .scalar (ofInt 3))] [['x']]) Context.empty
  (.equation _ _ (by simp) (by simpa using .variable _ rfl) (by simpa using .scalar _)) ⟨by simp [Context.empty], by simp [Context.empty]⟩
  ⟨by simp [Context.empty], by simp [Context.empty]⟩ 100
/-- `eq(3=3)?0` panics. -/
example := C81_panic Cfg.default [(wN 3, wN 3)] wE [.fin 0] (by simp) ⟨by decide +kernel, by decide +kernel⟩
  (.cons ⟨[], ⟨by simp, 2, by simp only [eval]; decide +kernel⟩⟩ .nil) ⟨by decide +kernel, by decide +kernel⟩ (.fin 0) (by decide +kernel) rfl

/-! ## Errors -/

example := C61_distinct (.parserError .emptyExpr) (.evalError (.noVariable ['x'])) (by simp [Foreign]) (by simp [Foreign])
example := C61_unknown_variable Cfg.default ['z'] (nameShape_letters (by decide) (by decide)) wC (by simp [wC])
example := C61_calls Cfg.default wC ['f'] (by simp) [wN 1, wN 2]
example := (C61_calls Cfg.default wC ['f'] (by simp) [wN 1, wN 2]).2 [] wF [] rfl (by simp) rfl (by simp [wF])
example := C61_quick Cfg.default "z".toList wC (.evalError (.noVariable ['z'])) ⟨by simp, 1, rfl⟩

end MUL
