import Verif.Props.Quadratic
import Verif.Props.Readings
import Verif.Props.Rename
import Verif.Props.Shapes
import Verif.Props.StepByStep
import Verif.Props.Strict
import Verif.Props.Trace
import Verif.Props.Roots
import Verif.Witness.Eval
/-!
# Concrete cases for the theorems about trees and their evaluation
(Props/Quadratic.lean, Readings.lean, Rename.lean, Shapes.lean, StepByStep.lean, Strict.lean, Trace.lean, Roots.lean)
-/

namespace MUL
open Out Spec FArith

attribute [local instance] UTable.ascii

/-! ## Several values -/

/-- `x` has the values 4 and 9, `y` is 1. -/
def wXY : Context Q := ⟨[⟨['x'], [.scalar (.fin 4), .scalar (.fin 9)]⟩, ⟨['y'], [.scalar (.fin 1)]⟩], []⟩
def wPM : AST Q := .simple .addSub (.variable ['x']) (.variable ['y'])
theorem wPM_val : Finishes (fun n => eval Cfg.default n wPM wXY) (.ok [.scalar (.fin 5), .scalar (.fin 3), .scalar (.fin 10), .scalar (.fin 8)]) := by
  refine ⟨by simp, 5, ?_⟩
  beta_reduce
  decide +kernel
theorem wPM_offered : Offered wXY wPM := .simple _ _ _ (.variable _ _ rfl (by simp)) (.variable _ _ rfl (by simp))
example := C99_values Cfg.default (V := fun _ => True) (.simple _ _ _ (.variable _ trivial) (.variable _ trivial)) wXY wPM_val
example := C99_iff Cfg.default wPM_offered
example := (C99_iff Cfg.default wPM_offered _).1 wPM_val
example := C99_count wXY (t := .simple .addSub (.simple .addSub (.scalar (.fin 1)) (.scalar (.fin 2))) (.scalar (.fin 3))) (k := 2)
  (.simple .addSub _ _ 1 0 (.simple .addSub _ _ 0 0 (.scalar _) (.scalar _)) (.scalar _))
example (cfg : Cfg) (vs : List (Value Q)) := C99_text cfg (.bin .addSub (.var ['x']) (.var ['y']))
  ⟨wf_name (n := "x") (by decide), wf_name (n := "y") (by decide), by decide, by decide, nofun⟩ (c := wXY) wPM_offered vs

/-! ## Other names -/

example (cfg : Cfg) (n : Nat) := C78_solve (F := Q) (σ := fun s => str! "v" ++ s) (τ := id) (fun _ _ h => List.append_cancel_left h) (fun _ _ h => h) rfl cfg n
  [(.variable ['x'], .variable ['y'])] wXY [['z']]
theorem wXY_names : CtxNames (fun n => n ≠ ['t'] ∧ n ≠ ['s']) wXY :=
  ⟨by simp [wXY], by simp [wXY], by simp [wXY]⟩
example (cfg : Cfg) (n : Nat) := C78_replace cfg n wPM wXY ['x'] ['t'] (.simple _ _ _ (.variable _ (by decide)) (.variable _ (by decide)))
  ⟨by simp [wXY], by simp [wXY], by simp [wXY]⟩
example (cfg : Cfg) (n : Nat) := C78_integral cfg n (.simple .mult (.variable ['t']) (.variable ['x'])) (.scalar (.fin 0)) (.variable ['y']) wXY ['t'] ['s']
  (.simple _ _ _ (.variable _ (by decide)) (.variable _ (by decide))) (.scalar _) (.variable _ (by decide)) wXY_names
example (cfg : Cfg) (n : Nat) := C78_equation cfg n [(.simple .pow (.variable ['t']) (.scalar (.fin 2)), .variable ['y'])] [['t']] wXY ['t'] ['s']
  (by
    intro p hp
    rw [List.mem_singleton] at hp
    subst hp
    exact ⟨.simple _ _ _ (.variable _ (by decide)) (.scalar _), .variable _ (by decide)⟩) (by decide) wXY_names
example (cfg : Cfg) (n : Nat) := C78_parameter cfg n (.function ['f'] [.variable ['y']]) wXY.vars [] []
  ⟨['f'], .simple .mult (.variable ['t']) (.variable ['t']), [['t']]⟩ ['t'] ['s']
  (.function _ _ (by simpa using .variable _ (by decide))) wXY_names (.simple _ _ _ (.variable _ (by decide)) (.variable _ (by decide))) (by decide)

/-! ## Shapes -/

theorem wM3 : ([[.fin 1, .fin 2], [.fin 3, .fin 4], [.fin 5, .fin 6]] : List (List Q)).length = 3 ∧
    ∀ r ∈ ([[.fin 1, .fin 2], [.fin 3, .fin 4], [.fin 5, .fin 6]] : List (List Q)), r.length = 2 := by simp
example (cfg : Cfg) := C100_example (F := Q) cfg _ [.fin 7, .fin 8] wM3 rfl
example (cfg : Cfg) := C100_example_none (F := Q) cfg _ [.fin 7, .fin 8] wM3 rfl
example (cfg : Cfg) (ctx : Context Q) := C100_equal_bounds cfg ctx (.vector [.variable ['x']]) ['x'] (.fin 2) (by decide +kernel)
example := (C100_not_square 3 2 (by decide) (by decide) _ wM3 (.fin 2) (by decide +kernel)).2 (by decide +kernel)
example := (C100_not_square 3 2 (by decide) (by decide) _ wM3 (.fin (-2)) (by decide +kernel)).1 (by decide +kernel)
theorem wMv_val : Finishes (fun n => eval Cfg.default n (.simple .mult (.variable (str! "M")) (.variable (str! "v")))
    (shapeCtx [[.fin 1, .fin 2], [.fin 3, .fin 4], [.fin 5, .fin 6]] [.fin 7, .fin 8] : Context Q))
    (.ok [.vector [.fin 23, .fin 53, .fin 83]]) := by
  refine ⟨by simp, 5, ?_⟩
  beta_reduce
  decide +kernel
example := C100_results Cfg.default False False _ shapeEnv _ (.vec 3) (.simple _ _ _ (.mat 3 2) (.vec 2) _ (.variable _ _ rfl) (.variable _ _ rfl) rfl)
  (by simp [NoDupVars, shapeCtx]) (shapeCtx_ok _ _ wM3 rfl).1 (by simp [shapeCtx]) (fun h => h.elim) _ wMv_val

/-! ## Step by step -/

/-- `f(x) = x*x` and `y` is 3. -/
def wFX : Function Q := ⟨['f'], .simple .mult (.variable ['x']) (.variable ['x']), [['x']]⟩
def wCF : Context Q := ⟨[⟨['y'], [.scalar (.fin 3)]⟩], [wFX]⟩
example (cfg : Cfg) (r : Out EvalError (List (Value Q))) := C98_call cfg wCF (by simp [NoDupVars, wCF]) wFX ['x'] rfl rfl (by decide)
  (by rintro (_ | _ | _ | _ | _ | ⟨_, _, _, ⟨⟩⟩ | ⟨_, _, _, ⟨⟩⟩)) (by rintro (_ | _ | _ | _ | _ | ⟨_, _, _, ⟨⟩⟩ | ⟨_, _, _, ⟨⟩⟩)) (.variable ['y']) _
  ⟨by simp, 1, rfl⟩ r

theorem stepBody_noCall (cfg : Cfg) (f : Str) : ¬ DirectCall f (stepBody.tree cfg : AST Q) := by
  rintro (_ | _ | _ | _ | _ | ⟨_, _, _, h⟩ | ⟨_, _, _, ⟨⟩⟩)
  rcases h with (_ | _ | _ | _ | _ | ⟨_, _, _, ⟨⟩⟩ | ⟨_, _, _, ⟨⟩⟩)

def wStep (cfg : Cfg) : Context Q := ⟨[⟨str! "y", [.scalar (.fin 3)]⟩], [⟨str! "f", stepBody.tree cfg, [str! "x"]⟩]⟩

/-- `f(2+y)` and `(2+y)*(2+y)+1` for `f(x) = x*x+1`. -/
example (cfg : Cfg) (r : Out EvalError (List (Value Q))) :
    Finishes (fun n => eval cfg n (.function (str! "f") [stepPart.tree cfg]) (wStep cfg)) r ↔
    Finishes (fun n => eval cfg n ((substEx (str! "x") stepPart [str! "x", str! "y"] stepBody).tree cfg) (wStep cfg)) r := by
  refine C98_inline cfg stepBody stepPart (str! "x") [str! "y"] stepBody_wf (stepPart_direct cfg) (by decide) (stepText_mentions cfg) (wStep cfg)
    (by simp [NoDupVars, wStep]) ?_ (str! "f") rfl (by decide) (stepBody_noCall cfg _) (stepBody_noCall cfg _)
    (.scalar (FArith.add (FArith.ofDec 2 0) (.fin 3))) ⟨by simp, 3, rfl⟩ r
  intro f hf
  rw [List.mem_singleton.1 hf]
  exact .simple _ _ _ (.simple _ _ _ (.variable _ (by simp)) (.variable _ (by simp))) (.scalar _)

/-! ## Failures -/

example := C97_every_part Cfg.default wT (.simple .addSub (wN 5) (wN 1)) wC
  (.deeper (q := .function ['f'] [.simple .addSub (wN 5) (wN 1)]) (.direct (by simp [operands])) (by simp [operands, wT])) _ wT_val
theorem wT_fails : Finishes (fun n => eval Cfg.default n (.vector [wN 1, .simple .cross (wN 2) (.variable ['q'])]) wC)
    (failed (some (.noVariable ['q']))) := by
  refine ⟨by simp [failed], 3, ?_⟩
  beta_reduce
  decide +kernel
example := C97_origin Cfg.default _ wC _ wT_fails
example (n : Nat) (vs : List (Value Q)) := C97_unknown_variable Cfg.default "f(a)*q".toList
  (.simple .mult (.function ['f'] [.variable ['a']]) (.variable ['q']) : AST Q) rfl ['q'] (.direct (by simp [operands])) wC (by simp [wC]) n vs
/-- `2*f(1)+…` never ends if `f(1)` does not. -/
example := C97_divergence Cfg.default (.vector [wN 1, .function (str! "f") [.variable (str! "x")], wN 2]) _ [wN 1] [wN 2] _ trivial rfl
  (fun q hq => ⟨[.scalar (.fin 1)], by rw [List.mem_singleton.1 hq]; exact ⟨by simp, 1, rfl⟩, by simp [Allowed]⟩) (C23_mutual_diverges Cfg.default (.scalar (.fin 1 : Q)))

/-! ## What is printed -/

example := C91_determined Cfg.default wT wC _ wT_val

theorem wInt : ∃ w, Finishes (fun n => eval Cfg.default n (.integral (.variable ['x']) ['x'] (wN 0) (wN 1)) (Context.empty : Context Q)) (.ok [w]) := by
  obtain ⟨w, hw, -⟩ := number_integral Cfg.default (by decide) (Context.empty : Context Q) (by simp [NoDupVars, Context.empty]) ['x']
    (.variable ['x']) (wN 0) (wN 1) (fun t : ℚ => t) (fun p t hp _ => ⟨[.scalar p], ⟨by simp, 1, rfl⟩, .cons ⟨p, rfl, hp⟩ .nil⟩) (wN_num _ _ 0) (wN_num _ _ 1)
  exact ⟨w, hw⟩
example : ∃ vs lines, Prints (fun n => evalT Cfg.default n (.integral (.variable ['x']) ['x'] (wN 0) (wN 1)) Context.empty) lines (.ok vs) ∧ lines.length = 1 := by
  obtain ⟨w, h⟩ := wInt
  obtain ⟨lines, h1, h2⟩ := C91_lines Cfg.default Context.empty ['x'] (.variable ['x']) (wN 0) (wN 1) [.scalar (.fin 0)] [.scalar (.fin 1)] [w] [] []
    (.variable _) (by simp [Context.empty]) ⟨by simp, 1, rfl⟩ ⟨by simp, 1, rfl⟩ h
  exact ⟨_, _, h1, by rw [List.nil_append, List.nil_append, h2]; decide +kernel⟩
example := C91_derivative Cfg.default Context.empty ['x'] (.variable ['x']) (wN 2) (.fin 2) [.scalar (.fin 2)] [_] [.scalar (.fin 1)] [] [] []
  ⟨by simp, 1, rfl⟩ ⟨by simp, 1, rfl⟩ ⟨by simp, 1, rfl⟩ ⟨by simp, 5, by beta_reduce; decide +kernel⟩

/-! ## Equations -/

theorem wSearch : ∃ x ∈ [['y'], ['t']], ∃ v ∈ wXY.vars, v.name = x := ⟨['y'], by simp, ⟨['y'], [.scalar (.fin 1)]⟩, by simp [wXY], rfl⟩
example (cfg : Cfg) := C47_search_var_exists cfg [(.variable ['y'], wN 2)] [['y'], ['t']] wXY (by simp) wSearch
example (cfg : Cfg) := C47_underdetermined cfg [(.variable ['t'], wN 2)] [['s'], ['t']] wXY (by simp) (by simp [wXY]) (by simp)

end MUL
