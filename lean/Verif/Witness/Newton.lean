import Verif.Props.Newton
import Verif.Props.NewtonRoots
import Verif.Props.Partial
import Verif.Props.Overflow
import Verif.Props.Rounding
import Verif.Props.Roots
/-!
# Concrete cases for the theorems about solving equations and about binary64 formulas
(Props/Newton.lean, NewtonRoots.lean, Partial.lean, Roots.lean, Overflow.lean, Rounding.lean)
-/

namespace MUL
open Out Spec FArith

attribute [local instance] UTable.ascii

/-! ## One equation -/

noncomputable section

/-- `x*x` -/
def wSq : AST (Ext ℝ) := .simple .mult (.variable ['x']) (.variable ['x'])
theorem wVar_val (cfg : Cfg) (a : Ext ℝ) : Finishes (fun n => evalRec cfg n (.variable ['x'] : AST (Ext ℝ)) (setVar Context.empty ['x'] a) []) (.ok [.scalar a]) :=
  ⟨by simp, 1, rfl⟩
theorem wSq_val (cfg : Cfg) (a : Ext ℝ) : Finishes (fun n => evalRec cfg n wSq (setVar Context.empty ['x'] a) []) (.ok [.scalar (FArith.mul a a)]) :=
  ⟨by simp, 2, rfl⟩
/-- `x*x - c` as a function of `x` -/
theorem wSq_fun (cfg : Cfg) (c : ℝ) : FunctionOf cfg (Context.empty : Context (Ext ℝ)) ['x'] (residualExpr (wSq, .scalar (.fin c))) fun u => some (u * u - c) :=
  functionOf_sub (f := fun u => u * u) (g := fun _ => c) (fun a u ha => ⟨_, wSq_val cfg a, .cons ⟨_, rfl, Exact.val_mul ha ha⟩ .nil⟩)
    (fun a u ha => ⟨[.scalar (.fin c)], ⟨by simp, 1, rfl⟩, .cons ⟨_, rfl, rfl⟩ .nil⟩)
/-- `x - c` as a function of `x` -/
theorem wLin_fun (cfg : Cfg) (c : ℝ) : FunctionOf cfg (Context.empty : Context (Ext ℝ)) ['x'] (residualExpr (.variable ['x'], .scalar (.fin c))) fun u => some (u - c) :=
  functionOf_sub (f := fun u => u) (g := fun _ => c) (fun a u ha => ⟨_, wVar_val cfg a, .cons ⟨_, rfl, ha⟩ .nil⟩)
    (fun a u ha => ⟨[.scalar (.fin c)], ⟨by simp, 1, rfl⟩, .cons ⟨_, rfl, rfl⟩ .nil⟩)
theorem wFresh : ∀ v ∈ (Context.empty : Context (Ext ℝ)).vars, v.name ≠ ['x'] := nofun

/-- `x*x = -1` -/
example := C64_no_solution (cfg := Cfg.default) wFresh (wSq_fun _ (-1)) (by
  intro u y h
  cases h
  rw [abs_of_nonneg (by nlinarith [mul_self_nonneg u])]
  norm_num [Cfg.default]
  nlinarith [mul_self_nonneg u])
theorem wBig : |(1 : ℝ)| * 8000000 < 10 ^ (-(Cfg.default.prec : Int)) * 2 ^ 999 := by
  have h1 : (2 : ℝ) ^ 100 ≤ 2 ^ 999 := pow_le_pow_right₀ (by norm_num) (by norm_num)
  have h2 : (8000000 : ℝ) < 1 / 10 ^ 8 * 2 ^ 100 := by norm_num
  have h3 : (10 : ℝ) ^ (-(Cfg.default.prec : Int)) = 1 / 10 ^ 8 := by norm_num [Cfg.default]
  rw [h3, abs_one, one_mul]
  exact h2.trans_le (mul_le_mul_of_nonneg_left h1 (by norm_num))
/-- `x*x = 2` -/
theorem wSqrt2_fun (cfg : Cfg) : FunctionOf cfg (Context.empty : Context (Ext ℝ)) ['x'] (residualExpr (wSq, .scalar (.fin 2)))
    fun u => some (1 * (u - -Real.sqrt 2) * (u - Real.sqrt 2)) := by
  have h := wSq_fun cfg 2
  have : (fun u : ℝ => some (u * u - 2)) = fun u => some (1 * (u - -Real.sqrt 2) * (u - Real.sqrt 2)) := by
    funext u
    have := Real.mul_self_sqrt (show (0 : ℝ) ≤ 2 by norm_num)
    congr 1
    linear_combination this
  rwa [this] at h
theorem wSqrt2 : (1 : ℝ) ≤ Real.sqrt 2 ∧ Real.sqrt 2 ≤ 2 :=
  ⟨Real.le_sqrt_of_sq_le (by norm_num), Real.sqrt_le_left (by norm_num) |>.2 (by norm_num)⟩
example := C64_quadratic_real (cfg := Cfg.default) (by decide) wFresh 1 _ _ (wSqrt2_fun _) (by linarith [wSqrt2.2])
    (by norm_num [Cfg.default]; linarith [wSqrt2.1]) (by linarith [wSqrt2.2]) (by rw [abs_one]; linarith [wSqrt2.1]) wBig
/-- `x*x = 0` -/
example := C64_double_solution (cfg := Cfg.default) (by decide) (by decide) wFresh 0 (by norm_num) (by norm_num) (by
  have h := wSq_fun Cfg.default 0
  simpa [sq] using h)
/-- `x = 1/3` -/
theorem wTame (c : ℝ) : Tame (fun u => some (u - c)) (fun u => u - c) c 1 (10 ^ (-(Cfg.default.prec : Int))) :=
  .near (fun _ _ _ => rfl) (fun u v _ h _ => ⟨by linarith, by linarith⟩)
example := C87_found (cfg := Cfg.default) (m := 1) (s := 1 / 3) (g := fun u => u - 1 / 3) wFresh (wLin_fun _ (1 / 3)) (by norm_num) (by norm_num [Cfg.default])
  (by norm_num) (Or.inl (wTame _)) (by norm_num) (by norm_num)
example := C87_unique (cfg := Cfg.default) (m := 1) (s := 1 / 3) (g := fun u => u - 1 / 3) (by decide) wFresh (wLin_fun _ (1 / 3)) (by norm_num) (by norm_num [Cfg.default])
  (by norm_num) (wTame _) (by norm_num) (by norm_num) 1 (by norm_num) (fun u v _ => by linarith)
/-- `eq(x=4,x)` -/
def wEqX : Ex := .eqs [.var ['x']] [.num ['4'] none] [['x']]
theorem wEqX_wf : wEqX.WF := by
  refine ⟨rfl, ⟨wf_name (n := "x") (by decide), trivial⟩, ⟨wf_num (s := "4") (by decide), trivial⟩, Or.inl (by simp), by decide, ?_⟩
  intro v hv
  simp only [List.mem_singleton] at hv
  subst hv
  exact nameShape_letters (by decide) (by decide)
example := C87_found_text (F := Ext ℝ) (cfg := Cfg.default) (m := 1) (s := 4) (g := fun u => u) (k := fun _ => 4) (d := fun u => u - 4) (by decide) wEqX_wf (by simp)
  (fun u => .var _ [.scalar u] (by simp [Env.set])) (fun u => denotes_digit '4' 4 4 rfl (by norm_num)) (C60_constants (F := Ext ℝ) _).1 (Or.inl fun _ => rfl)
  (by norm_num) (by norm_num [Cfg.default]) (by norm_num) (wTame _) (by norm_num) (by norm_num)
example := C88_found (F := Ext ℝ) (cfg := Cfg.default) (m := 1) (s := 4) (g := fun u => some u) (k := fun _ => some 4) (d := fun u => u - 4)
  (f := fun u => some (u - 4)) (by decide) wEqX_wf (by simp)
  (fun u => .value (.var _ [.scalar u] (by simp [Env.set]))) (fun u => .value (denotes_digit '4' 4 4 rfl (by norm_num))) (C60_constants (F := Ext ℝ) _).1 (Or.inl fun _ => rfl)
  (by norm_num) (by norm_num [Cfg.default]) (by norm_num) (wTame _) (by norm_num) (by norm_num)

/-! ## Every result of an equation -/

example : ∃ vs : List (Ext ℝ), vs ≠ [] ∧ (∀ v ∈ vs.map Value.scalar, ∃ l, v = asSolution l ∧ l.length = 1 ∧ Solves Cfg.default Context.empty [(wSq, .scalar (.fin 2))] [['x']] l) ∧
    (∀ v ∈ vs.map Value.scalar, ∃ l, v = asSolution l ∧ l.length = 1 ∧ ∀ e ∈ [(wSq, AST.scalar (.fin 2))], ∃ r rest,
      Finishes (fun n => eval Cfg.default n (.simple .sub e.1 e.2) (setVars Context.empty [['x']] l)) (.ok (.scalar r :: rest)) ∧
        ∃ x : ℝ, Exact.val r = some x ∧ |x| < 10 ^ (-(Cfg.default.prec : Int))) ∧
    (vs.map Value.scalar).Pairwise fun v w => Value.beq (v.round (Cfg.default.prec - 2)) (w.round (Cfg.default.prec - 2)) = false := by
  obtain ⟨vs, h, -, ⟨v, hv, -⟩, -⟩ := C64_quadratic_real (cfg := Cfg.default) (by decide) wFresh 1 _ _ (wSqrt2_fun _) (by linarith [wSqrt2.2])
    (by norm_num [Cfg.default]; linarith [wSqrt2.1]) (by linarith [wSqrt2.2]) (by rw [abs_one]; linarith [wSqrt2.1]) wBig
  refine ⟨vs, List.ne_nil_of_mem hv, ?_, ?_, ?_⟩
  · exact C45_roots _ _ _ _ _ (fun j _ _ => start_finite (Ext ℝ) ℝ j) h
  · exact C45_exact _ _ _ _ _ h
  · refine C46_distinct _ _ _ _ _ (fun j _ _ => start_finite (Ext ℝ) ℝ j) ?_ h
    intro a b
    change Ext.beq a b = Ext.beq b a
    cases a <;> cases b <;> simp [Ext.beq, eq_comm]

end

/-- `{x,1} = 0` -/
example := C47_first_equation Cfg.default (.vector [.variable ['x'], .scalar (.fin 1 : Q)], .vector [.scalar (.fin 0), .scalar (.fin 0)]) [] [['x']]
  Context.empty nofun (by simp) (.ok [.vector [FArith.ofDec 821785 (-5), .fin 1]]) ⟨by simp, 5, by beta_reduce; decide +kernel⟩

/-! ## Formulas in binary64 -/

theorem wMag : Magnitude (fun v => if v = ['x'] then some 7 else none) (.bin .mult (.num ['3'] none) (.var ['x'])) (Spec.numeral ['3'] none * (7 : ℚ))
    ((Spec.numeral ['3'] none + least) * |((7 : ℚ) : ℝ)| + least) 2 := .mult (.num _ _) (.var _ _ (by simp))
example := C95_unique wMag wMag
example := C95_denotes Cfg.default (fun _ => none) wMag
example [Binary64 Double] (a : Double) (ha : Binary64.val a = some (2 ^ 600)) := C95_quotient_false Cfg.default ⟨[⟨['x'], [.scalar a]⟩], []⟩ a rfl ha

theorem wSum : Rounds Cfg.default (1 / 2 ^ 53) (fun _ => none) [] (fun _ => none) (.num ['4'] none) (.scalar ⟨Spec.numeral ['4'] none, roundErr (Spec.numeral ['4'] none)⟩) :=
  .num _ _ (by
    have : Spec.numeral ['4'] none = 4 := by simp [Spec.numeral, digitsNumber]
    rw [this]
    have : |(4 : ℝ)| < overflow := Double.small (Double.tiny (by norm_num))
    rwa [abs_of_pos (by norm_num)] at this)
example := C67_exact_value (u := 1 / 2 ^ 53) Cfg.default (fun _ => none) (fun _ => none) (fun _ => none) (.num ['4'] none) _ wSum nofun
example := C67_number (F := Double) (u := 1 / 2 ^ 53) Cfg.default (fun _ => none) (fun _ => none) (fun _ => none) (.num ['4'] none) _ (wf_num (s := "4") (by decide)) wSum
  nofun ⟨[], []⟩ ⟨by simp [NoDupVars], nofun, nofun⟩

end MUL
