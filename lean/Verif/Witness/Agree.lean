import Verif.Props.Agree
import Verif.Num.Real
import Mathlib.Tactic.IntervalCases
import Mathlib.Tactic.FinCases
/-!
# Concrete cases for C103, C111 and C112  (Props/Agree.lean)
-/

namespace MUL
open Out Spec FArith Matrix

attribute [local instance] UTable.ascii

theorem wMinors {K : Type} [Field K] (a b c d : K) (h1 : a ≠ 0) (h2 : a * d - b * c ≠ 0) : LeadingMinors !![a, b; c, d] := by
  intro k hk
  interval_cases k
  · simp
  · rw [Matrix.det_fin_one]
    exact h1
  · rw [Matrix.det_fin_two]
    exact h2

/-- `A = [[2,1],[1,3]]`, `B = [[1,1],[0,2]]`, `m = 2`, `n = 3`, vectors `u`, `v`, `w`. -/
def wAB : Context Q := ⟨[⟨['A'], [.matrix [[.fin 2, .fin 1], [.fin 1, .fin 3]]]⟩, ⟨['B'], [.matrix [[.fin 1, .fin 1], [.fin 0, .fin 2]]]⟩,
  ⟨['m'], [.scalar (.fin 2)]⟩, ⟨['n'], [.scalar (.fin 3)]⟩], []⟩
theorem wAB_A : IsMatrix (K := ℚ) (.matrix [[.fin 2, .fin 1], [.fin 1, .fin 3]] : Value Q) !![2, 1; 1, 3] := ⟨_, rfl, by decide +kernel⟩
theorem wAB_B : IsMatrix (K := ℚ) (.matrix [[.fin 1, .fin 1], [.fin 0, .fin 2]] : Value Q) !![1, 1; 0, 2] := ⟨_, rfl, by decide +kernel⟩
theorem wAB_mA : LeadingMinors (!![2, 1; 1, 3] : Matrix (Fin 2) (Fin 2) ℚ) := wMinors _ _ _ _ (by norm_num) (by norm_num)
theorem wAB_m (k : Nat) : IsScalar (K := ℚ) (.scalar (.fin k) : Value Q) (k : ℚ) := ⟨_, rfl, rfl⟩

example := C103_inverse_product (cfg := Cfg.default) (ctx := wAB) rfl rfl wAB_A wAB_B wAB_mA (wMinors _ _ _ _ (by norm_num) (by norm_num)) (by
  have : !![(2 : ℚ), 1; 1, 3] * !![1, 1; 0, 2] = !![2, 4; 1, 7] := by
    ext i j
    fin_cases i <;> fin_cases j <;> norm_num [Matrix.mul_apply, Fin.sum_univ_two]
  rw [this]
  exact wMinors _ _ _ _ (by norm_num) (by norm_num))
example := C103_inverse_twice (cfg := Cfg.default) (ctx := wAB) rfl wAB_A wAB_mA (by
  have : (!![(2 : ℚ), 1; 1, 3])⁻¹ = !![3 / 5, -1 / 5; -1 / 5, 2 / 5] := Matrix.inv_eq_left_inv (by
    ext i j
    fin_cases i <;> fin_cases j <;> norm_num [Matrix.mul_apply, Fin.sum_univ_two])
  rw [this]
  exact wMinors _ _ _ _ (by norm_num) (by norm_num))
example := C103_inverse_det (cfg := Cfg.default) (ctx := wAB) rfl wAB_A wAB_mA
example := C103_powers_product (cfg := Cfg.default) (ctx := wAB) (j := 2) (k := 3) rfl rfl rfl wAB_A (wAB_m 2) (wAB_m 3) (by norm_num)
example := C103_powers_power (cfg := Cfg.default) (ctx := wAB) (j := 2) (k := 3) rfl rfl rfl wAB_A (wAB_m 2) (wAB_m 3) (by norm_num) (by norm_num) (by norm_num)
example := C103_powers_det (cfg := Cfg.default) (ctx := wAB) (k := 3) rfl rfl wAB_A (wAB_m 3) (by norm_num)
example := C103_powers_inverse (cfg := Cfg.default) (ctx := wAB) (k := 3) rfl rfl wAB_A (wAB_m 3) (by norm_num) wAB_mA (by
  have : !![(2 : ℚ), 1; 1, 3] ^ 3 = !![15, 20; 20, 35] := by
    rw [pow_succ, pow_two]
    ext i j
    fin_cases i <;> fin_cases j <;> norm_num [Matrix.mul_apply, Fin.sum_univ_two]
  rw [this]
  exact wMinors _ _ _ _ (by norm_num) (by norm_num))

/-- A `3×2` matrix `A`, another one `B` of this shape, vectors `u = [1,4]` and `v = [-2,5]`, `x = 3`. -/
def wLin : Context Q := ⟨[⟨['A'], [.matrix [[.fin 2, .fin 1], [.fin 1, .fin 3], [.fin 0, .fin 7]]]⟩,
  ⟨['B'], [.matrix [[.fin 1, .fin 1], [.fin 0, .fin 2], [.fin 5, .fin 0]]]⟩,
  ⟨['u'], [.vector [.fin 1, .fin 4]]⟩, ⟨['v'], [.vector [.fin (-2), .fin 5]]⟩, ⟨['x'], [.scalar (.fin 3)]⟩], []⟩
theorem wLin_A : IsMatrix (K := ℚ) (.matrix [[.fin 2, .fin 1], [.fin 1, .fin 3], [.fin 0, .fin 7]] : Value Q) !![2, 1; 1, 3; 0, 7] := ⟨_, rfl, by decide +kernel⟩
theorem wLin_B : IsMatrix (K := ℚ) (.matrix [[.fin 1, .fin 1], [.fin 0, .fin 2], [.fin 5, .fin 0]] : Value Q) !![1, 1; 0, 2; 5, 0] := ⟨_, rfl, by decide +kernel⟩
theorem wLin_u : IsVector (K := ℚ) (.vector [.fin 1, .fin 4] : Value Q) ![1, 4] := ⟨_, rfl, by decide +kernel⟩
theorem wLin_v : IsVector (K := ℚ) (.vector [.fin (-2), .fin 5] : Value Q) ![-2, 5] := ⟨_, rfl, by decide +kernel⟩
example := C112_sum (cfg := Cfg.default) (ctx := wLin) rfl rfl rfl wLin_A wLin_u wLin_v
example := C112_multiple (cfg := Cfg.default) (ctx := wLin) (t := 3) rfl rfl rfl wLin_A ⟨_, rfl, rfl⟩ wLin_v
example := C112_matrices (cfg := Cfg.default) (ctx := wLin) rfl rfl rfl wLin_A wLin_B wLin_v
example := C112_composed (cfg := Cfg.default) (ctx := ⟨wAB.vars ++ [⟨['v'], [.vector [.fin (-2), .fin 5]]⟩], []⟩) rfl rfl rfl wAB_A wAB_B wLin_v
example := C112_det (cfg := Cfg.default) (ctx := wAB) rfl rfl wAB_A wAB_B

/-- three vectors and the matrix with these rows -/
def wUVW : Context Q := ⟨[⟨['u'], [.vector [.fin 1, .fin 2, .fin 3]]⟩, ⟨['v'], [.vector [.fin 0, .fin 1, .fin 4]]⟩, ⟨['w'], [.vector [.fin 5, .fin 6, .fin 0]]⟩,
  ⟨['A'], [.matrix [[.fin 1, .fin 2, .fin 3], [.fin 0, .fin 1, .fin 4], [.fin 5, .fin 6, .fin 0]]]⟩], []⟩
example := C103_triple (K := ℚ) (cfg := Cfg.default) (ctx := wUVW) (x := ![1, 2, 3]) (y := ![0, 1, 4]) (z := ![5, 6, 0]) rfl rfl rfl rfl
  ⟨_, rfl, by decide +kernel⟩ ⟨_, rfl, by decide +kernel⟩ ⟨_, rfl, by decide +kernel⟩ ⟨_, rfl, by decide +kernel⟩
example := C103_lagrange (K := ℚ) (cfg := Cfg.default) (ctx := wUVW) (x := ![1, 2, 3]) (y := ![0, 1, 4]) rfl rfl
  ⟨_, rfl, by decide +kernel⟩ ⟨_, rfl, by decide +kernel⟩

noncomputable section
def wReal : Context (Ext ℝ) := ⟨[⟨['v'], [.vector [.fin 3, .fin 4]]⟩, ⟨['x'], [.scalar (.fin 2)]⟩], []⟩
example := C103_length (cfg := Cfg.default) (ctx := wReal) (x := ![3, 4]) rfl ⟨_, rfl, by simp [List.ofFn_succ]; constructor <;> rfl⟩
example := C103_root (cfg := Cfg.default) (ctx := wReal) (x := 2) rfl ⟨_, rfl, rfl⟩ (by norm_num)
/-- `u = [-5,0]`, `v = [3,4]`, `x = 2`. -/
def wReal2 : Context (Ext ℝ) :=
  ⟨[⟨['u'], [.vector [.fin (-5), .fin 0]]⟩, ⟨['v'], [.vector [.fin 3, .fin 4]]⟩, ⟨['x'], [.scalar (.fin 2)]⟩], []⟩
theorem wReal2_u : IsVector (Value.vector [(.fin (-5) : Ext ℝ), .fin 0]) (![-5, 0] : Fin 2 → ℝ) :=
  ⟨_, rfl, by simp [List.ofFn_succ]; constructor <;> rfl⟩
theorem wReal2_v : IsVector (Value.vector [(.fin 3 : Ext ℝ), .fin 4]) (![3, 4] : Fin 2 → ℝ) :=
  ⟨_, rfl, by simp [List.ofFn_succ]; constructor <;> rfl⟩
example := (C111_triangle (cfg := Cfg.default) (ctx := wReal2) rfl rfl).1 2 _ _ wReal2_u wReal2_v
example := C111_difference (cfg := Cfg.default) (ctx := wReal2) rfl rfl wReal2_u wReal2_v
example := C111_product (cfg := Cfg.default) (ctx := wReal2) rfl rfl wReal2_u wReal2_v
example := C111_parallelogram (cfg := Cfg.default) (ctx := wReal2) rfl rfl wReal2_u wReal2_v
example := C111_multiple (cfg := Cfg.default) (ctx := wReal2) (t := 2) rfl rfl ⟨_, rfl, rfl⟩ wReal2_v
example := C111_positive (cfg := Cfg.default) (ctx := wReal2) rfl wReal2_v
example := C103_trigonometry (cfg := Cfg.default) (ctx := wReal) (x := 2) rfl ⟨_, rfl, rfl⟩

/-- `eq(x=6,x)` and `inv([[1]])*[6]` -/
def wSysA : Context (Ext ℝ) := ⟨[⟨['A'], [.matrix [[.fin 1]]]⟩, ⟨['b'], [.vector [.fin 6]]⟩], []⟩
example : ∃ (l : List (Ext ℝ)) (w : Value (Ext ℝ)) (X : Fin 1 → ℝ), Finishes (fun n => eval Cfg.default n (.equation [(.variable ['x'], .scalar (FArith.ofInt 6))] [['x']]) wSysA) (.ok [asSolution l]) ∧
    Calculates Cfg.default wSysA "inv(A)*b" w ∧ IsVector (.vector l) X ∧ IsVector w X := by
  have h6 : Exact.val (FArith.ofInt 6 : Ext ℝ) = some (6 : ℝ) := by simpa using Exact.val_ofInt (F := Ext ℝ) (K := ℝ) 6
  refine C103_system (F := Ext ℝ) Cfg.default wSysA [(.variable ['x'], .scalar (FArith.ofInt 6))] [['x']] (n := 0) (a := .matrix [[.fin 1]]) (r := .vector [.fin 6])
    (fun _ _ => 1) (fun _ => 6) rfl rfl (by simp) (by simp [wSysA]) ?_ ?_ ?_ rfl rfl ⟨_, rfl, rfl⟩ ⟨_, rfl, rfl⟩
  · refine ⟨3, fun l x hx i e he => ?_⟩
    have hi : i = 0 := Fin.ext (by have := i.2; simp)
    subst hi
    simp only [Fin.val_zero, List.getElem?_cons_zero, Option.some.injEq] at he
    subst he
    simp only [List.ofFn_succ, List.ofFn_zero] at hx
    obtain ⟨a, rfl, ha⟩ := one_of_map hx
    · refine ⟨FArith.add a (FArith.mul (FArith.ofInt 6) (FArith.ofInt (-1))), ?_, ?_⟩
      · simp only [eval, residualExpr, evalRec, findVar_setVars_one, ok_bind, applyAll_single]
        rfl
      · rw [Exact.val_add ha (Exact.val_mul h6 val_minus_one)]
        simp [Matrix.mulVec, dotProduct]
        ring
  · intro k hk
    rcases (by omega : k = 0 ∨ k = 1) with rfl | rfl
    · simp
    · simp [Matrix.det_unique, Matrix.submatrix]
  · intro j _ _
    by_cases hj : j = 6
    · left
      subst hj
      funext i
      simp [Matrix.mulVec, dotProduct]
    · right
      refine ⟨0, ?_⟩
      have h1 : (1 : ℝ) ≤ |(j : ℝ) - 6| := by
        have : (1 : Int) ≤ |j - 6| := Int.one_le_abs (by omega)
        exact_mod_cast this
      have h2 : (10 : ℝ) ^ (-(Cfg.default.prec : Int)) ≤ 1 := by norm_num [Cfg.default]
      simpa [Matrix.mulVec, dotProduct] using h2.trans h1
end

end MUL
