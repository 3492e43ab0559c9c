import Verif.Props.FloatLaws
import Verif.Props.FloatLinear
import Verif.Props.FloatRound
import Verif.Props.GaussErrors
import Verif.Props.Inverse
import Verif.Witness.Arith
import Mathlib.Tactic.FinCases
/-!
# Concrete cases for the theorems about linear algebra and floating point numbers
(Props/FloatLaws.lean, FloatLinear.lean, FloatRound.lean, GaussErrors.lean, Inverse.lean)
-/

namespace MUL
open Out Spec FArith Matrix

attribute [local instance] UTable.ascii

/-! ## binary64 -/

example (v : Value Double) := C83_sum (.vector [ofDec 1 (-1), nan]) (.vector [inf true, ofInt 3]) (by simp [WFValue]) (by simp [WFValue]) v
example := C83_product (.vector [ofDec 1 (-1), ofDec 2 (-1)]) (.vector [ofInt 3, ofDec 7 (-1)] : Value Double) (by simp) (by simp)

theorem wDot : ∀ i j, absDot ((!![2, 1; 3, 4] : Matrix (Fin 2) (Fin 2) Int).map ((↑) : Int → ℚ) i)
    (fun k => (!![2, 1; 3, 4] : Matrix (Fin 2) (Fin 2) Int).map ((↑) : Int → ℚ) k j) ≤ 2 ^ 1000 := by
  intro i j
  have h : (2 : ℚ) ^ 6 ≤ 2 ^ 1000 := pow_le_pow_right₀ (by norm_num) (by norm_num)
  refine le_trans ?_ h
  fin_cases i <;> fin_cases j <;> simp [absDot, Fin.sum_univ_two] <;> norm_num

example := C75_product matA64_stores matA64_stores (by norm_num) wDot

theorem wW64 : StoresVector (.vector [ofInt 3, ofInt (-4)] : Value Double) fun i => ((![3, -4] : Fin 2 → Int) i : ℚ) :=
  ⟨_, rfl, by decide +kernel⟩
example := C75_whole_dot wW64 wW64 (by decide)
theorem wSmall {a b c : ℚ} (h1 : a ≤ b) (h3 : c = b * 2) {z : ℚ} (h : z < b) : z < c - a := by linarith
theorem wSmall' : |(21 / 16 : ℚ)| * 10 ^ 2 < 2 ^ 1024 - 2 ^ 970 := by
  have h2 : (2 : ℚ) ^ 10 ≤ 2 ^ 1023 := pow_le_pow_right₀ (by norm_num) (by norm_num)
  refine wSmall (pow_le_pow_right₀ (by norm_num) (by norm_num)) (pow_succ 2 1023) (lt_of_lt_of_le ?_ h2)
  rw [abs_of_nonneg (by norm_num)]
  norm_num
example := C74_monotone val_21_16 val_21_16 le_rfl (p := 2) (by norm_num) wSmall' wSmall'
example (cfg : Cfg) := C74_text val_21_16 cfg "1".toList "31".toList (by decide) (by decide) (by simp) (by decide)
  (by
    rw [show "31".toList.length = 2 from rfl, show decimal "1".toList = 1 by decide, show decimal "31".toList = 31 by decide]
    norm_num [abs_of_nonneg])

/-! ## Inverses and systems of linear equations -/

def wSys : List (List Q) := [[.fin 2, .fin 1, .fin 5], [.fin 1, .fin (-1), .fin 1]]
def wSing : List (List Q) := [[.fin 1, .fin 1, .fin 2], [.fin 2, .fin 2, .fin 4]]
theorem wSys_is : IsMatrix (.matrix wSys) (!![2, 1, 5; 1, -1, 1] : Matrix (Fin 2) (Fin 3) ℚ) := ⟨_, rfl, by decide +kernel⟩
theorem wSing_is : IsMatrix (.matrix wSing) (!![1, 1, 2; 2, 2, 4] : Matrix (Fin 2) (Fin 3) ℚ) := ⟨_, rfl, by decide +kernel⟩
theorem wSing_err : gaussAlgorithm wSing = (.err .infiniteSolutions : Out EvalError (Value Q)) := by decide +kernel

example := C48_error_iff wSing_is .infiniteSolutions
example : RedundantRow (!![1, 1, 2; 2, 2, 4] : Matrix (Fin 2) (Fin 3) ℚ) := ((C48_error_iff wSing_is _).1 wSing_err).2
theorem wSys_not : ¬ RedundantRow (!![2, 1, 5; 1, -1, 1] : Matrix (Fin 2) (Fin 3) ℚ) := fun h => by
  have := (C48_error_iff wSys_is .infiniteSolutions).2 ⟨rfl, h⟩
  have h' : gaussAlgorithm wSys = .ok (.vector [.fin 2, .fin 1] : Value Q) := by decide +kernel
  rw [h'] at this
  cases this
example := C48_otherwise wSys_is wSys_not
example := C48_finite_iff wSys_is
example := C48_error_singular wSing_is wSing_err
example := C36_error_iff exA_is
example := C36_mismatch (.matrix wM) wM_wf (by rintro m n h; cases h; rintro ⟨h1, h2⟩; simp [wM] at h1 h2; omega)

end MUL
