import Verif.Props.Arith
/-!
# Concrete cases for the theorems of Props/Arith.lean

Each theorem is applied to values that meet its hypotheses.
-/

namespace MUL
open Out Spec FArith Matrix

/-- A vector, a longer one, and a matrix with two rows and three columns. -/
def wV : List Q := [.fin 1, .fin (-2), .fin (1/2)]
def wW : List Q := [.fin 4, .negZero]
def wM : List (List Q) := [[.fin 1, .fin 2, .fin 3], [.fin 4, .fin 5, .fin 6]]

theorem wV_wf : WFValue (.vector wV) := by simp [WFValue, wV]
theorem wM_wf : WFValue (.matrix wM) := ⟨by simp [wM], 3, by decide, by simp [wM]⟩
theorem wM_rect : Rect 2 3 wM := ⟨rfl, by simp [wM]⟩
theorem wV_is : IsVector (.vector wV) (![1, -2, 1/2] : Fin 3 → ℚ) := ⟨_, rfl, by decide +kernel⟩
theorem wH_is : IsScalar (.scalar (.fin (1/2)) : Value Q) (1/2 : ℚ) := ⟨_, rfl, rfl⟩

example := C30_add (.matrix wM) (.matrix wM) wM_wf wM_wf rfl
example := C30_sub (.vector wV) (.vector wV) wV_wf wV_wf rfl
example := C30_mismatch (.vector wV) (.matrix wM) wV_wf wM_wf (by simp [SameShape])
example := C30_mismatch (.vector wV) (.vector wW) wV_wf (by simp [WFValue, wW]) (by simp [SameShape, wV, wW])
example := C30_commutes (F := Q) (fun x y => by cases x <;> cases y <;> simp [FArith.add, Ext.add, Ext.value, add_comm, eq_comm] <;> split <;> simp_all) (.matrix wM) (.matrix wM) wM_wf wM_wf rfl
example := C32_either_side (.fin 7) (.matrix wM) (by simp [kind])
example := C32_div_undefined (.matrix wM) (.vector wV) (by simp [kind]) (by simp)
example := C32_div_undefined (.vector wW) (.vector wV) (by simp [kind]) (by rintro x y h1 h2; cases h1; cases h2; decide)
example := C33_mismatch wV wW (by decide)
example := C31_mismatch (by decide) wM_rect
example := C33_symmetric (F := Q) (fun x y => by cases x <;> cases y <;> simp [FArith.mul, Ext.mul, Ext.value, Ext.signNeg, mul_comm, Bool.xor_comm]) wV wW
example := (C31_mismatch (by decide) wM_rect).1 wW (by decide)
example := (C31_mismatch (by decide) wM_rect).2.1 wM 2 3 wM_rect (by decide)
example := C34_mismatch wV wW (Or.inl (by decide))
example := C34_mismatch (wV ++ wW) (wW ++ wV) (Or.inr (by decide))
example := C35_mismatch (.matrix wM) wM_wf (by rintro m n h; cases h; rintro ⟨h1, h2⟩; simp [wM] at h1 h2; omega)
example := C40_rejected .cross (.scalar (.fin 1) : Value Q) (.vector wV) rfl
example := C30_laws exA_is exA_is exA_is
example := C32_divide_zero (a := (.fin 3 : Q)) (s := .negZero) rfl
example := C33_dot wV_is exV_is
example := C33_abs_scalar wH_is
example := C33_abs_vector wV_is
example := C34_cross (by decide) wV_is exV_is
example := C37_not_integer (m := wM) wH_is (by rintro ⟨k, hk⟩; have : (2 : ℚ) * k = 1 := by rw [← hk]; norm_num
                                               have : (2 * k : Int) = 1 := by exact_mod_cast this
                                               omega)
example := C38_index (K := ℚ) wV (by decide) (by decide) (.fin 2) (.scalar (.fin (1/2)))
example : vGet (.vector wV) (.scalar (.fin 2)) = .ok (.scalar (.fin (1/2))) :=
  (C38_index (K := ℚ) wV (by decide) (by decide) _ _).2 ⟨2, by decide, rfl, rfl, rfl⟩
example := C38_error wV (by decide) (.fin (1/2)) (by
  intro v h
  have h' : vGet (.vector wV) (.scalar (.fin (1/2))) = .err "Index must be a positive Integer!" := by decide +kernel
  rw [h'] at h
  cases h)
example := C38_kinds (.matrix wM) (.scalar (.fin 0)) (by simp [kind])
example := C39_scalar (p := 2) (by decide) wH_is
example := C39_vector (p := 0) (by decide) wV_is
example := C39_entrywise (F := Q) (K := ℚ) (p := 8) (by decide)
example := C39_monotone (F := Q) (K := ℚ) (p := 0) (by decide) wH_is (exS_is 3) (by norm_num) (x' := 1) ⟨.fin 1, by decide +kernel, rfl⟩
  (y' := 3) ⟨.fin 3, by decide +kernel, rfl⟩
example := C39_idempotent (F := Q) (K := ℚ) (p := 0) (by decide) wH_is (y := 1) ⟨.fin 1, by decide +kernel, rfl⟩
example := C40_tight .pow .matrix .scalar rfl
example := C35_laws exA_is exA_is (t := .matrix [[.fin 1, .fin 0, .fin 4], [.fin 2, .fin 1, .fin 0], [.fin 0, .fin (1/2), .fin 3]]) ⟨_, rfl, by decide +kernel⟩

end MUL
