import Verif.Proofs.Inverse
import Verif.Props.Arith
/-!
# C36, C48: matrix inverse and linear systems

The code eliminates without exchanging rows. In exact arithmetic a finite result is right; it is obtained exactly if all
leading principal minors are non-zero.
-/

set_option linter.unusedSectionVars false

namespace MUL
open Out Spec FArith Matrix

section
variable {F : Type} [FNum F] {K : Type} [Field K] [LinearOrder K] [IsStrictOrderedRing K] [FloorRing K] [Exact F K]

/-- C36: if all entries of `inv(A)` are finite, it is the two-sided inverse of `A`. -/
theorem C36_inverse {a v : Value F} {n : Nat} {A B : Matrix (Fin (n + 1)) (Fin (n + 1)) K} (ha : IsMatrix a A)
    (h : vInv a = .ok v) (hv : IsMatrix v B) : B * A = 1 ∧ A * B = 1 := by
  replace ha := isMatrix_iff.1 ha; obtain ⟨a, rfl, ha⟩ := ha
  replace hv := isMatrix_iff.1 hv; obtain ⟨b, rfl, hb⟩ := hv
  have := invM_sound (by omega) ha h hb
  exact ⟨this, mul_eq_one_comm.1 this⟩

/-- C36: for a square matrix of finite numbers, `inv` is an error exactly if the determinant is zero; otherwise it
returns a matrix. -/
theorem C36_error_iff {a : Value F} {n : Nat} {A : Matrix (Fin (n + 1)) (Fin (n + 1)) K} (ha : IsMatrix a A) :
    ((∃ e, vInv a = .err e) ↔ A.det = 0) ∧ ((∃ b, vInv a = .ok (.matrix b)) ↔ A.det ≠ 0) := by
  replace ha := isMatrix_iff.1 ha; obtain ⟨a, rfl, ha⟩ := ha
  obtain ⟨h1, h2⟩ := invM_total (n := n + 1) (by omega) ha
  simp only [vInv]
  refine ⟨⟨fun ⟨e, he⟩ => ?_, h1⟩, ⟨fun ⟨b, hb⟩ => ?_, h2⟩⟩
  · by_contra hne
    obtain ⟨b, hb⟩ := h2 hne
    rw [hb] at he; cases he
  · intro h0
    obtain ⟨e, he⟩ := h1 h0
    rw [hb] at he; cases he

/-- C36: the entries are all finite exactly if every leading principal minor of `A` is non-zero. -/
theorem C36_finite_iff {a : Value F} {n : Nat} {A : Matrix (Fin (n + 1)) (Fin (n + 1)) K} (ha : IsMatrix a A) :
    (∃ v, ∃ B : Matrix (Fin (n + 1)) (Fin (n + 1)) K, vInv a = .ok v ∧ IsMatrix v B) ↔
      ∀ k (hk : k ≤ n + 1), (A.submatrix (Fin.castLE hk) (Fin.castLE hk)).det ≠ 0 := by
  replace ha := isMatrix_iff.1 ha; obtain ⟨a, rfl, ha⟩ := ha
  rw [← invM_iff (by omega) ha]
  constructor
  · rintro ⟨v, B, h, hv⟩
    replace hv := isMatrix_iff.1 hv; obtain ⟨b, rfl, hb⟩ := hv
    exact ⟨b, B, h, hb⟩
  · rintro ⟨b, B, h, hb⟩
    exact ⟨_, B, h, isMatrix_iff.2 ⟨b, rfl, hb⟩⟩

/-- C36: anything that is not a square matrix is an error. -/
theorem C36_mismatch (v : Value F) (hv : WFValue v) (h : ∀ m n, v = .matrix m → ¬ Rect n n m) : ∃ e, vInv v = .err e := by
  cases v with
  | scalar s => exact ⟨_, rfl⟩
  | vector l => exact ⟨_, rfl⟩
  | matrix m =>
    obtain ⟨r, c, hr, hc, hm⟩ := wfValue_rect hv
    have hrc : r ≠ c := by
      rintro rfl
      exact h m r rfl hm
    refine ⟨"Can't calculate inverse of a non-square matrix!", ?_⟩
    simp only [vInv, invM]
    rw [detM_err hr hrc hm]

/-! ## C48 -/

/-- C48: if the elimination returns finite numbers they solve the system: row `i` of `u` is the equation
`u i 0 * x 0 + … + u i (n-1) * x (n-1) = u i n`. -/
theorem C48_solution {n : Nat} {u : List (List F)} {x : Value F} {M : Matrix (Fin (n + 1)) (Fin (n + 2)) K} {X : Fin (n + 1) → K}
    (hu : IsMatrix (.matrix u) M) (h : gaussAlgorithm u = .ok x) (hx : IsVector x X) :
    (M.submatrix id Fin.castSucc).mulVec X = fun i => M i (Fin.last (n + 1)) := by
  replace hu := isMatrix_iff.1 hu; obtain ⟨u, hu', hu⟩ := hu
  injection hu' with hu'
  subst hu'
  replace hx := isVector_iff.1 hx; obtain ⟨l, rfl, hl⟩ := hx
  funext i
  exact gauss_sound (by omega) hu h hl i

/-- C48: it returns finite numbers exactly if every leading principal minor of the coefficients is non-zero. -/
theorem C48_finite_iff {n : Nat} {u : List (List F)} {M : Matrix (Fin (n + 1)) (Fin (n + 2)) K} (hu : IsMatrix (.matrix u) M) :
    (∃ x, ∃ X : Fin (n + 1) → K, gaussAlgorithm u = .ok x ∧ IsVector x X) ↔
      ∀ k (hk : k ≤ n + 1), (M.submatrix (Fin.castLE hk) (Fin.castLE (Nat.le_succ_of_le hk))).det ≠ 0 := by
  replace hu := isMatrix_iff.1 hu; obtain ⟨u, hu', hu⟩ := hu
  injection hu' with hu'
  subst hu'
  rw [← gauss_iff (by omega) hu]
  constructor
  · rintro ⟨v, B, h, hv⟩
    replace hv := isVector_iff.1 hv; obtain ⟨b, rfl, hb⟩ := hv
    exact ⟨b, B, h, hb⟩
  · rintro ⟨b, B, h, hb⟩
    exact ⟨_, B, h, isVector_iff.2 ⟨b, rfl, hb⟩⟩

/-- C48: an error (infinitely many solutions) is only reported if the coefficients are singular. -/
theorem C48_error_singular {n : Nat} {u : List (List F)} {M : Matrix (Fin (n + 1)) (Fin (n + 2)) K} (hu : IsMatrix (.matrix u) M)
    {e : EvalError} (h : gaussAlgorithm u = .err e) : (M.submatrix id Fin.castSucc).det = 0 := by
  replace hu := isMatrix_iff.1 hu; obtain ⟨u, hu', hu⟩ := hu
  injection hu' with hu'
  subst hu'
  by_contra hd
  obtain ⟨x, hx⟩ := gauss_total (n := n + 1) (by omega) hu hd
  rw [h] at hx
  cases hx

end

/-! ## Concrete cases -/

/-- The inverse of the example matrix, computed by the library's algorithm. -/
def exInv : Value Q := .matrix [[.fin (3/7), .fin (-6/7), .fin (1/7)], [.fin (2/7), .fin (3/7), .fin (-1/14)],
  [.fin (-4/7), .fin (8/7), .fin (1/7)]]

example : ∃ v, ∃ B : Matrix (Fin 3) (Fin 3) ℚ, vInv exA = .ok v ∧ IsMatrix v B ∧ B * !![1, 2, 0; 0, 1, 1/2; 4, 0, 3] = 1 := by
  have h : vInv exA = .ok exInv := by decide +kernel
  have hB : IsMatrix exInv (!![3/7, -6/7, 1/7; 2/7, 3/7, -1/14; -4/7, 8/7, 1/7] : Matrix (Fin 3) (Fin 3) ℚ) :=
    ⟨_, rfl, by decide +kernel⟩
  exact ⟨_, _, h, hB, (C36_inverse exA_is h hB).1⟩

/-- C36: an invertible matrix with a zero pivot: the result is a matrix of NaNs. -/
theorem C36_zero_pivot_false :
    let J : Value Q := .matrix [[.fin 0, .fin 1], [.fin 1, .fin 0]]
    IsMatrix J (!![0, 1; 1, 0] : Matrix (Fin 2) (Fin 2) ℚ) ∧ (!![0, 1; 1, 0] : Matrix (Fin 2) (Fin 2) ℚ).det ≠ 0 ∧
    vInv J = .ok (.matrix [[.nan, .nan], [.nan, .nan]]) := by
  refine ⟨⟨_, rfl, by decide +kernel⟩, ?_, by decide +kernel⟩
  rw [Matrix.det_fin_two]
  simp

example : vInv (.matrix [[.fin 1, .fin 2], [.fin 2, .fin 4]] : Value Q) =
    .err "Can't calculate inverse of a matrix with determinant 0!" := by decide +kernel

/-- `2x + y = 5`, `x - y = 1` -/
example : (!![2, 1; 1, -1] : Matrix (Fin 2) (Fin 2) ℚ).mulVec ![2, 1] = ![5, 1] := by
  have h : gaussAlgorithm [[.fin 2, .fin 1, .fin 5], [.fin 1, .fin (-1), .fin 1]] = .ok (.vector [.fin 2, .fin 1] : Value Q) := by
    decide +kernel
  have := C48_solution (K := ℚ) (M := !![2, 1, 5; 1, -1, 1]) (X := ![2, 1]) ⟨_, rfl, by decide +kernel⟩ h ⟨_, rfl, by decide +kernel⟩
  convert this using 1
  · congr 1
    ext i j; fin_cases i <;> fin_cases j <;> rfl
  · funext i; fin_cases i <;> rfl

/-- C48: `y = 2, x = 1` for `(x, y)` has exactly one solution, but the first pivot is zero. -/
theorem C48_zero_pivot_false :
    gaussAlgorithm [[.fin 0, .fin 1, .fin 2], [.fin 1, .fin 0, .fin 1]] = .ok (.vector [.nan, .nan] : Value Q) := by decide +kernel

/-- C48: a singular system is reported. -/
example : gaussAlgorithm [[.fin 1, .fin 1, .fin 2], [.fin 2, .fin 2, .fin 4]] = (.err .infiniteSolutions : Out EvalError (Value Q)) := by
  decide +kernel

end MUL
