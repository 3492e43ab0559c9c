import Verif.Proofs.Gauss
import Verif.Props.Inverse
/-!
# C48: exactly when a linear system is reported as having infinitely many solutions
-/

namespace MUL
open Out Spec FArith Matrix

set_option linter.unusedSectionVars false

/-- Some row of the extended matrix is a linear combination of the rows up to row `m`, and the leading minors up to that size are
non-zero. -/
def Spec.RedundantRow {K : Type} [Field K] {n : Nat} (M : Matrix (Fin n) (Fin (n + 1)) K) : Prop :=
  ∃ m j : Fin n, m < j ∧
    (∀ k (hk : k ≤ m.1 + 1), (M.submatrix (Fin.castLE (hk.trans m.2)) (Fin.castLE ((hk.trans m.2).trans (Nat.le_succ n)))).det ≠ 0) ∧
    ∃ c : Fin n → K, ∀ k, M j k = ∑ t ∈ Finset.Iic m, c t * M t k

section
variable {F : Type} [FNum F] {K : Type} [Field K] [LinearOrder K] [IsStrictOrderedRing K] [FloorRing K] [Exact F K]

theorem dependent_iff {n : Nat} (M : Matrix (Fin n) (Fin (n + 1)) K) : DependentRows n (n + 1) (sysF M) ↔ RedundantRow M := by
  have key : ∀ (m : Fin n) (c : Nat → K) (k : Fin (n + 1)),
      ∑ t ∈ Finset.range (m.1 + 1), c t * sysF M t k = ∑ t ∈ Finset.Iic m, c t.1 * M t k := by
    intro m c k
    symm
    refine Finset.sum_bij (fun t _ => t.1) (fun t ht => ?_) (fun a _ b _ h => Fin.ext h) (fun b hb => ?_) (fun t _ => ?_)
    · simp only [Finset.mem_Iic, Finset.mem_range] at ht ⊢
      omega
    · rw [Finset.mem_range] at hb
      exact ⟨⟨b, by omega⟩, by rw [Finset.mem_Iic, Fin.le_def]; show b ≤ m.1; omega, rfl⟩
    · unfold sysF
      rw [dif_pos ⟨t.2, k.2⟩]
  constructor
  · rintro ⟨m, j, hmj, hj, hl, c, hc⟩
    refine ⟨⟨m, by omega⟩, ⟨j, hj⟩, hmj, fun k hk => ?_, fun t => c t.1, fun k => ?_⟩
    · have := hl k hk
      rwa [leadDet_sys M (show k ≤ n from le_trans hk (by show m + 1 ≤ n; omega))] at this
    · have := hc k.1 k.2
      rw [key ⟨m, by omega⟩ c k] at this
      rw [← this]
      unfold sysF
      rw [dif_pos ⟨hj, k.2⟩]
  · rintro ⟨m, j, hmj, hl, c, hc⟩
    refine ⟨m.1, j.1, hmj, j.2, fun k hk => ?_, fun t => if h : t < n then c ⟨t, h⟩ else 0, fun k hk => ?_⟩
    · rw [leadDet_sys M (show k ≤ n from le_trans hk m.2)]
      exact hl k hk
    · have e := key m (fun t => if h : t < n then c ⟨t, h⟩ else 0) ⟨k, hk⟩
      simp only [Fin.is_lt, dif_pos] at e
      rw [e, ← hc ⟨k, hk⟩]
      unfold sysF
      rw [dif_pos ⟨j.2, hk⟩]

/-- C48: the elimination fails exactly if it meets a redundant equation (one that is a linear combination, right-hand side
included, of the equations before, whose leading minors are non-zero), and then with `InfiniteSolutions`. A contradictory equation is not reported. -/
theorem C48_error_iff {n : Nat} {u : List (List F)} {M : Matrix (Fin (n + 1)) (Fin (n + 2)) K} (hu : IsMatrix (.matrix u) M) (e : EvalError) :
    gaussAlgorithm u = .err e ↔ e = .infiniteSolutions ∧ RedundantRow M := by
  replace hu := isMatrix_iff.1 hu; obtain ⟨u, hu', hu⟩ := hu
  injection hu' with hu'
  subst hu'
  have h := gauss_err (n := n + 1) (by omega) hu
  rw [dependent_iff] at h
  constructor
  · intro he
    by_cases hr : RedundantRow M
    · rw [h.1 hr] at he
      injection he with he
      exact ⟨he.symm, hr⟩
    · obtain ⟨v, hv⟩ := h.2 hr
      rw [hv] at he
      cases he
  · rintro ⟨rfl, hr⟩
    exact h.1 hr

/-- C48: otherwise the result is a vector with as many entries as there are unknowns (they may be NaN or infinite: `C48_finite_iff`). -/
theorem C48_otherwise {n : Nat} {u : List (List F)} {M : Matrix (Fin (n + 1)) (Fin (n + 2)) K} (hu : IsMatrix (.matrix u) M)
    (h : ¬ RedundantRow M) : ∃ l, gaussAlgorithm u = .ok (.vector l) ∧ l.length = n + 1 := by
  replace hu := isMatrix_iff.1 hu; obtain ⟨u, hu', hu⟩ := hu
  injection hu' with hu'
  subst hu'
  obtain ⟨v, hv⟩ := (gauss_err (n := n + 1) (by omega) hu).2 (by rwa [dependent_iff])
  exact ⟨_, hv, by simp [gaussRes]⟩

end

/-- `x + y = 2, 2x + 2y = 4` is redundant. -/
example : RedundantRow (!![1, 1, 2; 2, 2, 4] : Matrix (Fin 2) (Fin 3) ℚ) := by
  refine ⟨0, 1, by decide, fun k hk => ?_, fun _ => 2, fun k => ?_⟩
  · have : k = 0 ∨ k = 1 := by simp at hk; omega
    rcases this with rfl | rfl
    · simp
    · simp
  · have : Finset.Iic (0 : Fin 2) = {0} := by decide
    rw [this]
    fin_cases k <;> norm_num

/-- `x + y = 2, x + y = 3` has no solution; this is not reported, the result is not finite. -/
theorem C48_contradiction : ∃ l : List Q, gaussAlgorithm [[.fin 1, .fin 1, .fin 2], [.fin 1, .fin 1, .fin 3]] = .ok (.vector l) ∧
    l.length = 2 ∧ ∀ x ∈ l, ∀ q, x ≠ .fin q := by
  refine ⟨[.nan, .inf false], ?_, rfl, by simp⟩
  decide +kernel

end MUL
