import Verif.Proofs.Accuracy
/-!
# Sums of slices of unequal width, and sums with rounding errors
-/

namespace MUL
open Spec MeasureTheory

theorem lipschitz_continuousOn {f : ℝ → ℝ} {L : ℝ} {S : Set ℝ} (hL : ∀ s ∈ S, ∀ t ∈ S, |f s - f t| ≤ L * |s - t|) : ContinuousOn f S := by
  have : LipschitzOnWith (max L 0).toNNReal f S := by
    apply LipschitzOnWith.of_dist_le_mul
    intro s hs t ht
    rw [Real.dist_eq, Real.dist_eq, Real.coe_toNNReal _ (le_max_right _ _)]
    exact (hL s hs t ht).trans (mul_le_mul_of_nonneg_right (le_max_left _ _) (abs_nonneg _))
  exact this.continuousOn

/-- One slice: the integrand is taken at a point at most `2h` away. -/
theorem slice_error {f : ℝ → ℝ} {c d m h L : ℝ} {S : Set ℝ} (hcd : c ≤ d) (hS : Set.Icc c d ⊆ S) (hm : m ∈ S)
    (hL : ∀ s ∈ S, ∀ t ∈ S, |f s - f t| ≤ L * |s - t|) (hL0 : 0 ≤ L) (hdist : ∀ t ∈ Set.Icc c d, |t - m| ≤ 2 * h) :
    |(d - c) * f m - ∫ t in c..d, f t| ≤ 2 * L * h * (d - c) := by
  have hcont := lipschitz_continuousOn hL
  have hint : IntervalIntegrable f volume c d := by
    apply ContinuousOn.intervalIntegrable
    rw [Set.uIcc_of_le hcd]
    exact hcont.mono hS
  have h2 : (∫ t in c..d, (f t - f m)) = (∫ t in c..d, f t) - (d - c) * f m := by
    rw [intervalIntegral.integral_sub hint intervalIntegrable_const, intervalIntegral.integral_const]
    simp
  have h3 : ‖∫ t in c..d, (f t - f m)‖ ≤ 2 * L * h * |d - c| := by
    apply intervalIntegral.norm_integral_le_of_norm_le_const
    intro t ht
    rw [Set.uIoc_of_le hcd] at ht
    have ht' : t ∈ Set.Icc c d := ⟨ht.1.le, ht.2⟩
    rw [Real.norm_eq_abs]
    calc |f t - f m| ≤ L * |t - m| := hL t (hS ht') m hm
      _ ≤ L * (2 * h) := mul_le_mul_of_nonneg_left (hdist t ht') hL0
      _ = 2 * L * h := by ring
  rw [h2, Real.norm_eq_abs, abs_sub_comm, abs_of_nonneg (sub_nonneg.2 hcd)] at h3
  exact h3

/-- Slices whose widths differ from `h` by at most `η h`, that begin at `a` and end beyond `b`. -/
theorem slices_error {f : ℝ → ℝ} {t m : Nat → ℝ} {K : Nat} {a b h η L B : ℝ} (hh : 0 < h) (hη : η ≤ 1 / 8) (ht0 : t 0 = a)
    (hstep : ∀ i < K, |t (i + 1) - t i - h| ≤ η * h) (hlt : ∀ i < K, t i < b) (hend : b ≤ t K) (hab : a < b)
    (hm : ∀ i < K, |m i - t i| ≤ 7 / 8 * h)
    (hL : ∀ s ∈ Set.Icc (a - h) (b + 2 * h), ∀ t ∈ Set.Icc (a - h) (b + 2 * h), |f s - f t| ≤ L * |s - t|)
    (hB : ∀ s ∈ Set.Icc (a - h) (b + 2 * h), |f s| ≤ B) :
    |h * ∑ i ∈ Finset.range K, f (m i) - ∫ s in a..b, f s| ≤ 2 * L * h * (b - a + 9 / 8 * h) + B * (K * (η * h)) + B * (9 / 8 * h) ∧
    7 / 8 * h * K ≤ b - a + 9 / 8 * h := by
  have hL0 : 0 ≤ L := by
    have h1 := hL a ⟨by linarith, by linarith⟩ b ⟨by linarith, by linarith⟩
    by_contra hc
    have h2 : 0 < |a - b| := abs_pos.2 (by linarith)
    have : L * |a - b| < 0 := mul_neg_of_neg_of_pos (not_le.1 hc) h2
    have := abs_nonneg (f a - f b)
    linarith
  have hB0 : 0 ≤ B := (abs_nonneg _).trans (hB a ⟨by linarith, by linarith⟩)
  have hw : ∀ i < K, 7 / 8 * h ≤ t (i + 1) - t i ∧ t (i + 1) - t i ≤ 9 / 8 * h := by
    intro i hi
    have h1 := abs_le.1 (hstep i hi)
    have h2 : η * h ≤ 1 / 8 * h := mul_le_mul_of_nonneg_right hη hh.le
    constructor <;> linarith [h1.1, h1.2]
  have hlow : ∀ i ≤ K, a + 7 / 8 * h * i ≤ t i := by
    intro i
    induction i with
    | zero => intro _; simp [ht0]
    | succ i ih =>
      intro hi
      have := ih (by omega)
      push_cast
      linarith [(hw i (by omega)).1]
  have hge : ∀ i ≤ K, a ≤ t i := by
    intro i hi
    have := hlow i hi
    have h2 : 0 ≤ 7 / 8 * h * i := by positivity
    linarith
  have hKpos : 0 < K := by
    rcases Nat.eq_zero_or_pos K with rfl | h
    · rw [ht0] at hend; linarith
    · exact h
  have hK : t K ≤ b + 9 / 8 * h := by
    have h1 := hlt (K - 1) (by omega)
    have h2 := (hw (K - 1) (by omega)).2
    rw [show K - 1 + 1 = K by omega] at h2
    linarith
  have hsub : ∀ i < K, Set.Icc (t i) (t (i + 1)) ⊆ Set.Icc (a - h) (b + 2 * h) := by
    intro i hi
    apply Set.Icc_subset_Icc
    · linarith [hge i (by omega)]
    · linarith [hlt i hi, (hw i hi).2]
  have hms : ∀ i < K, m i ∈ Set.Icc (a - h) (b + 2 * h) := by
    intro i hi
    have h1 := abs_le.1 (hm i hi)
    constructor
    · linarith [hge i (by omega), h1.1]
    · linarith [hlt i hi, h1.2]
  have hcont := lipschitz_continuousOn hL
  have hsum : ∑ i ∈ Finset.range K, ∫ s in (t i)..(t (i + 1)), f s = ∫ s in a..(t K), f s := by
    have := intervalIntegral.sum_integral_adjacent_intervals (μ := volume) (f := f) (a := t) (n := K) (by
      intro i hi
      apply ContinuousOn.intervalIntegrable
      rw [Set.uIcc_of_le (by linarith [(hw i hi).1])]
      exact hcont.mono (hsub i hi))
    rw [this, ht0]
  have hslices : |∑ i ∈ Finset.range K, (t (i + 1) - t i) * f (m i) - ∫ s in a..(t K), f s| ≤ 2 * L * h * (t K - a) := by
    rw [← hsum, ← Finset.sum_sub_distrib]
    calc _ ≤ ∑ i ∈ Finset.range K, |(t (i + 1) - t i) * f (m i) - ∫ s in (t i)..(t (i + 1)), f s| := Finset.abs_sum_le_sum_abs _ _
      _ ≤ ∑ i ∈ Finset.range K, 2 * L * h * (t (i + 1) - t i) := by
        refine Finset.sum_le_sum fun i hi => ?_
        have hi' := Finset.mem_range.1 hi
        refine slice_error (by linarith [(hw i hi').1]) (hsub i hi') (hms i hi') hL hL0 ?_
        intro s hs
        have h1 := abs_le.1 (hm i hi')
        rw [abs_le]
        constructor
        · linarith [hs.1, h1.2]
        · linarith [hs.2, h1.1, (hw i hi').2]
      _ = 2 * L * h * (t K - a) := by
        rw [← Finset.mul_sum, Finset.sum_range_sub, ht0]
  have hwidth : |h * ∑ i ∈ Finset.range K, f (m i) - ∑ i ∈ Finset.range K, (t (i + 1) - t i) * f (m i)| ≤ B * (K * (η * h)) := by
    rw [Finset.mul_sum, ← Finset.sum_sub_distrib]
    calc _ ≤ ∑ i ∈ Finset.range K, |h * f (m i) - (t (i + 1) - t i) * f (m i)| := Finset.abs_sum_le_sum_abs _ _
      _ ≤ ∑ i ∈ Finset.range K, B * (η * h) := by
        refine Finset.sum_le_sum fun i hi => ?_
        have hi' := Finset.mem_range.1 hi
        rw [← sub_mul, abs_mul, abs_sub_comm, mul_comm]
        exact mul_le_mul (hB _ (hms i hi')) (hstep i hi') (abs_nonneg _) hB0
      _ = _ := by rw [Finset.sum_const, Finset.card_range, nsmul_eq_mul]; ring
  have hover : |∫ s in b..(t K), f s| ≤ B * (9 / 8 * h) := by
    have h1 : ‖∫ s in b..(t K), f s‖ ≤ B * |t K - b| := by
      apply intervalIntegral.norm_integral_le_of_norm_le_const
      intro s hs
      rw [Set.uIoc_of_le hend] at hs
      rw [Real.norm_eq_abs]
      exact hB s ⟨by linarith [hs.1], by linarith [hs.2]⟩
    rw [Real.norm_eq_abs, abs_of_nonneg (a := t K - b) (sub_nonneg.2 hend)] at h1
    exact h1.trans (mul_le_mul_of_nonneg_left (by linarith) hB0)
  have hadd : (∫ s in a..b, f s) + ∫ s in b..(t K), f s = ∫ s in a..(t K), f s := by
    have hi : ∀ p q, a ≤ p → p ≤ q → q ≤ t K → IntervalIntegrable f volume p q := by
      intro p q h1 h2 h3
      apply ContinuousOn.intervalIntegrable
      rw [Set.uIcc_of_le h2]
      exact hcont.mono (Set.Icc_subset_Icc (by linarith) (by linarith))
    exact intervalIntegral.integral_add_adjacent_intervals (hi a b le_rfl hab.le hend) (hi b (t K) hab.le hend le_rfl)
  constructor
  · have e : h * ∑ i ∈ Finset.range K, f (m i) - ∫ s in a..b, f s =
        (h * ∑ i ∈ Finset.range K, f (m i) - ∑ i ∈ Finset.range K, (t (i + 1) - t i) * f (m i)) +
        (∑ i ∈ Finset.range K, (t (i + 1) - t i) * f (m i) - ∫ s in a..(t K), f s) + ∫ s in b..(t K), f s := by
      rw [← hadd]; ring
    rw [e]
    refine (abs_add_three _ _ _).trans ?_
    have h2 : 2 * L * h * (t K - a) ≤ 2 * L * h * (b - a + 9 / 8 * h) :=
      mul_le_mul_of_nonneg_left (by linarith) (by positivity)
    linarith
  · linarith [hlow K le_rfl]

/-- Adding up numbers of size at most `Y`, where each addition has a relative error of `2^-53`. -/
theorem sum_error {S y : Nat → ℝ} {K : Nat} {Y : ℝ} (hY : ∀ i ≤ K, |y i| ≤ Y) (h0 : S 0 = y 0)
    (hS : ∀ i < K, |S (i + 1) - (S i + y (i + 1))| ≤ |S i + y (i + 1)| / 2 ^ 53) (hK : (K : ℝ) + 1 ≤ 2 ^ 50) (j : Nat) (hj : j ≤ K) :
    |S j - ∑ i ∈ Finset.range (j + 1), y i| ≤ ((j : ℝ) + 1) ^ 2 * Y / 2 ^ 52 ∧ |S j| ≤ 5 / 4 * (((j : ℝ) + 1) * Y) := by
  have hY0 : 0 ≤ Y := (abs_nonneg _).trans (hY 0 (by omega))
  have hsum : ∀ j ≤ K, |∑ i ∈ Finset.range (j + 1), y i| ≤ ((j : ℝ) + 1) * Y := by
    intro j hj
    calc _ ≤ ∑ i ∈ Finset.range (j + 1), |y i| := Finset.abs_sum_le_sum_abs _ _
      _ ≤ ∑ i ∈ Finset.range (j + 1), Y := Finset.sum_le_sum fun i hi => hY i (by have := Finset.mem_range.1 hi; omega)
      _ = _ := by rw [Finset.sum_const, Finset.card_range, nsmul_eq_mul]; push_cast; ring
  have hsize : ∀ j ≤ K, |S j - ∑ i ∈ Finset.range (j + 1), y i| ≤ ((j : ℝ) + 1) ^ 2 * Y / 2 ^ 52 → |S j| ≤ 5 / 4 * (((j : ℝ) + 1) * Y) := by
    intro j hj h
    have h1 : |S j| ≤ |S j - ∑ i ∈ Finset.range (j + 1), y i| + |∑ i ∈ Finset.range (j + 1), y i| := by
      calc |S j| = |(S j - ∑ i ∈ Finset.range (j + 1), y i) + ∑ i ∈ Finset.range (j + 1), y i| := by rw [sub_add_cancel]
        _ ≤ _ := abs_add_le _ _
    have h2 : (j : ℝ) + 1 ≤ 2 ^ 50 := by
      have : (j : ℝ) ≤ K := by exact_mod_cast hj
      linarith
    have h3 : ((j : ℝ) + 1) ^ 2 * Y / 2 ^ 52 ≤ 1 / 4 * (((j : ℝ) + 1) * Y) := by
      have h5 : 0 ≤ ((j : ℝ) + 1) * Y := by positivity
      have h4 : ((j : ℝ) + 1) * (((j : ℝ) + 1) * Y) ≤ 2 ^ 50 * (((j : ℝ) + 1) * Y) := mul_le_mul_of_nonneg_right h2 h5
      rw [div_le_iff₀ (by positivity)]
      calc ((j : ℝ) + 1) ^ 2 * Y = ((j : ℝ) + 1) * (((j : ℝ) + 1) * Y) := by ring
        _ ≤ 2 ^ 50 * (((j : ℝ) + 1) * Y) := h4
        _ = _ := by ring
    linarith [hsum j hj]
  suffices h : |S j - ∑ i ∈ Finset.range (j + 1), y i| ≤ ((j : ℝ) + 1) ^ 2 * Y / 2 ^ 52 from ⟨h, hsize j hj h⟩
  induction j with
  | zero =>
    rw [h0]
    simp
    positivity
  | succ j ih =>
    have ih' := ih (by omega)
    have hs := hsize j (by omega) ih'
    have h1 := hS j (by omega)
    have h2 := hY (j + 1) hj
    have h3 : |S j + y (j + 1)| ≤ 5 / 4 * (((j : ℝ) + 1) * Y) + Y := (abs_add_le _ _).trans (by linarith)
    rw [Finset.sum_range_succ]
    have e : S (j + 1) - (∑ i ∈ Finset.range (j + 1), y i + y (j + 1)) =
        (S (j + 1) - (S j + y (j + 1))) + (S j - ∑ i ∈ Finset.range (j + 1), y i) := by ring
    rw [e]
    refine (abs_add_le _ _).trans ?_
    have h4 : |S j + y (j + 1)| / 2 ^ 53 ≤ (5 / 4 * (((j : ℝ) + 1) * Y) + Y) / 2 ^ 53 := by gcongr
    have h5 : 0 ≤ (j : ℝ) * Y := by positivity
    push_cast
    have h6 : (5 / 4 * (((j : ℝ) + 1) * Y) + Y) / 2 ^ 53 + ((j : ℝ) + 1) ^ 2 * Y / 2 ^ 52 ≤ ((j : ℝ) + 1 + 1) ^ 2 * Y / 2 ^ 52 := by
      rw [div_add_div _ _ (by positivity) (by positivity), div_le_div_iff₀ (by positivity) (by positivity)]
      ring_nf
      nlinarith
    linarith

end MUL
