import Verif.Spec.Calculus
import Mathlib.MeasureTheory.Integral.IntervalIntegral.FundThmCalculus
import Mathlib.Analysis.SpecialFunctions.Integrals.Basic
/-!
# Error bounds for difference quotients and Riemann sums
-/

namespace MUL
open Spec MeasureTheory

/-- The distance of a difference quotient from the derivative. -/
theorem diffQuotient_error {f f' : ℝ → ℝ} {a h L : ℝ} (hh : 0 < h)
    (hf : ∀ t ∈ Set.Icc a (a + h), HasDerivAt f (f' t) t)
    (hL : ∀ s ∈ Set.Icc a (a + h), ∀ t ∈ Set.Icc a (a + h), |f' s - f' t| ≤ L * |s - t|) :
    |(f (a + h) - f a) / h - f' a| ≤ L * h / 2 := by
  have hle : a ≤ a + h := by linarith
  have hL0 : 0 ≤ L := by
    have := hL a ⟨le_rfl, hle⟩ (a + h) ⟨hle, le_rfl⟩
    have h1 : |a - (a + h)| = h := by rw [sub_add_cancel_left, abs_neg, abs_of_pos hh]
    rw [h1] at this
    by_contra hc
    have : L * h < 0 := mul_neg_of_neg_of_pos (not_le.1 hc) hh
    have := abs_nonneg (f' a - f' (a + h))
    linarith
  have hcont : ContinuousOn f' (Set.uIcc a (a + h)) := by
    rw [Set.uIcc_of_le hle]
    have : LipschitzOnWith L.toNNReal f' (Set.Icc a (a + h)) := by
      apply LipschitzOnWith.of_dist_le_mul
      intro s hs t ht
      rw [Real.dist_eq, Real.dist_eq, Real.coe_toNNReal L hL0]
      exact hL s hs t ht
    exact this.continuousOn
  have hint : IntervalIntegrable f' volume a (a + h) := hcont.intervalIntegrable
  have h1 : ∫ t in a..(a + h), f' t = f (a + h) - f a :=
    intervalIntegral.integral_eq_sub_of_hasDerivAt (fun t ht => hf t (by rwa [Set.uIcc_of_le hle] at ht)) hint
  have h2 : (∫ t in a..(a + h), (f' t - f' a)) = f (a + h) - f a - f' a * h := by
    rw [intervalIntegral.integral_sub hint intervalIntegrable_const, h1, intervalIntegral.integral_const]
    simp
    ring
  have h3 : ‖∫ t in a..(a + h), (f' t - f' a)‖ ≤ ∫ t in a..(a + h), L * (t - a) := by
    apply intervalIntegral.norm_integral_le_of_norm_le hle
    · filter_upwards with t ht
      have ht' : t ∈ Set.Icc a (a + h) := ⟨ht.1.le, ht.2⟩
      rw [Real.norm_eq_abs]
      refine (hL t ht' a ⟨le_rfl, hle⟩).trans ?_
      rw [abs_of_nonneg (by linarith [ht.1])]
    · exact (Continuous.intervalIntegrable (by fun_prop) _ _)
  have h4 : (∫ t in a..(a + h), L * (t - a)) = L * (h ^ 2 / 2) := by
    rw [intervalIntegral.integral_const_mul, intervalIntegral.integral_comp_sub_right (fun t => t) a]
    simp
  rw [h2, h4, Real.norm_eq_abs] at h3
  have h5 : (f (a + h) - f a) / h - f' a = (f (a + h) - f a - f' a * h) / h := by field_simp
  rw [h5, abs_div, abs_of_pos hh, div_le_iff₀ hh]
  calc |f (a + h) - f a - f' a * h| ≤ L * (h ^ 2 / 2) := h3
    _ = L * h / 2 * h := by ring

/-- One step of the Riemann sum: the sample point is half a step to the left of the interval. -/
theorem riemann_step {f : ℝ → ℝ} {c d L : ℝ} (hd : 0 < d)
    (hL : ∀ s ∈ Set.Icc (c - d / 2) (c + d), ∀ t ∈ Set.Icc (c - d / 2) (c + d), |f s - f t| ≤ L * |s - t|) :
    |d * f (c - d / 2) - ∫ t in c..(c + d), f t| ≤ L * d ^ 2 := by
  have hle : c ≤ c + d := by linarith
  have hp : c - d / 2 ∈ Set.Icc (c - d / 2) (c + d) := ⟨le_rfl, by linarith⟩
  have hL0 : 0 ≤ L := by
    have := hL (c - d / 2) hp c ⟨by linarith, by linarith⟩
    have h1 : |c - d / 2 - c| = d / 2 := by rw [sub_sub_cancel_left, abs_neg, abs_of_pos (by linarith)]
    rw [h1] at this
    by_contra hc
    have : L * (d / 2) < 0 := mul_neg_of_neg_of_pos (not_le.1 hc) (by linarith)
    have := abs_nonneg (f (c - d / 2) - f c)
    linarith
  have hcont : ContinuousOn f (Set.uIcc c (c + d)) := by
    rw [Set.uIcc_of_le hle]
    have : LipschitzOnWith L.toNNReal f (Set.Icc (c - d / 2) (c + d)) := by
      apply LipschitzOnWith.of_dist_le_mul
      intro s hs t ht
      rw [Real.dist_eq, Real.dist_eq, Real.coe_toNNReal L hL0]
      exact hL s hs t ht
    exact this.continuousOn.mono (Set.Icc_subset_Icc (by linarith) le_rfl)
  have hint : IntervalIntegrable f volume c (c + d) := hcont.intervalIntegrable
  have h2 : (∫ t in c..(c + d), (f t - f (c - d / 2))) = (∫ t in c..(c + d), f t) - d * f (c - d / 2) := by
    rw [intervalIntegral.integral_sub hint intervalIntegrable_const, intervalIntegral.integral_const]
    simp
  have h3 : ‖∫ t in c..(c + d), (f t - f (c - d / 2))‖ ≤ ∫ t in c..(c + d), L * (t - (c - d / 2)) := by
    apply intervalIntegral.norm_integral_le_of_norm_le hle
    · filter_upwards with t ht
      rw [Real.norm_eq_abs]
      refine (hL t ⟨by linarith [ht.1], ht.2⟩ _ hp).trans ?_
      rw [abs_of_nonneg (by linarith [ht.1])]
    · exact (Continuous.intervalIntegrable (by fun_prop) _ _)
  have h4 : (∫ t in c..(c + d), L * (t - (c - d / 2))) = L * d ^ 2 := by
    rw [intervalIntegral.integral_const_mul, intervalIntegral.integral_comp_sub_right (fun t => t) (c - d / 2), integral_id]
    ring
  rw [h2, h4, Real.norm_eq_abs, abs_sub_comm] at h3
  exact h3

/-- The distance of the Riemann sum from the integral. -/
theorem riemann_error {f : ℝ → ℝ} {a b L : ℝ} {N : Nat} (hN : 0 < N) (hab : a < b)
    (hL : ∀ s ∈ Set.Icc (a - (b - a) / N / 2) b, ∀ t ∈ Set.Icc (a - (b - a) / N / 2) b, |f s - f t| ≤ L * |s - t|) :
    |riemann N f a b - ∫ t in a..b, f t| ≤ L * (b - a) ^ 2 / N := by
  obtain ⟨d, hd⟩ : ∃ d, d = (b - a) / N := ⟨_, rfl⟩
  have hN' : (0 : ℝ) < N := by exact_mod_cast hN
  have hd0 : 0 < d := by rw [hd]; exact div_pos (by linarith) hN'
  have hNd : N * d = b - a := by rw [hd]; field_simp
  rw [← hd] at hL
  have hsub : ∀ i : Nat, i < N → Set.Icc (a + i * d - d / 2) (a + i * d + d) ⊆ Set.Icc (a - d / 2) b := by
    intro i hi
    have h1 : (i : ℝ) + 1 ≤ N := by exact_mod_cast hi
    have h2 : (0 : ℝ) ≤ i := Nat.cast_nonneg i
    apply Set.Icc_subset_Icc
    · nlinarith
    · nlinarith
  have hstep : ∀ i ∈ Finset.range N, |d * f (a + i * d - d / 2) - ∫ t in (a + i * d)..(a + i * d + d), f t| ≤ L * d ^ 2 := by
    intro i hi
    have hs := hsub i (Finset.mem_range.1 hi)
    exact riemann_step hd0 fun s h1 t h2 => hL s (hs h1) t (hs h2)
  have hLip : ContinuousOn f (Set.Icc (a - d / 2) b) := by
    have hL0 : 0 ≤ L := by
      have := hL a ⟨by linarith, hab.le⟩ b ⟨by linarith, le_rfl⟩
      by_contra hc
      have h1 : 0 < |a - b| := abs_pos.2 (by linarith)
      have : L * |a - b| < 0 := mul_neg_of_neg_of_pos (not_le.1 hc) h1
      have := abs_nonneg (f a - f b)
      linarith
    have : LipschitzOnWith L.toNNReal f (Set.Icc (a - d / 2) b) := by
      apply LipschitzOnWith.of_dist_le_mul
      intro s hs t ht
      rw [Real.dist_eq, Real.dist_eq, Real.coe_toNNReal L hL0]
      exact hL s hs t ht
    exact this.continuousOn
  have hsum : ∑ i ∈ Finset.range N, ∫ t in (a + i * d)..(a + i * d + d), f t = ∫ t in a..b, f t := by
    have := intervalIntegral.sum_integral_adjacent_intervals (μ := volume) (f := f) (a := fun i : Nat => a + i * d) (n := N) (by
      intro i hi
      apply ContinuousOn.intervalIntegrable
      have h1 : a + (i : ℝ) * d ≤ a + ((i + 1 : Nat) : ℝ) * d := by push_cast; nlinarith
      rw [Set.uIcc_of_le h1]
      refine hLip.mono (subset_trans ?_ (hsub i hi))
      apply Set.Icc_subset_Icc
      · linarith
      · push_cast; linarith)
    simp only [Nat.cast_zero, zero_mul, add_zero, hNd] at this
    rw [show a + (b - a) = b by ring] at this
    rw [← this]
    refine Finset.sum_congr rfl fun i _ => ?_
    congr 1
    push_cast
    ring
  have hriem : riemann N f a b = ∑ i ∈ Finset.range N, d * f (a + i * d - d / 2) := by
    unfold riemann
    rw [← hd, smul_eq_mul, ← Finset.mul_sum, ← List.sum_toFinset _ List.nodup_range, List.toFinset_range]
    congr 1
    refine Finset.sum_congr rfl fun i _ => ?_
    congr 1
    ring
  rw [hriem, ← hsum, ← Finset.sum_sub_distrib]
  calc |∑ i ∈ Finset.range N, (d * f (a + i * d - d / 2) - ∫ t in (a + i * d)..(a + i * d + d), f t)|
      ≤ ∑ i ∈ Finset.range N, |d * f (a + i * d - d / 2) - ∫ t in (a + i * d)..(a + i * d + d), f t| := Finset.abs_sum_le_sum_abs _ _
    _ ≤ ∑ i ∈ Finset.range N, L * d ^ 2 := Finset.sum_le_sum hstep
    _ = L * (b - a) ^ 2 / N := by
      rw [Finset.sum_const, Finset.card_range, nsmul_eq_mul, hd]
      field_simp

end MUL
