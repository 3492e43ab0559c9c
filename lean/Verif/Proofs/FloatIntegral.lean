import Verif.Proofs.SliceSum
/-!
# Bounds for the computed integrals (real numbers only)
-/

namespace MUL

/-- The step: a difference and a power of ten with small errors, and their quotient. -/
theorem width_bound {D N w P d u : ℝ} (hD : 0 < D) (hN : 1 ≤ N) (hu0 : 0 ≤ u) (hu : u ≤ 1 / 2 ^ 20) (hw : |w - D| ≤ D / 2 ^ 53)
    (hP : |P - N| ≤ (u + 1 / 2 ^ 60) * N) (hd : |d - w / P| ≤ |w / P| / 2 ^ 53) :
    0 < w ∧ 0 < P ∧ |d - D / N| ≤ (2 * u + 1 / 2 ^ 50) * (D / N) := by
  have h1 := abs_le.1 hw
  have h2 := abs_le.1 hP
  have hN0 : 0 < N := by linarith
  have hw0 : 0 < w := by
    have : D / 2 ^ 53 < D := div_lt_self hD (by norm_num)
    linarith
  have hc : u + 1 / 2 ^ 60 ≤ 1 / 2 ^ 19 := by linarith
  have hcN : (u + 1 / 2 ^ 60) * N ≤ 1 / 2 ^ 19 * N := mul_le_mul_of_nonneg_right hc hN0.le
  have hP0 : 0 < P := by linarith
  refine ⟨hw0, hP0, ?_⟩
  have hh : 0 < D / N := by positivity
  have hq : |w / P - D / N| ≤ (3 / 2 * u + 1 / 2 ^ 51) * (D / N) := by
    have e : w / P - D / N = (w - D) / P + D / N * ((N - P) / P) := by field_simp; ring
    have hP2 : (1 - 1 / 2 ^ 18) * N ≤ P := by linarith
    have hr : |N - P| / P ≤ 5 / 4 * (u + 1 / 2 ^ 60) := by
      rw [div_le_iff₀ hP0, abs_sub_comm]
      have h3 : (u + 1 / 2 ^ 60) * N ≤ (u + 1 / 2 ^ 60) * (5 / 4 * P) := mul_le_mul_of_nonneg_left (by linarith) (by positivity)
      linarith
    have hs : |w - D| / P ≤ 5 / 4 * (D / N) / 2 ^ 53 := by
      rw [div_le_iff₀ hP0]
      have h3 : D / N * N ≤ D / N * (5 / 4 * P) := mul_le_mul_of_nonneg_left (by linarith) hh.le
      rw [div_mul_cancel₀ _ hN0.ne'] at h3
      linarith
    rw [e]
    refine (abs_add_le _ _).trans ?_
    rw [abs_div, abs_mul, abs_div (N - P), abs_of_pos hP0, abs_of_pos hh]
    have h4 := mul_le_mul_of_nonneg_left hr hh.le
    have h5 : 0 ≤ D / N * u := by positivity
    linarith
  have h6 := abs_le.1 hq
  have hx : (3 / 2 * u + 1 / 2 ^ 51) * (D / N) ≤ 1 / 4 * (D / N) := mul_le_mul_of_nonneg_right (by linarith) hh.le
  have h7 : |w / P| ≤ 5 / 4 * (D / N) := by rw [abs_le]; constructor <;> linarith
  calc |d - D / N| = |(d - w / P) + (w / P - D / N)| := by ring_nf
    _ ≤ |d - w / P| + |w / P - D / N| := abs_add_le _ _
    _ ≤ _ := by
      have : 0 ≤ D / N * u := by positivity
      linarith

variable {a b D N M h d u : ℝ} {t : Nat → ℝ}

/-- The sizes of the numbers. -/
structure Sizes (a b D N M h d u : ℝ) : Prop where
  hab : a < b
  hD : D = b - a
  hN : 10 ≤ N
  ha : |a| ≤ M
  hb : |b| ≤ M
  hM : M * N ≤ 2 ^ 45 * D
  hh : h = D / N
  hu0 : 0 ≤ u
  hu : u ≤ 1 / 2 ^ 20
  hd : |d - h| ≤ (2 * u + 1 / 2 ^ 50) * h

namespace Sizes
variable (z : Sizes a b D N M h d u)
include z

theorem D_pos : 0 < D := by rw [z.hD]; linarith [z.hab]
theorem h_pos : 0 < h := by rw [z.hh]; exact div_pos z.D_pos (by linarith [z.hN])
theorem hN_eq : h * N = D := by rw [z.hh]; exact div_mul_cancel₀ _ (by linarith [z.hN])
theorem h_le : h ≤ D / 10 := by
  have := z.hN_eq
  have : h * 10 ≤ h * N := mul_le_mul_of_nonneg_left z.hN z.h_pos.le
  linarith
theorem M_ge : D ≤ 2 * M := by
  have h1 := abs_le.1 z.ha
  have h2 := abs_le.1 z.hb
  rw [z.hD]; linarith
theorem M_le : M ≤ 2 ^ 45 * h := by
  have h1 := z.hM
  rw [← z.hN_eq, ← mul_assoc] at h1
  exact le_of_mul_le_mul_right h1 (by linarith [z.hN])
theorem d_bounds : (1 - 1 / 2 ^ 18) * h ≤ d ∧ d ≤ (1 + 1 / 2 ^ 18) * h := by
  have h1 := abs_le.1 z.hd
  have h2 : (2 * u + 1 / 2 ^ 50) * h ≤ 1 / 2 ^ 18 * h := mul_le_mul_of_nonneg_right (by linarith [z.hu]) z.h_pos.le
  constructor <;> linarith

/-- The relative error of a step. -/
theorem step_error {t0 t1 : ℝ} (h0 : a ≤ t0) (h1 : t0 < b) (ht : |t1 - (t0 + d)| ≤ |t0 + d| / 2 ^ 53) :
    |t1 - t0 - h| ≤ (2 * u + 11 * (M * N) / (D * 2 ^ 52)) * h ∧ 2 * u + 11 * (M * N) / (D * 2 ^ 52) ≤ 1 / 8 ∧ |t0| ≤ M ∧ |t0 + d| ≤ 2 * M := by
  have ea := abs_le.1 z.ha
  have eb := abs_le.1 z.hb
  have hh := z.h_pos
  have hD := z.D_pos
  have e1 : |t0| ≤ M := by rw [abs_le]; constructor <;> linarith
  have e2 : |t0 + d| ≤ 2 * M := by
    refine (abs_add_le _ _).trans ?_
    have := z.d_bounds
    rw [abs_of_nonneg (a := d) (by linarith)]
    linarith [z.h_le, z.M_ge]
  have e3 : (11 * (M * N) / (D * 2 ^ 52)) * h = 11 * M / 2 ^ 52 := by
    rw [z.hh]; field_simp [z.hN]
    have : N ≠ 0 := by linarith [z.hN]
    field_simp
  refine ⟨?_, ?_, e1, e2⟩
  · rw [add_mul, e3]
    have e4 : |t1 - t0 - h| ≤ |t1 - (t0 + d)| + |d - h| := by
      calc _ = |(t1 - (t0 + d)) + (d - h)| := by ring_nf
        _ ≤ _ := abs_add_le _ _
    have : h ≤ M / 5 := by linarith [z.h_le, z.M_ge]
    linarith [z.hd]
  · have : 11 * (M * N) / (D * 2 ^ 52) ≤ 11 * 2 ^ 45 / 2 ^ 52 := by
      rw [div_le_div_iff₀ (by positivity) (by norm_num)]
      have := z.hM
      nlinarith
    linarith [z.hu, show (11 : ℝ) * 2 ^ 45 / 2 ^ 52 ≤ 1 / 9 by norm_num]

/-- The point of a slice. -/
theorem point_error {t0 s1 s2 s3 : ℝ} (h0 : a ≤ t0) (h1 : t0 < b) (hs1 : |s1 - (t0 - d)| ≤ |t0 - d| / 2 ^ 53)
    (hs2 : |s2 - (t0 + s1)| ≤ |t0 + s1| / 2 ^ 53) (hs3 : |s3 - s2 / 2| ≤ |s2 / 2| / 2 ^ 53 + M / 2 ^ 53) :
    |s3 - t0| ≤ 7 / 8 * h ∧ s3 ∈ Set.Icc (a - h) b ∧ |t0 - d| ≤ 2 * M ∧ |t0 + s1| ≤ 4 * M ∧ |s2 / 2| ≤ 4 * M := by
  have ea := abs_le.1 z.ha
  have eb := abs_le.1 z.hb
  have hh := z.h_pos
  have hD := z.D_pos
  have dd := z.d_bounds
  have hM := z.M_ge
  have hM2 := z.M_le
  have hl := z.h_le
  have e0 : |t0| ≤ M := by rw [abs_le]; constructor <;> linarith
  have e1 : |t0 - d| ≤ 2 * M := by
    refine (abs_sub _ _).trans ?_
    rw [abs_of_nonneg (a := d) (by linarith)]
    linarith
  have e2 : |s1| ≤ 2 * M + 2 * M / 2 ^ 53 := by
    calc |s1| = |(s1 - (t0 - d)) + (t0 - d)| := by ring_nf
      _ ≤ _ := abs_add_le _ _
      _ ≤ _ := by linarith
  have e3 : |t0 + s1| ≤ 4 * M := (abs_add_le _ _).trans (by linarith)
  have e4 : |s2| ≤ 5 * M := by
    calc |s2| = |(s2 - (t0 + s1)) + (t0 + s1)| := by ring_nf
      _ ≤ _ := abs_add_le _ _
      _ ≤ _ := by linarith
  have e5 : |s2 / 2| ≤ 4 * M := by rw [abs_div, abs_two]; linarith
  have r1 := abs_le.1 hs1
  have r2 := abs_le.1 hs2
  have r3 := abs_le.1 hs3
  refine ⟨?_, ⟨?_, ?_⟩, e1, e3, e5⟩
  · rw [abs_le]; constructor <;> linarith
  · linarith
  · linarith

/-- The integral. -/
theorem integral_error {f : ℝ → ℝ} {m y S : Nat → ℝ} {K : Nat} {L B ε r : ℝ} (ht0 : t 0 = a)
    (hlow : ∀ i < K + 1, a ≤ t i) (hlt : ∀ i < K + 1, t i < b) (hend : b ≤ t (K + 1))
    (hstep : ∀ i < K + 1, |t (i + 1) - (t i + d)| ≤ |t i + d| / 2 ^ 53) (hm : ∀ i < K + 1, |m i - t i| ≤ 7 / 8 * h)
    (hL : ∀ s ∈ Set.Icc (a - h) (b + 2 * h), ∀ t ∈ Set.Icc (a - h) (b + 2 * h), |f s - f t| ≤ L * |s - t|)
    (hB : ∀ s ∈ Set.Icc (a - h) (b + 2 * h), |f s| ≤ B)
    (hy : ∀ i < K + 1, |y i - f (m i)| ≤ ε) (h0 : S 0 = y 0)
    (hS : ∀ i < K, |S (i + 1) - (S i + y (i + 1))| ≤ |S i + y (i + 1)| / 2 ^ 53)
    (hr : |r - S K * d| ≤ |S K * d| / 2 ^ 53 + 1 / 2 ^ 1074) :
    |r - ∫ s in a..b, f s| ≤ D * (5 / 2 * L * D / N + 9 / 8 * B / N + 4 / 3 * ε) + (B + ε) * (6 * u * D + 20 * M * N / 2 ^ 52) + 1 / 2 ^ 1074 := by
  have hh := z.h_pos
  have hD := z.D_pos
  have dd := z.d_bounds
  have hM := z.M_ge
  have hl := z.h_le
  have hNe := z.hN_eq
  have hN0 : 0 < N := by linarith [z.hN]
  obtain ⟨g1, g2⟩ := slices_error (K := K + 1) (η := 2 * u + 11 * (M * N) / (D * 2 ^ 52)) hh
    (z.step_error (hlow 0 (by omega)) (hlt 0 (by omega)) (hstep 0 (by omega))).2.1 ht0
    (fun i hi => (z.step_error (hlow i hi) (hlt i hi) (hstep i hi)).1) hlt hend z.hab hm hL hB
  rw [← z.hD] at g1 g2
  have hB0 : 0 ≤ B := (abs_nonneg _).trans (hB a ⟨by linarith, by linarith [z.hab]⟩)
  have hε0 : 0 ≤ ε := (abs_nonneg _).trans (hy 0 (by omega))
  have hL0 : 0 ≤ L := by
    have h1 := hL a ⟨by linarith, by linarith [z.hab]⟩ b ⟨by linarith [z.hab], by linarith⟩
    have h2 : 0 < |a - b| := abs_pos.2 (by linarith [z.hab])
    by_contra hneg
    have := mul_neg_of_neg_of_pos (not_le.1 hneg) h2
    linarith [abs_nonneg (f a - f b)]
  have hM0 : 0 < M := by linarith
  have hsub : ∀ i < K + 1, m i ∈ Set.Icc (a - h) (b + 2 * h) := by
    intro i hi
    have h1 := abs_le.1 (hm i hi)
    have h2 := hlow i hi
    have h3 := hlt i hi
    constructor <;> linarith
  have hN46 : N ≤ 2 ^ 46 := by
    have h1 : M * N ≤ M * 2 ^ 46 := by linarith [z.hM]
    exact le_of_mul_le_mul_left h1 hM0
  have hκ0 : (0 : ℝ) ≤ (K : ℝ) + 1 := by positivity
  push_cast at g1 g2
  have hhκ : h * ((K : ℝ) + 1) ≤ 4 / 3 * D := by linarith
  have hκN : (K : ℝ) + 1 ≤ 4 / 3 * N := by
    rw [← hNe] at hhκ
    exact le_of_mul_le_mul_left (by linarith) hh
  obtain ⟨s1, s2⟩ := sum_error (S := S) (y := y) (K := K) (Y := B + ε) (by
    intro i hi
    calc |y i| = |(y i - f (m i)) + f (m i)| := by ring_nf
      _ ≤ _ := abs_add_le _ _
      _ ≤ _ := by linarith [hy i (by omega), hB _ (hsub i (by omega))]) h0 hS (by linarith) K le_rfl
  generalize hY : B + ε = Y at *
  have hY0 : 0 ≤ Y := by linarith
  have hBY : B ≤ Y := by linarith
  generalize hKdef : (K : ℝ) + 1 = κ at *
  have hκY : h * κ * Y ≤ 4 / 3 * D * Y := mul_le_mul_of_nonneg_right hhκ hY0
  have T1 : |S K * d| ≤ 2 * (D * Y) := by
    rw [abs_mul, abs_of_nonneg (a := d) (by linarith)]
    have h1 := mul_le_mul s2 dd.2 (by linarith) (by positivity)
    have h2 : 0 ≤ D * Y := by positivity
    linarith
  have T2 : |S K| * |d - h| ≤ 5 / 3 * (D * Y) * (2 * u + 1 / 2 ^ 50) := by
    have h0 : 0 ≤ 2 * u + 1 / 2 ^ 50 := by linarith [z.hu0]
    have h1 := mul_le_mul s2 z.hd (abs_nonneg _) (by positivity)
    have h2 := mul_le_mul_of_nonneg_right hκY h0
    linarith
  have T3 : h * |S K - ∑ i ∈ Finset.range (K + 1), y i| ≤ 32 / 9 * (M * N * Y) / 2 ^ 52 := by
    have h1 := mul_le_mul_of_nonneg_left s1 hh.le
    have h2 : h * κ * κ ≤ 4 / 3 * D * (4 / 3 * N) := mul_le_mul hhκ hκN hκ0 (by positivity)
    have h3 : D * N ≤ 2 * M * N := mul_le_mul_of_nonneg_right hM hN0.le
    have h4 : h * κ * κ * Y ≤ 32 / 9 * (M * N) * Y := mul_le_mul_of_nonneg_right (by linarith) hY0
    have h5 : h * (κ ^ 2 * Y / 2 ^ 52) = h * κ * κ * Y / 2 ^ 52 := by ring
    rw [h5] at h1
    linarith
  have T4 : h * |∑ i ∈ Finset.range (K + 1), y i - ∑ i ∈ Finset.range (K + 1), f (m i)| ≤ 4 / 3 * D * ε := by
    have h1 : |∑ i ∈ Finset.range (K + 1), y i - ∑ i ∈ Finset.range (K + 1), f (m i)| ≤ ((K + 1 : Nat) : ℝ) * ε := by
      rw [← Finset.sum_sub_distrib]
      calc _ ≤ ∑ i ∈ Finset.range (K + 1), |y i - f (m i)| := Finset.abs_sum_le_sum_abs _ _
        _ ≤ ∑ i ∈ Finset.range (K + 1), ε := Finset.sum_le_sum fun i hi => hy i (Finset.mem_range.1 hi)
        _ = _ := by rw [Finset.sum_const, Finset.card_range, nsmul_eq_mul]
    push_cast at h1
    rw [hKdef] at h1
    have h2 := mul_le_mul_of_nonneg_left h1 hh.le
    have h3 := mul_le_mul_of_nonneg_right hhκ hε0
    linarith
  have T5 : 2 * L * h * (D + 9 / 8 * h) ≤ 5 / 2 * (L * (D * h)) := by
    have h1 : 0 ≤ L * h := by positivity
    have h2 : L * h * (D + 9 / 8 * h) ≤ L * h * (5 / 4 * D) := mul_le_mul_of_nonneg_left (by linarith) h1
    linarith
  have e3 : (11 * (M * N) / (D * 2 ^ 52)) * D = 11 * (M * N) / 2 ^ 52 := by field_simp
  have T6 : B * (κ * ((2 * u + 11 * (M * N) / (D * 2 ^ 52)) * h)) ≤ Y * (8 / 3 * u * D + 44 / 3 * (M * N) / 2 ^ 52) := by
    have h0 : 0 ≤ 11 * (M * N) / (D * 2 ^ 52) := by positivity
    have h1 : κ * ((2 * u + 11 * (M * N) / (D * 2 ^ 52)) * h) ≤ 4 / 3 * D * (2 * u + 11 * (M * N) / (D * 2 ^ 52)) := by
      have := mul_le_mul_of_nonneg_right hhκ (show 0 ≤ 2 * u + 11 * (M * N) / (D * 2 ^ 52) by linarith [z.hu0])
      linarith
    have h2 : 0 ≤ κ * ((2 * u + 11 * (M * N) / (D * 2 ^ 52)) * h) := by
      have := z.hu0
      positivity
    refine (mul_le_mul hBY h1 h2 hY0).trans (le_of_eq ?_)
    rw [mul_assoc, mul_add (D), mul_comm D (11 * (M * N) / (D * 2 ^ 52)), e3]
    ring
  have eT : |r - ∫ s in a..b, f s| ≤ |r - S K * d| + |S K| * |d - h| + h * |S K - ∑ i ∈ Finset.range (K + 1), y i| +
      h * |∑ i ∈ Finset.range (K + 1), y i - ∑ i ∈ Finset.range (K + 1), f (m i)| +
      |h * ∑ i ∈ Finset.range (K + 1), f (m i) - ∫ s in a..b, f s| := by
    have e : r - ∫ s in a..b, f s = (r - S K * d) + S K * (d - h) + h * (S K - ∑ i ∈ Finset.range (K + 1), y i) +
      h * (∑ i ∈ Finset.range (K + 1), y i - ∑ i ∈ Finset.range (K + 1), f (m i)) +
      (h * ∑ i ∈ Finset.range (K + 1), f (m i) - ∫ s in a..b, f s) := by ring
    rw [e]
    have hm1 : ∀ v : ℝ, h * |v| = |h * v| := fun v => by rw [abs_mul, abs_of_pos hh]
    rw [hm1, hm1, ← abs_mul]
    exact (abs_add_le _ _).trans (add_le_add ((abs_add_le _ _).trans (add_le_add (abs_add_three _ _ _) le_rfl)) le_rfl)
  have e5 : D * (5 / 2 * L * D / N + 9 / 8 * B / N + 4 / 3 * ε) = 5 / 2 * (L * (D * h)) + 9 / 8 * (B * h) + 4 / 3 * D * ε := by
    rw [z.hh]; ring
  rw [e5]
  have hDM : D * Y ≤ M * N * Y / 5 := by
    have h1 : D ≤ M * N / 5 := by
      have : M * 10 ≤ M * N := mul_le_mul_of_nonneg_left z.hN hM0.le
      linarith
    have := mul_le_mul_of_nonneg_right h1 hY0
    linarith
  have hMNY : 0 ≤ M * N * Y := by positivity
  have hUY : 0 ≤ u * D * Y := by have := z.hu0; positivity
  generalize (1 : ℝ) / 2 ^ 1074 = tiny at *
  generalize |r - ∫ s in a..b, f s| = goal at *
  generalize |h * ∑ i ∈ Finset.range (K + 1), f (m i) - ∫ s in a..b, f s| = x1 at *
  generalize h * |∑ i ∈ Finset.range (K + 1), y i - ∑ i ∈ Finset.range (K + 1), f (m i)| = x2 at *
  generalize h * |S K - ∑ i ∈ Finset.range (K + 1), y i| = x3 at *
  generalize |S K| * |d - h| = x4 at *
  have T7 : goal ≤ (2 * (D * Y) / 2 ^ 53 + tiny) + 5 / 3 * (D * Y) * (2 * u + 1 / 2 ^ 50) + 32 / 9 * (M * N * Y) / 2 ^ 52 + 4 / 3 * D * ε +
      (5 / 2 * (L * (D * h)) + Y * (8 / 3 * u * D + 44 / 3 * (M * N) / 2 ^ 52) + B * (9 / 8 * h)) := by
    have : |S K * d| / 2 ^ 53 ≤ 2 * (D * Y) / 2 ^ 53 := by gcongr
    linarith only [eT, hr, this, T2, T3, T4, T5, T6, g1]
  refine T7.trans ?_
  have e6 : 5 / 3 * (D * Y) * (2 * u + 1 / 2 ^ 50) = 10 / 3 * (u * D * Y) + 20 / 3 * (D * Y) / 2 ^ 52 := by ring
  have e7 : Y * (8 / 3 * u * D + 44 / 3 * (M * N) / 2 ^ 52) = 8 / 3 * (u * D * Y) + 44 / 3 * (M * N * Y) / 2 ^ 52 := by ring
  have e8 : Y * (6 * u * D + 20 * M * N / 2 ^ 52) = 6 * (u * D * Y) + 20 * (M * N * Y) / 2 ^ 52 := by ring
  rw [e6, e7, e8]
  generalize M * N * Y = p1 at *
  generalize D * Y = p2 at *
  generalize u * D * Y = p3 at *
  linarith only [hDM, hMNY, hUY]

end Sizes
end MUL
