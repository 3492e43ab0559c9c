import Verif.Proofs.Rounding
/-!
# The difference quotient in binary64 arithmetic
-/

set_option linter.unusedSectionVars false

namespace MUL
open Out Spec FArith

/-- Different binary64 numbers keep a distance. -/
theorem spacing {y s : ℚ} (hy : Representable y) (hs : Representable s) (hne : y ≠ s) : |s| / 2 ^ 53 ≤ |y - s| := by
  obtain ⟨m', e', hm', _, _, hy'⟩ := hy
  obtain ⟨m, e, hm, _, _, hs'⟩ := hs
  rw [← F64.pow2_eq] at hy' hs'
  have hp := F64.pow2_pos e
  have hp' := F64.pow2_pos e'
  have int_bound : ∀ (n : Int) (k : Int), y - s = n * F64.pow2 k → F64.pow2 k ≤ |y - s| := by
    intro n k h
    rw [h, abs_mul, abs_of_pos (F64.pow2_pos k)]
    have hn : n ≠ 0 := by
      rintro rfl
      apply hne
      rw [Int.cast_zero, zero_mul, sub_eq_zero] at h
      exact h
    have : (1 : ℚ) ≤ |(n : ℚ)| := by exact_mod_cast Int.one_le_abs hn
    exact le_mul_of_one_le_left (F64.pow2_pos k).le this
  rw [div_le_iff₀ (by norm_num)]
  rcases le_or_gt e e' with hle | hlt
  · have h1 := int_bound (m' * 2 ^ (e' - e).toNat - m) e (by
      rw [hy', hs']
      push_cast
      rw [← F64.pow2_natCast, sub_mul, mul_assoc, ← F64.pow2_add, Int.toNat_of_nonneg (by omega), sub_add_cancel])
    have h2 : |s| ≤ 2 ^ 53 * F64.pow2 e := by
      rw [hs', abs_mul, abs_of_pos hp]
      have : |(m : ℚ)| ≤ 2 ^ 53 := by exact_mod_cast hm.le
      exact mul_le_mul_of_nonneg_right this hp.le
    linarith
  · have h1 := int_bound (m' - m * 2 ^ (e - e').toNat) e' (by
      rw [hy', hs']
      push_cast
      rw [← F64.pow2_natCast, sub_mul, mul_assoc (m : ℚ), ← F64.pow2_add, Int.toNat_of_nonneg (by omega), sub_add_cancel])
    rcases le_or_gt |s| (2 ^ 53 * F64.pow2 e') with h2 | h2
    · linarith
    · have h3 : |y| ≤ (2 ^ 53 - 1) * F64.pow2 e' := by
        rw [hy', abs_mul, abs_of_pos hp']
        have : |m'| ≤ 2 ^ 53 - 1 := by omega
        have : |(m' : ℚ)| ≤ 2 ^ 53 - 1 := by exact_mod_cast this
        exact mul_le_mul_of_nonneg_right this hp'.le
      have h4 : |s| - |y| ≤ |y - s| := by
        rw [abs_sub_comm]
        exact abs_sub_abs_le_abs_sub s y
      linarith

/-- Small changes are rounded away. -/
theorem fl_absorb {s h : ℚ} (hs : Representable s) (h0 : 0 ≤ h) (h1 : 2 ^ 54 * h < |s|) (hlim : |s + h| < Binary64.limit) :
    F64.fl (s + h) = s := by
  by_contra hne
  have h2 := spacing (F64.representable_fl (F64.fl_no_overflow hlim)) hs hne
  have h3 := F64.fl_nearest (s + h) s hs
  have h4 : |s - (s + h)| = h := by rw [show s - (s + h) = -h by ring, abs_neg, abs_of_nonneg h0]
  have h5 : |F64.fl (s + h) - s| ≤ |F64.fl (s + h) - (s + h)| + h := by
    calc |F64.fl (s + h) - s| = |(F64.fl (s + h) - (s + h)) + h| := by ring_nf
      _ ≤ |F64.fl (s + h) - (s + h)| + |h| := abs_add_le _ _
      _ = _ := by rw [abs_of_nonneg h0]
  rw [div_le_iff₀ (by norm_num)] at h2
  linarith

/-- The error of the difference quotient: `h` is the step, `k` the distance of the two points, `N` the difference of the two function values,
`Nf` and `q` the rounded difference and quotient. -/
theorem quotient_bound {H h k a d C ε N Nf q : ℝ} (hH : 0 < H) (h1 : |h - H| ≤ H / 2 ^ 19) (hk : |k - h| ≤ (|a| + h) / 2 ^ 53)
    (ha : |a| ≤ 2 ^ 50 * H) (hN : |N - d * k| ≤ 2 * ε + C / 2 * k ^ 2) (hNf : |Nf - N| ≤ |N| / 2 ^ 53)
    (hq : |q - Nf / h| ≤ max (|Nf / h| / 2 ^ 53) (1 / 2 ^ 1075)) (hC : 0 ≤ C) (hε : 0 ≤ ε) :
    |Nf / h - d| ≤ 51 / 50 * (|d| * ((|a| / H + 3) / 2 ^ 53) + (21 / 10 * (ε / H) + 3 / 4 * (C * H))) ∧
    |N| ≤ 2 * (|d| * H) + 2 * ε + C * H ^ 2 ∧
    |q - d| ≤ 3 * (ε / H) + C * H + |d| * (|a| / H + 5) / 2 ^ 52 + 1 / 2 ^ 1074 := by
  obtain ⟨l1, l2⟩ := abs_le.1 h1
  obtain ⟨k1, k2⟩ := abs_le.1 hk
  have hd := abs_nonneg d
  have ha0 := abs_nonneg a
  have hhp : 0 < h := by linarith
  have kk : |k| ≤ 6 / 5 * H := by
    rw [abs_le]
    constructor <;> linarith
  have kpos := abs_nonneg k
  have k2 : k ^ 2 ≤ 36 / 25 * H ^ 2 := by
    rw [← sq_abs]
    nlinarith
  have hCk : C / 2 * k ^ 2 ≤ 18 / 25 * (C * H ^ 2) := by nlinarith
  have hCH : 0 ≤ C * H ^ 2 := by positivity
  have hdk : |d * k| ≤ |d| * (6 / 5 * H) := by
    rw [abs_mul]
    exact mul_le_mul_of_nonneg_left kk hd
  have hdH : 0 ≤ |d| * H := by positivity
  have hNb : |N| ≤ |d| * (6 / 5 * H) + (2 * ε + 18 / 25 * (C * H ^ 2)) := by
    calc |N| = |(N - d * k) + d * k| := by ring_nf
      _ ≤ |N - d * k| + |d * k| := abs_add_le _ _
      _ ≤ _ := by linarith
  have hT : |Nf - d * h| ≤ |d| * ((|a| + 3 * H) / 2 ^ 53) + (21 / 10 * ε + 73 / 100 * (C * H ^ 2)) := by
    have e : Nf - d * h = (Nf - N) + (N - d * k) + d * (k - h) := by ring
    have h5 : |d * (k - h)| ≤ |d| * ((|a| + 11 / 10 * H) / 2 ^ 53) := by
      rw [abs_mul]
      refine mul_le_mul_of_nonneg_left (hk.trans ?_) hd
      gcongr
      linarith
    rw [e]
    refine (abs_add_three _ _ _).trans ?_
    have h6 : |d| * ((|a| + 11 / 10 * H) / 2 ^ 53) + |d| * (6 / 5 * H) / 2 ^ 53 ≤ |d| * ((|a| + 3 * H) / 2 ^ 53) := by
      have : |d| * ((|a| + 11 / 10 * H) / 2 ^ 53) + |d| * (6 / 5 * H) / 2 ^ 53 = |d| * ((|a| + 23 / 10 * H) / 2 ^ 53) := by ring
      rw [this]
      gcongr
      norm_num
    have h7 : |N| / 2 ^ 53 ≤ |d| * (6 / 5 * H) / 2 ^ 53 + (2 * ε + 18 / 25 * (C * H ^ 2)) / 2 ^ 53 := by
      rw [← add_div]
      gcongr
    linarith
  have hQ : |Nf / h - d| ≤ 51 / 50 * (|d| * ((|a| / H + 3) / 2 ^ 53) + (21 / 10 * (ε / H) + 3 / 4 * (C * H))) := by
    have e : Nf / h - d = (Nf - d * h) / h := by field_simp
    rw [e, abs_div, abs_of_pos hhp, div_le_iff₀ hhp]
    refine hT.trans ?_
    have e2 : 51 / 50 * (|d| * ((|a| / H + 3) / 2 ^ 53) + (21 / 10 * (ε / H) + 3 / 4 * (C * H))) * h =
        (|d| * ((|a| + 3 * H) / 2 ^ 53) + (21 / 10 * ε + 3 / 4 * (C * H ^ 2))) * (51 / 50 * (h / H)) := by field_simp
    rw [e2]
    have h8 : 1 ≤ 51 / 50 * (h / H) := by
      have : 1 - 1 / 2 ^ 19 ≤ h / H := by
        rw [le_div_iff₀ hH]
        linarith
      linarith
    have h9 : 0 ≤ |d| * ((|a| + 3 * H) / 2 ^ 53) + (21 / 10 * ε + 3 / 4 * (C * H ^ 2)) := by positivity
    refine le_trans ?_ (le_mul_of_one_le_right h9 h8)
    linarith
  refine ⟨hQ, by linarith, ?_⟩
  have hA : 0 ≤ |d| * (|a| / H) := by positivity
  have hE : 0 ≤ ε / H := by positivity
  have hCC : 0 ≤ C * H := by positivity
  have e3 : |d| * ((|a| / H + 3) / 2 ^ 53) = (|d| * (|a| / H)) / 2 ^ 53 + 3 * |d| / 2 ^ 53 := by ring
  have e4 : |d| * (|a| / H + 5) / 2 ^ 52 = (|d| * (|a| / H)) / 2 ^ 52 + 5 * |d| / 2 ^ 52 := by ring
  rw [e3] at hQ
  rw [e4]
  have hNfh : |Nf / h| ≤ |d| + |Nf / h - d| := by
    calc |Nf / h| = |d + (Nf / h - d)| := by ring_nf
      _ ≤ _ := abs_add_le _ _
  have h10 : |q - d| ≤ |q - Nf / h| + |Nf / h - d| := by
    calc |q - d| = |(q - Nf / h) + (Nf / h - d)| := by ring_nf
      _ ≤ _ := abs_add_le _ _
  have h11 : max (|Nf / h| / 2 ^ 53) ((1 : ℝ) / 2 ^ 1075) ≤ |Nf / h| / 2 ^ 53 + 1 / 2 ^ 1074 := by
    have t : (1 : ℝ) / 2 ^ 1075 ≤ 1 / 2 ^ 1074 := one_div_le_one_div_of_le (by positivity) (pow_le_pow_right₀ (by norm_num) (by norm_num))
    have t2 : (0 : ℝ) ≤ 1 / 2 ^ 1074 := by positivity
    refine max_le (by linarith) ?_
    have : 0 ≤ |Nf / h| / 2 ^ 53 := by positivity
    linarith
  generalize (1 : ℝ) / 2 ^ 1074 = tiny at *
  linarith

section
variable {F : Type} [FArith F] [Binary64 F]

/-- A finite number other than zero is determined by its value. -/
theorem eq_of_val {a b : F} {q : ℚ} (ha : Binary64.val a = some q) (hb : Binary64.val b = some q) (hq : q ≠ 0) : a = b := by
  apply Binary64.bits_inj
  unfold Binary64.val at ha hb
  have key : ∀ c : F64, c.ext.value = some q → c.ext = .fin q := by
    intro c hc
    cases he : c.ext <;> rw [he] at hc <;> simp only [Ext.value, Option.some.injEq, reduceCtorEq] at hc
    · rw [hc]
    · exact absurd hc.symm hq
  have h1 := key _ ha
  have h2 := key _ hb
  cases hA : Binary64.bits a
  cases hB : Binary64.bits b
  rw [hA] at h1
  rw [hB] at h2
  simp only at h1 h2
  rw [h1, h2]

end
end MUL
