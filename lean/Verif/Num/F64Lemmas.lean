import Verif.Num.F64
import Verif.Spec.Binary64
import Mathlib.Tactic.Linarith
import Mathlib.Tactic.NormNum
import Mathlib.Tactic.Positivity
/-!
# Rounding in the model of binary64
-/

namespace MUL
open Spec
namespace F64

theorem pow2_eq (e : Int) : pow2 e = (2 : ℚ) ^ e := by
  unfold pow2
  split
  · rename_i h
    obtain ⟨n, rfl⟩ := Int.eq_ofNat_of_zero_le h
    simp
  · rename_i h
    obtain ⟨n, hn⟩ := Int.eq_ofNat_of_zero_le (a := -e) (by omega)
    obtain rfl : e = -(n : Int) := by omega
    rw [Rat.mkRat_eq_div]
    simp

theorem pow2_pos (e : Int) : (0 : ℚ) < pow2 e := by rw [pow2_eq]; exact zpow_pos (by norm_num) _

theorem pow2_succ (e : Int) : pow2 (e + 1) = 2 * pow2 e := by
  rw [pow2_eq, pow2_eq, zpow_add₀ (by norm_num)]; ring

theorem pow2_add (a b : Int) : pow2 (a + b) = pow2 a * pow2 b := by
  rw [pow2_eq, pow2_eq, pow2_eq, zpow_add₀ (by norm_num)]

theorem pow2_natCast (n : Nat) : pow2 n = (2 : ℚ) ^ n := by rw [pow2_eq, zpow_natCast]

theorem pow2_mono {a b : Int} (h : a ≤ b) : pow2 a ≤ pow2 b := by
  rw [pow2_eq, pow2_eq]; exact zpow_le_zpow_right₀ (by norm_num) h

theorem pow2_lt {a b : Int} : pow2 a < pow2 b ↔ a < b := by
  rw [pow2_eq, pow2_eq]; exact zpow_lt_zpow_iff_right₀ (by norm_num)

theorem ilog2_spec {x : ℚ} (hx : x ≠ 0) : pow2 (ilog2 x) ≤ |x| ∧ |x| < pow2 (ilog2 x + 1) := by
  have hn : x.num.natAbs ≠ 0 := by simpa using hx
  have hd : x.den ≠ 0 := x.den_nz
  have h1 : (2 : ℚ) ^ Nat.log2 x.num.natAbs ≤ x.num.natAbs := by exact_mod_cast Nat.log2_self_le hn
  have h2 : (x.num.natAbs : ℚ) < 2 ^ (Nat.log2 x.num.natAbs + 1) := by exact_mod_cast Nat.lt_log2_self
  have h3 : (2 : ℚ) ^ Nat.log2 x.den ≤ x.den := by exact_mod_cast Nat.log2_self_le hd
  have h4 : (x.den : ℚ) < 2 ^ (Nat.log2 x.den + 1) := by exact_mod_cast Nat.lt_log2_self
  have habs : |x| = (x.num.natAbs : ℚ) / x.den := by
    conv_lhs => rw [← Rat.num_div_den x]
    rw [abs_div, Nat.abs_cast, Nat.cast_natAbs, Int.cast_abs]
  have hdpos : (0 : ℚ) < x.den := by exact_mod_cast Nat.pos_of_ne_zero hd
  set e : Int := (Nat.log2 x.num.natAbs : Int) - Nat.log2 x.den with he
  have hsplit : pow2 e = 2 ^ Nat.log2 x.num.natAbs / 2 ^ Nat.log2 x.den := by
    rw [pow2_eq, he, zpow_sub₀ (by norm_num), zpow_natCast, zpow_natCast]
  have hlo : pow2 (e - 1) < |x| := by
    have : pow2 (e - 1) = 2 ^ Nat.log2 x.num.natAbs / 2 ^ (Nat.log2 x.den + 1) := by
      have := pow2_succ (e - 1)
      rw [sub_add_cancel, hsplit] at this
      rw [pow_succ, ← div_div, this]
      ring
    rw [this, habs, div_lt_div_iff₀ (by positivity) hdpos]
    have hp : (0 : ℚ) < 2 ^ Nat.log2 x.num.natAbs := by positivity
    nlinarith
  have hhi : |x| < pow2 (e + 1) := by
    rw [pow2_succ, hsplit, habs, ← mul_div_assoc, div_lt_div_iff₀ hdpos (by positivity)]
    have : (x.num.natAbs : ℚ) * 2 ^ Nat.log2 x.den ≤ x.num.natAbs * x.den := by gcongr
    calc (x.num.natAbs : ℚ) * 2 ^ Nat.log2 x.den ≤ x.num.natAbs * x.den := this
      _ < 2 ^ (Nat.log2 x.num.natAbs + 1) * x.den := by gcongr
      _ = _ := by ring
  unfold ilog2
  simp only
  rw [← he]
  split
  · rename_i h
    rw [if_neg (not_le.2 hhi)]
    exact ⟨h, hhi⟩
  · rename_i h
    refine ⟨hlo.le, ?_⟩
    rw [sub_add_cancel]
    exact not_le.1 h

theorem roundEven_error (x : ℚ) : |(roundEven x : ℚ) - x| ≤ 1 / 2 := by
  have h1 : (x.floor : ℚ) ≤ x := Int.floor_le x
  have h2 : x < x.floor + 1 := Int.lt_floor_add_one x
  unfold roundEven
  simp only
  rw [abs_le]
  split
  · constructor <;> linarith
  · split
    · push_cast; constructor <;> linarith
    · split
      · constructor <;> linarith
      · push_cast; constructor <;> linarith

theorem roundEven_int (n : Int) : roundEven (n : ℚ) = n := by
  have := roundEven_error (n : ℚ)
  have h : |((roundEven n - n : Int) : ℚ)| < 1 := by
    push_cast; linarith
  have : |(roundEven n - n : Int)| < 1 := by exact_mod_cast h
  have := Int.abs_lt_one_iff.1 this
  omega

theorem roundEven_nearest (x : ℚ) (n : Int) : |(roundEven x : ℚ) - x| ≤ |n - x| := by
  by_contra h
  rw [not_le] at h
  have h1 := roundEven_error x
  have h2 : |((roundEven x - n : Int) : ℚ)| < 1 := by
    push_cast
    calc |(roundEven x : ℚ) - n| = |((roundEven x : ℚ) - x) - (n - x)| := by ring_nf
      _ ≤ |(roundEven x : ℚ) - x| + |n - x| := abs_sub _ _
      _ < 1 := by linarith
  have h3 : |(roundEven x - n : Int)| < 1 := by exact_mod_cast h2
  have := Int.abs_lt_one_iff.1 h3
  obtain rfl : n = roundEven x := by omega
  exact lt_irrefl _ h

/-- The exponent of the last bit. -/
def lastBit (x : ℚ) : Int := max (ilog2 x - 52) (-1074)

/-- The value of the nearest binary64 number if there is no overflow. -/
def fl (x : ℚ) : ℚ := if x = 0 then 0 else roundEven (x / pow2 (lastBit x)) * pow2 (lastBit x)

theorem roundQ_value {x : ℚ} (h : |fl x| < 2 ^ 1024) : (roundQ x).value = some (fl x) := by
  unfold roundQ
  unfold fl lastBit at *
  by_cases hx : x = 0
  · simp [hx, Ext.value]
  · simp only [hx, ↓reduceIte] at h ⊢
    split
    · rename_i hr
      rw [hr]
      split <;> rfl
    · rw [if_neg]
      · rfl
      · rw [not_le]
        exact_mod_cast h

theorem fl_zero : fl 0 = 0 := if_pos rfl

theorem fl_of_ne {x : ℚ} (hx : x ≠ 0) : fl x = roundEven (x / pow2 (lastBit x)) * pow2 (lastBit x) := if_neg hx

theorem fl_error_bit (x : ℚ) : |fl x - x| ≤ pow2 (lastBit x) / 2 := by
  by_cases hx : x = 0
  · rw [hx, fl_zero, sub_self, abs_zero]
    exact (div_pos (pow2_pos _) (by norm_num)).le
  rw [fl_of_ne hx]
  have hp := pow2_pos (lastBit x)
  have h := roundEven_error (x / pow2 (lastBit x))
  have : (roundEven (x / pow2 (lastBit x)) : ℚ) * pow2 (lastBit x) - x
      = (roundEven (x / pow2 (lastBit x)) - x / pow2 (lastBit x)) * pow2 (lastBit x) := by field_simp
  rw [this, abs_mul, abs_of_pos hp]
  calc _ ≤ 1 / 2 * pow2 (lastBit x) := by gcongr
    _ = _ := by ring

theorem lastBit_cases {x : ℚ} : (lastBit x = -1074 ∧ ilog2 x - 52 ≤ -1074) ∨ (lastBit x = ilog2 x - 52 ∧ -1074 < ilog2 x - 52) := by
  unfold lastBit
  omega

theorem bit_le {x : ℚ} (hx : x ≠ 0) (h : lastBit x = ilog2 x - 52) : pow2 (lastBit x) / 2 ≤ |x| / 2 ^ 53 := by
  have h1 := (ilog2_spec hx).1
  have h2 : pow2 (ilog2 x) = 2 ^ 52 * pow2 (lastBit x) := by
    rw [h, ← pow2_natCast, ← pow2_add]; congr 1; omega
  rw [h2] at h1
  rw [le_div_iff₀ (by positivity)]
  calc pow2 (lastBit x) / 2 * 2 ^ 53 = 2 ^ 52 * pow2 (lastBit x) := by ring
    _ ≤ _ := h1

/-- The rounding error. -/
theorem fl_error (x : ℚ) : |fl x - x| ≤ max (|x| / 2 ^ 53) (1 / 2 ^ 1075) := by
  by_cases hx : x = 0
  · rw [hx, fl_zero, sub_self, abs_zero]; positivity
  refine (fl_error_bit x).trans ?_
  rcases lastBit_cases (x := x) with ⟨h, _⟩ | ⟨h, _⟩
  · refine le_max_of_le_right ?_
    rw [h, pow2_eq, show (-1074 : Int) = -((1074 : Nat) : Int) by rfl, zpow_neg, zpow_natCast, div_eq_mul_inv, ← mul_inv, one_div,
      show (2 : ℚ) ^ 1075 = 2 ^ 1074 * 2 from pow_succ _ _]
  · exact le_max_of_le_left (bit_le hx h)

theorem fl_of_multiple {x : ℚ} (n : Int) (h : x = n * pow2 (lastBit x)) : fl x = x := by
  by_cases hx : x = 0
  · rw [hx, fl_zero]
  rw [fl_of_ne hx]
  have hp := (pow2_pos (lastBit x)).ne'
  have : x / pow2 (lastBit x) = n := by rw [div_eq_iff hp]; exact h
  rw [this, roundEven_int]
  exact h.symm

/-- No underflow for multiples of the smallest number. -/
theorem fl_error_multiple {x : ℚ} (n : Int) (h : x = n * pow2 (-1074)) : |fl x - x| ≤ |x| / 2 ^ 53 := by
  by_cases hx : x = 0
  · rw [hx, fl_zero, sub_self, abs_zero, zero_div]
  rcases lastBit_cases (x := x) with ⟨h1, _⟩ | ⟨h1, _⟩
  · rw [fl_of_multiple n (by rw [h1]; exact h), sub_self, abs_zero]; positivity
  · exact (fl_error_bit x).trans (bit_le hx h1)

theorem representable_multiple {x : ℚ} (h : Representable x) : ∃ n : Int, x = n * pow2 (-1074) := by
  obtain ⟨m, e, _, h2, _, rfl⟩ := h
  refine ⟨m * 2 ^ (e + 1074).toNat, ?_⟩
  push_cast
  rw [← pow2_natCast, mul_assoc, ← pow2_add, Int.toNat_of_nonneg (by omega), pow2_eq]
  congr 2; omega

theorem lt_ilog2 {x : ℚ} (hx : x ≠ 0) {k : Int} (h : |x| < pow2 k) : ilog2 x < k := by
  have := (ilog2_spec hx).1.trans_lt h
  exact pow2_lt.1 this

theorem le_ilog2 {x : ℚ} (hx : x ≠ 0) {k : Int} (h : pow2 k ≤ |x|) : k ≤ ilog2 x := by
  have := h.trans_lt (ilog2_spec hx).2
  have := pow2_lt.1 this
  omega

theorem mul_pow2_lt {m : Int} {e : Int} {k : Nat} (h : |m| < 2 ^ k) : |(m : ℚ) * pow2 e| < pow2 (e + k) := by
  rw [abs_mul, abs_of_pos (pow2_pos e), add_comm e, pow2_add, pow2_natCast]
  have : |(m : ℚ)| < 2 ^ k := by exact_mod_cast h
  exact mul_lt_mul_of_pos_right this (pow2_pos e)

/-- Representable numbers are not rounded. -/
theorem fl_representable {x : ℚ} (h : Representable x) : fl x = x := by
  obtain ⟨n, hn⟩ := representable_multiple h
  by_cases hx : x = 0
  · rw [hx, fl_zero]
  rcases lastBit_cases (x := x) with ⟨h1, _⟩ | ⟨h1, _⟩
  · exact fl_of_multiple n (by rw [h1]; exact hn)
  · obtain ⟨m, e, hm, _, _, he⟩ := h
    rw [← pow2_eq] at he
    have h2 : ilog2 x < e + 53 := lt_ilog2 hx (by rw [he]; exact mul_pow2_lt hm)
    refine fl_of_multiple (m * 2 ^ (e - lastBit x).toNat) ?_
    push_cast
    rw [← pow2_natCast, mul_assoc, ← pow2_add, Int.toNat_of_nonneg (by omega), he]
    congr 2; omega

/-- Rounding does not go past the next power of two. -/
theorem fl_multiple (x : ℚ) : ∃ n : Int, fl x = n * pow2 (lastBit x) ∧ |n| ≤ 2 ^ 53 := by
  by_cases hx : x = 0
  · exact ⟨0, by simp [hx, fl_zero], by norm_num⟩
  refine ⟨roundEven (x / pow2 (lastBit x)), fl_of_ne hx, ?_⟩
  have h1 : |x| < pow2 (lastBit x + 53) := by
    refine (ilog2_spec hx).2.trans_le (pow2_mono ?_)
    rcases lastBit_cases (x := x) with h | h <;> omega
  have hp := pow2_pos (lastBit x)
  have h2 : |x / pow2 (lastBit x)| < 2 ^ 53 := by
    rw [abs_div, abs_of_pos hp, div_lt_iff₀ hp, show (2 : ℚ) ^ 53 = pow2 (53 : Nat) from (pow2_natCast 53).symm, ← pow2_add]
    rwa [add_comm] at h1
  have h3 := roundEven_error (x / pow2 (lastBit x))
  have h4 : |(roundEven (x / pow2 (lastBit x)) : ℚ)| < 2 ^ 53 + 1 := by
    calc |(roundEven (x / pow2 (lastBit x)) : ℚ)|
        = |(roundEven (x / pow2 (lastBit x)) - x / pow2 (lastBit x)) + x / pow2 (lastBit x)| := by ring_nf
      _ ≤ |(roundEven (x / pow2 (lastBit x)) - x / pow2 (lastBit x))| + |x / pow2 (lastBit x)| := abs_add_le _ _
      _ < _ := by linarith
  have h5 : |roundEven (x / pow2 (lastBit x))| < 2 ^ 53 + 1 := by exact_mod_cast h4
  omega

/-- What comes out of rounding is representable, if there is no overflow. -/
theorem representable_fl {x : ℚ} (h : |fl x| < 2 ^ 1024) : Representable (fl x) := by
  obtain ⟨n, h1, h2⟩ := fl_multiple x
  have hlow : -1074 ≤ lastBit x := by unfold lastBit; omega
  -- a number of full size can be shifted
  have key : ∀ (m e : Int), fl x = m * pow2 e → |m| < 2 ^ 53 → -1074 ≤ e → 2 ^ 52 ≤ |m| ∨ e ≤ 971 → Representable (fl x) := by
    intro m e he hm hlow hor
    rcases le_or_gt e 971 with hle | hgt
    · exact ⟨m, e, hm, hlow, hle, by rw [he, pow2_eq]⟩
    · have hm2 := hor.resolve_right (by omega)
      exfalso
      have : pow2 ((52 : Nat) + 972 : Int) ≤ |fl x| := by
        rw [he, abs_mul, abs_of_pos (pow2_pos e), pow2_add, pow2_natCast]
        have h3 : (2 : ℚ) ^ 52 ≤ |(m : ℚ)| := by exact_mod_cast hm2
        exact mul_le_mul h3 (pow2_mono (by omega)) (pow2_pos _).le (abs_nonneg _)
      have h4 : pow2 ((52 : Nat) + 972 : Int) = 2 ^ 1024 := by
        rw [show ((52 : Nat) + 972 : Int) = (1024 : Nat) by norm_num, pow2_natCast]
      rw [h4] at this
      exact absurd h (not_lt.2 this)
  by_cases hx : x = 0
  · exact ⟨0, 0, by norm_num, by norm_num, by norm_num, by simp [hx, fl_zero]⟩
  -- the significand is of full size unless the exponent is minimal
  have hbig : lastBit x ≤ 971 ∨ 2 ^ 52 ≤ |n| := by
    rcases lastBit_cases (x := x) with ⟨h3, _⟩ | ⟨h3, _⟩
    · left; omega
    · right
      have hnear := roundEven_nearest (x / pow2 (lastBit x))
      have hp := pow2_pos (lastBit x)
      have h4 : (2 : ℚ) ^ 52 ≤ |x / pow2 (lastBit x)| := by
        rw [abs_div, abs_of_pos hp, le_div_iff₀ hp, show (2 : ℚ) ^ 52 = pow2 (52 : Nat) from (pow2_natCast 52).symm, ← pow2_add]
        have := (ilog2_spec hx).1
        rwa [show ilog2 x = (52 : Nat) + lastBit x by rw [h3]; push_cast; ring] at this
      have h5 : n = roundEven (x / pow2 (lastBit x)) := by
        have := fl_of_ne hx
        rw [h1] at this
        exact_mod_cast mul_right_cancel₀ hp.ne' this
      have h6 := roundEven_error (x / pow2 (lastBit x))
      rw [← h5] at h6
      have h7 : (2 : ℚ) ^ 52 - 1 < |(n : ℚ)| := by
        have : |x / pow2 (lastBit x)| ≤ |(n : ℚ) - x / pow2 (lastBit x)| + |(n : ℚ)| := by
          calc |x / pow2 (lastBit x)| = |(n : ℚ) - ((n : ℚ) - x / pow2 (lastBit x))| := by ring_nf
            _ ≤ |(n : ℚ)| + |(n : ℚ) - x / pow2 (lastBit x)| := abs_sub _ _
            _ = _ := add_comm _ _
        linarith
      have h8 : (2 : Int) ^ 52 - 1 < |n| := by exact_mod_cast h7
      omega
  rcases h2.lt_or_eq with h3 | h3
  · exact key n _ h1 h3 hlow hbig.symm
  · -- carry into the next power of two
    rcases abs_eq (by norm_num : (0 : Int) ≤ 2 ^ 53) |>.1 h3 with h4 | h4
    · refine key (2 ^ 52) (lastBit x + 1) ?_ (by norm_num) (by omega) (.inl (by norm_num))
      rw [h1, h4, pow2_succ]; push_cast; ring
    · refine key (-2 ^ 52) (lastBit x + 1) ?_ (by norm_num) (by omega) (.inl (by norm_num))
      rw [h1, h4, pow2_succ]; push_cast; ring

/-- No overflow below the threshold of IEEE-754. -/
theorem fl_no_overflow {x : ℚ} (h : |x| < 2 ^ 1024 - 2 ^ 970) : |fl x| < 2 ^ 1024 := by
  by_cases hx : x = 0
  · rw [hx, fl_zero, abs_zero]; positivity
  have hlog : ilog2 x < 1024 := by
    refine lt_ilog2 hx ?_
    rw [show (1024 : Int) = (1024 : Nat) by rfl, pow2_natCast]
    exact h.trans_le (sub_le_self _ (by positivity))
  have hbit : lastBit x ≤ 971 := by rcases lastBit_cases (x := x) with h | h <;> omega
  have h1 := fl_error_bit x
  have h2 : pow2 (lastBit x) / 2 ≤ 2 ^ 970 := by
    have := pow2_mono hbit
    rw [show (971 : Int) = (971 : Nat) by rfl, pow2_natCast, pow_succ] at this
    linarith
  calc |fl x| = |(fl x - x) + x| := by ring_nf
    _ ≤ |fl x - x| + |x| := abs_add_le _ _
    _ < _ := by linarith

/-- Rounding goes to a nearest representable number. -/
theorem fl_nearest (x r : ℚ) (hr : Representable r) : |fl x - x| ≤ |r - x| := by
  by_cases hx : x = 0
  · rw [hx, fl_zero, sub_self, abs_zero]; exact abs_nonneg _
  have hp := pow2_pos (lastBit x)
  have near : ∀ n : Int, |fl x - x| ≤ |n * pow2 (lastBit x) - x| := by
    intro n
    have e1 : fl x - x = (roundEven (x / pow2 (lastBit x)) - x / pow2 (lastBit x)) * pow2 (lastBit x) := by
      rw [fl_of_ne hx]; field_simp
    have e2 : n * pow2 (lastBit x) - x = (n - x / pow2 (lastBit x)) * pow2 (lastBit x) := by field_simp
    rw [e1, e2, abs_mul, abs_mul]
    exact mul_le_mul_of_nonneg_right (roundEven_nearest _ _) (abs_nonneg _)
  obtain ⟨m, e, hm, he, _, hr'⟩ := hr
  rw [← pow2_eq] at hr'
  rcases le_or_gt (lastBit x) e with hle | hgt
  · have := near (m * 2 ^ (e - lastBit x).toNat)
    push_cast at this
    rw [← pow2_natCast, mul_assoc, ← pow2_add, Int.toNat_of_nonneg (by omega), sub_add_cancel, ← hr'] at this
    exact this
  · have h3 : lastBit x = ilog2 x - 52 := by rcases lastBit_cases (x := x) with h | h <;> omega
    have h4 : |r| < pow2 (ilog2 x) := by
      rw [hr']
      exact (mul_pow2_lt hm).trans_le (pow2_mono (by push_cast; omega))
    have h5 := (ilog2_spec hx).1
    have h6 : pow2 (ilog2 x) = 4503599627370496 * pow2 (lastBit x) := by
      rw [show (4503599627370496 : ℚ) = 2 ^ 52 by norm_num, h3, ← pow2_natCast, ← pow2_add]; congr 1; omega
    rcases le_or_gt 0 x with hx0 | hx0
    · rw [abs_of_nonneg hx0] at h5
      have := near (2 ^ 52)
      push_cast at this
      rw [← h6] at this
      refine this.trans ?_
      have h7 := (abs_lt.1 h4).2
      rw [abs_of_nonpos (by linarith), abs_of_nonpos (by linarith)]
      linarith
    · rw [abs_of_neg hx0] at h5
      have := near (-2 ^ 52)
      push_cast at this
      rw [neg_mul, ← h6] at this
      refine this.trans ?_
      have h7 := (abs_lt.1 h4).1
      rw [abs_of_nonneg (by linarith), abs_of_nonneg (by linarith)]
      linarith

end F64
end MUL
