import Verif.Num.Libm
/-!
# Powers of ten in binary64

`Tens F` says that `10f64.powi(n)` is exact for `0 ≤ n ≤ 22` and that `(-1f64).powi(n)` is `1` or `-1`. All these powers are binary64
numbers, so every order of multiplications gives them; `Double`, with the loop of compiler-rt, is an instance.
-/

namespace MUL
open Spec FArith

class Tens (F : Type) [FArith F] [Binary64 F] : Prop where
  tens : ∀ n : Nat, n ≤ 22 → Binary64.val (powi (ofInt 10 : F) (n : Int)) = some (10 ^ n)
  signs : ∀ n : Nat, n < 2 ^ 31 → Binary64.val (powi (ofInt (-1) : F) (n : Int)) = some ((-1) ^ n)

theorem rnd_sign {a : Ext ℚ} {x : ℚ} (h : a.value = some x) (hx : x = 1 ∨ x = -1) : (F64.rnd a).ext.value = some x := by
  have hr : Representable x := by
    rcases hx with rfl | rfl
    · simpa using representable_int (n := 1) (by norm_num)
    · simpa using representable_int (n := -1) (by norm_num)
  rw [Binary64.val_rnd h (rep_lt_limit hr), F64.fl_representable hr]

theorem powiLoop_sign (fuel : Nat) (a r : Ext ℚ) (x y : ℚ) (ha : a.value = some x) (hr : r.value = some y) (hx : x = 1 ∨ x = -1)
    (hy : y = 1 ∨ y = -1) (n : Nat) (hn : n < 2 ^ fuel) : (F64.powiLoop fuel a r n).value = some (y * x ^ n) := by
  induction fuel generalizing a r x y n with
  | zero =>
    obtain rfl : n = 0 := by omega
    rw [pow_zero, mul_one]
    exact hr
  | succ k ih =>
    unfold F64.powiLoop
    simp only
    have hxx : x * x = 1 := by rcases hx with rfl | rfl <;> norm_num
    have hsq : (F64.rnd (Ext.mul a a)).ext.value = some (x * x) :=
      rnd_sign (Exact.val_mul (F := Ext ℚ) ha ha) (.inl hxx)
    have hyx : y * x = 1 ∨ y * x = -1 := by rcases hx with rfl | rfl <;> rcases hy with rfl | rfl <;> norm_num
    have hmul : (F64.rnd (Ext.mul r a)).ext.value = some (y * x) := rnd_sign (Exact.val_mul (F := Ext ℚ) hr ha) hyx
    have hn' : n = 2 * (n / 2) + n % 2 := by omega
    by_cases h2 : n % 2 = 1
    · rw [if_pos h2]
      have e : y * x ^ n = y * x * (x * x) ^ (n / 2) := by
        conv_lhs => rw [hn', h2, pow_add, pow_mul]
        rw [pow_two]; ring
      rw [e]
      split
      · rename_i h0
        rw [h0, pow_zero, mul_one]
        exact hmul
      · exact ih _ _ _ _ hsq hmul (.inl hxx) hyx _ (by rw [pow_succ] at hn; omega)
    · rw [if_neg h2]
      have e : y * x ^ n = y * (x * x) ^ (n / 2) := by
        conv_lhs => rw [hn', show n % 2 = 0 by omega, add_zero, pow_mul]
        rw [pow_two]
      rw [e]
      split
      · rename_i h0
        rw [h0, pow_zero, mul_one]
        exact hr
      · exact ih _ _ _ _ hsq hr (.inl hxx) hy _ (by rw [pow_succ] at hn; omega)

instance : Tens Double where
  tens n hn := by
    have h := Double.slices_check n (by omega)
    unfold Double.slicesCheck at h
    have h2 := of_decide_eq_true h
    show (F64.powi (F64.rnd (.fin ((10 : Int) : ℚ))) (n : Int)).ext.value = _
    rw [show (((10 : Int) : ℚ)) = 10 by norm_num, h2]
    rfl
  signs n hn := by
    show (F64.powi (F64.rnd (.fin ((-1 : Int) : ℚ))) (n : Int)).ext.value = _
    unfold F64.powi
    rw [if_neg (by omega)]
    have h := powiLoop_sign 40 (F64.rnd (.fin ((-1 : Int) : ℚ))).ext (.fin 1) (-1) 1
      (rnd_sign (a := .fin ((-1 : Int) : ℚ)) (by norm_num [Ext.value]) (.inr rfl)) rfl (.inr rfl) (.inl rfl) n (by omega)
    rw [one_mul] at h
    exact h

/-- Rounding is monotone. -/
theorem fl_mono {x y : ℚ} (h : x ≤ y) (hx : |x| < Binary64.limit) (hy : |y| < Binary64.limit) : F64.fl x ≤ F64.fl y := by
  by_contra hc
  rw [not_le] at hc
  have rx := F64.representable_fl (F64.fl_no_overflow hx)
  have ry := F64.representable_fl (F64.fl_no_overflow hy)
  have h1 := F64.fl_nearest x _ ry
  have h2 := F64.fl_nearest y _ rx
  have h3 : x = y := by
    rcases abs_cases (F64.fl x - x) with ⟨a1, a2⟩ | ⟨a1, a2⟩ <;> rcases abs_cases (F64.fl y - x) with ⟨b1, b2⟩ | ⟨b1, b2⟩ <;>
    rcases abs_cases (F64.fl x - y) with ⟨c1, c2⟩ | ⟨c1, c2⟩ <;> rcases abs_cases (F64.fl y - y) with ⟨d1, d2⟩ | ⟨d1, d2⟩ <;>
    linarith
  rw [h3] at hc
  exact lt_irrefl _ hc

theorem roundEven_ge {z : ℚ} {n : Int} (h : (n : ℚ) ≤ z) : n ≤ F64.roundEven z := by
  have h1 := abs_le.1 (F64.roundEven_error z)
  have h2 : (n : ℚ) - 1 < F64.roundEven z := by linarith [h1.1]
  have h3 : n - 1 < F64.roundEven z := by exact_mod_cast h2
  omega

theorem roundEven_le {z : ℚ} {n : Int} (h : z ≤ n) : F64.roundEven z ≤ n := by
  have h1 := abs_le.1 (F64.roundEven_error z)
  have h2 : (F64.roundEven z : ℚ) < n + 1 := by linarith [h1.2]
  have h3 : F64.roundEven z < n + 1 := by exact_mod_cast h2
  omega

theorem roundEven_neg (z : ℚ) : F64.roundEven (-z) = -F64.roundEven z := by
  have h1 : (z.floor : ℚ) ≤ z := Int.floor_le z
  have h2 : z < z.floor + 1 := Int.lt_floor_add_one z
  rcases h1.lt_or_eq with h3 | h3
  · have hf : (-z).floor = -z.floor - 1 := by
      show ⌊-z⌋ = _
      rw [Int.floor_eq_iff]
      push_cast
      constructor <;> linarith
    unfold F64.roundEven
    simp only [hf]
    push_cast
    split_ifs <;> first
      | omega
      | (exfalso; linarith)
  · rw [← h3]
    have := F64.roundEven_int (-z.floor)
    push_cast at this
    rw [this, F64.roundEven_int]

theorem fl_neg (x : ℚ) : F64.fl (-x) = -F64.fl x := by
  have h : F64.lastBit (-x) = F64.lastBit x := by
    unfold F64.lastBit F64.ilog2
    simp
  by_cases hx : x = 0
  · simp [hx, F64.fl_zero]
  · rw [F64.fl_of_ne hx, F64.fl_of_ne (neg_ne_zero.2 hx), h, neg_div, roundEven_neg]
    push_cast
    ring

/-- From the threshold on there is overflow. -/
theorem fl_overflow {x : ℚ} (h : Binary64.limit ≤ |x|) : 2 ^ 1024 ≤ |F64.fl x| := by
  have e971 : F64.pow2 971 = 2 ^ 971 := F64.pow2_natCast 971
  have e1023 : F64.pow2 1023 = 2 ^ 1023 := F64.pow2_natCast 1023
  have e1024 : F64.pow2 1024 = 2 ^ 1024 := F64.pow2_natCast 1024
  have s1 : (2 : ℚ) ^ 971 = 2 * 2 ^ 970 := pow_succ' 2 970
  have s2 : (2 : ℚ) ^ 1024 = 2 * 2 ^ 1023 := pow_succ' 2 1023
  have s3 : (2 : ℚ) ^ 1024 = 2 ^ 53 * 2 ^ 971 := pow_add 2 53 971
  have s4 : (2 : ℚ) ^ 970 ≤ 2 ^ 1023 := pow_le_pow_right₀ (by norm_num) (by norm_num)
  have p970 : (0 : ℚ) < 2 ^ 970 := by positivity
  have p1023 : (0 : ℚ) < 2 ^ 1023 := by positivity
  unfold Binary64.limit at h
  rw [← e1024] at h s2 s3 ⊢
  rw [← e971] at s1 s3
  rw [← e1023] at s2 s4 p1023
  clear e971 e1023 e1024
  generalize (2 : ℚ) ^ 970 = t at *
  have hx : x ≠ 0 := by
    rintro rfl
    rw [abs_zero] at h
    linarith
  have hlog : 1023 ≤ F64.ilog2 x := F64.le_ilog2 hx (by linarith)
  have hbit : F64.lastBit x = F64.ilog2 x - 52 := by rcases F64.lastBit_cases (x := x) with h | h <;> omega
  have hp := F64.pow2_pos (F64.lastBit x)
  rw [F64.fl_of_ne hx, abs_mul, abs_of_pos hp]
  rcases hlog.lt_or_eq with hl | hl
  · -- beyond the range
    have h1 := (F64.ilog2_spec hx).1
    have h2 : F64.pow2 (F64.ilog2 x) = 2 ^ 52 * F64.pow2 (F64.lastBit x) := by
      rw [hbit, ← F64.pow2_natCast, ← F64.pow2_add]; exact congrArg F64.pow2 (by push_cast; omega)
    have hl' : 1024 ≤ F64.ilog2 x := hl
    have h3 : F64.pow2 1024 ≤ F64.pow2 (F64.ilog2 x) := F64.pow2_mono hl'
    have h4 : (2 ^ 52 : ℚ) ≤ |((F64.roundEven (x / F64.pow2 (F64.lastBit x)) : Int) : ℚ)| := by
      rcases le_or_gt 0 x with h0 | h0
      · rw [abs_of_nonneg h0, h2] at h1
        have := roundEven_ge (z := x / F64.pow2 (F64.lastBit x)) (n := 2 ^ 52) (by push_cast; rwa [le_div_iff₀ hp])
        refine le_trans ?_ (le_abs_self _)
        exact_mod_cast this
      · rw [abs_of_neg h0, h2] at h1
        have := roundEven_le (z := x / F64.pow2 (F64.lastBit x)) (n := -2 ^ 52) (by
          push_cast; rw [div_le_iff₀ hp]; linarith)
        refine le_trans ?_ (neg_le_abs _)
        have h5 : (F64.roundEven (x / F64.pow2 (F64.lastBit x)) : ℚ) ≤ -2 ^ 52 := by exact_mod_cast this
        linarith
    have h5 := mul_le_mul_of_nonneg_right h4 hp.le
    linarith
  · have hb : F64.lastBit x = 971 := by omega
    rw [hb] at hp ⊢
    rw [s3]
    refine mul_le_mul_of_nonneg_right ?_ hp.le
    rcases le_or_gt 0 x with h0 | h0
    · rw [abs_of_nonneg h0] at h
      have h6 : (2 : ℚ) ^ 53 - 1 / 2 ≤ x / F64.pow2 971 := by rw [le_div_iff₀ hp]; linarith
      have h7 : (2 ^ 53 : Int) ≤ F64.roundEven (x / F64.pow2 971) := by
        generalize x / F64.pow2 971 = z at h6
        have f1 : (2 ^ 53 - 1 : Int) ≤ z.floor := by
          have h1 : z < z.floor + 1 := Int.lt_floor_add_one z
          have h2 : (2 ^ 53 - 2 : ℚ) < z.floor := by linarith
          have h3 : (2 ^ 53 - 2 : Int) < z.floor := by exact_mod_cast h2
          omega
        rcases f1.lt_or_eq with f2 | f2
        · refine roundEven_ge ?_
          have h1 : (z.floor : ℚ) ≤ z := Int.floor_le z
          have h2 : ((2 ^ 53 : Int) : ℚ) ≤ z.floor := by
            have : (2 ^ 53 : Int) ≤ z.floor := by omega
            exact_mod_cast this
          linarith
        · unfold F64.roundEven
          simp only [← f2]
          have : ¬ (z - ((2 ^ 53 - 1 : Int) : ℚ) < 1 / 2) := by push_cast; linarith
          rw [if_neg this]
          split
          · norm_num
          · norm_num
      refine le_trans ?_ (le_abs_self _)
      exact_mod_cast h7
    · rw [abs_of_neg h0] at h
      have h6 : x / F64.pow2 971 ≤ -(2 : ℚ) ^ 53 + 1 / 2 := by rw [div_le_iff₀ hp]; linarith
      have h7 : F64.roundEven (x / F64.pow2 971) ≤ (-2 ^ 53 : Int) := by
        generalize x / F64.pow2 971 = z at h6
        have f1 : z.floor ≤ (-2 ^ 53 : Int) := by
          have h1 : (z.floor : ℚ) ≤ z := Int.floor_le z
          have h2 : (z.floor : ℚ) < -2 ^ 53 + 1 := by linarith
          have h3 : z.floor < -2 ^ 53 + 1 := by exact_mod_cast h2
          omega
        rcases f1.lt_or_eq with f2 | f2
        · refine roundEven_le ?_
          have h1 : z < z.floor + 1 := Int.lt_floor_add_one z
          have h2 : (z.floor : ℚ) + 1 ≤ ((-2 ^ 53 : Int) : ℚ) := by exact_mod_cast f2
          linarith
        · unfold F64.roundEven
          simp only [f2]
          have : ¬ (1 / 2 < z - ((-2 ^ 53 : Int) : ℚ)) := by push_cast; linarith
          rw [if_neg this]
          split
          · norm_num
          · norm_num
      refine le_trans ?_ (neg_le_abs _)
      have h8 : (F64.roundEven (x / F64.pow2 971) : ℚ) ≤ -2 ^ 53 := by exact_mod_cast h7
      linarith

end MUL
