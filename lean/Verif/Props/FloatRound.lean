import Verif.Num.Tens
import Verif.Props.Grammar
/-!
# C74: rounding in binary64 arithmetic
-/

set_option linter.unusedSectionVars false

namespace MUL
open Spec FArith

section
variable {F : Type} [FArith F] [Binary64 F] [Tens F]

theorem ten_pos (p : Nat) : (0 : ℚ) < 10 ^ p := by positivity

theorem ten_bound {p : Nat} (hp : p ≤ 22) : (10 : ℚ) ^ p ≤ 10 ^ 22 := pow_le_pow_right₀ (by norm_num) hp

theorem limit_large : (2 : ℚ) ^ 1000 ≤ Binary64.limit := by
  unfold Binary64.limit
  have h1 : (2 : ℚ) ^ 1024 = 2 * 2 ^ 1023 := pow_succ' 2 1023
  have h2 : (2 : ℚ) ^ 970 ≤ 2 ^ 1023 := pow_le_pow_right₀ (by norm_num) (by norm_num)
  have h3 : (2 : ℚ) ^ 1000 ≤ 2 ^ 1023 := pow_le_pow_right₀ (by norm_num) (by norm_num)
  generalize (2 : ℚ) ^ 1024 = a at *
  generalize (2 : ℚ) ^ 1023 = b at *
  generalize (2 : ℚ) ^ 970 = c at *
  generalize (2 : ℚ) ^ 1000 = d at *
  linarith

theorem lt_limit_of_small {x : ℚ} (h : |x| ≤ 2 ^ 200) : |x| < Binary64.limit :=
  lt_of_lt_of_le (h.trans_lt (pow_lt_pow_right₀ (by norm_num) (by norm_num))) limit_large

theorem tiny_half : (1 : ℚ) / 2 ^ 1075 ≤ 1 / 2 ^ 200 :=
  one_div_le_one_div_of_le (by positivity) (pow_le_pow_right₀ (by norm_num) (by norm_num))

/-- What rounding computes. -/
theorem roundScalar_float {a : F} {x : ℚ} (ha : Binary64.val a = some x) {p : Nat} (hp : p ≤ 22) (h : |x * 10 ^ p| < Binary64.limit) :
    Binary64.val (Value.roundScalar a (p : Int)) = some (F64.fl ((roundAway (F64.fl (x * 10 ^ p)) : ℚ) / 10 ^ p)) := by
  have ht := Tens.tens (F := F) p hp
  have hm := Binary64.val_mul ha ht h
  have hr := Binary64.val_round (mul a (powi (ofInt 10 : F) (p : Int)))
  rw [hm] at hr
  refine Binary64.val_div hr ht (ten_pos p).ne' ?_
  have h1 := rep_lt_limit (representable_round (F64.representable_fl (F64.fl_no_overflow h)))
  rw [abs_div, abs_of_pos (ten_pos p)]
  refine lt_of_le_of_lt (div_le_self (abs_nonneg _) ?_) h1
  exact one_le_pow₀ (by norm_num)

theorem roundAway_eq {t : ℚ} {k : Int} (h : |t - k| < 1 / 2) : roundAway t = k := by
  have h1 := roundAwayQ_abs t
  have h2 : |((roundAway t - k : Int) : ℚ)| < 1 := by
    push_cast
    calc |(roundAway t : ℚ) - k| = |((roundAway t : ℚ) - t) + (t - k)| := by ring_nf
      _ ≤ |(roundAway t : ℚ) - t| + |t - k| := abs_add_le _ _
      _ < 1 := by linarith
  have h3 : |(roundAway t - k : Int)| < 1 := by exact_mod_cast h2
  have := Int.abs_lt_one_iff.1 h3
  omega

/-- Numbers close enough to `k / 10^p` are rounded to the binary64 number of `k / 10^p`. -/
theorem round_to {a : F} {x : ℚ} (ha : Binary64.val a = some x) {p : Nat} (hp : p ≤ 22) (k : Int)
    (h : |x * 10 ^ p - k| + (|(k : ℚ)| + 1) / 2 ^ 53 < 1 / 2) :
    Binary64.val (Value.roundScalar a (p : Int)) = some (F64.fl ((k : ℚ) / 10 ^ p)) := by
  have hk0 := abs_nonneg (k : ℚ)
  have hd0 := abs_nonneg (x * 10 ^ p - k)
  have hk : |(k : ℚ)| ≤ 2 ^ 53 := by linarith
  have ht : |x * 10 ^ p| ≤ |(k : ℚ)| + 1 / 2 := by
    calc |x * 10 ^ p| = |(x * 10 ^ p - k) + k| := by ring_nf
      _ ≤ |x * 10 ^ p - k| + |(k : ℚ)| := abs_add_le _ _
      _ ≤ _ := by
        have : (0 : ℚ) ≤ (|(k : ℚ)| + 1) / 2 ^ 53 := by positivity
        linarith
  have hs : |x * 10 ^ p| < Binary64.limit := lt_limit_of_small (by linarith)
  rw [roundScalar_float ha hp hs]
  have he := F64.fl_error (x * 10 ^ p)
  have he2 : |F64.fl (x * 10 ^ p) - x * 10 ^ p| ≤ (|(k : ℚ)| + 1) / 2 ^ 53 := by
    refine he.trans (max_le ?_ ?_)
    · gcongr; linarith
    · refine tiny_half.trans ?_
      have : (1 : ℚ) / 2 ^ 200 ≤ 1 / 2 ^ 53 := by norm_num
      refine this.trans ?_
      gcongr
      linarith
  rw [roundAway_eq (k := k) ?_]
  calc |F64.fl (x * 10 ^ p) - k| = |(F64.fl (x * 10 ^ p) - x * 10 ^ p) + (x * 10 ^ p - k)| := by ring_nf
    _ ≤ |F64.fl (x * 10 ^ p) - x * 10 ^ p| + |x * 10 ^ p - k| := abs_add_le _ _
    _ < _ := by linarith

theorem val_decimal (m : Nat) {p : Nat} (hm : (m : ℚ) ≤ 2 ^ 53) :
    Binary64.val (ofDec m (-(p : Int)) : F) = some (F64.fl ((m : ℚ) / 10 ^ p)) := by
  have e : (m : ℚ) * 10 ^ (-(p : Int)) = m / 10 ^ p := by rw [zpow_neg, zpow_natCast, div_eq_mul_inv]
  rw [← e]
  refine Binary64.val_ofDec m _ ?_
  rw [e]
  have h1 : (m : ℚ) / 10 ^ p ≤ m := div_le_self (by positivity) (one_le_pow₀ (by norm_num))
  have := lt_limit_of_small (x := (m : ℚ)) (by rw [abs_of_nonneg (by positivity)]; linarith)
  rw [abs_of_nonneg (by positivity)] at this
  linarith

/-- **C74**: a number that is close to a decimal number with `p` digits after the point is rounded to exactly that decimal number, that
is to the number its literal stores (`==` holds). "Close" means a little less than half a unit of the last digit. The same for negative
numbers. -/
theorem C74_decimal {a : F} {x : ℚ} (ha : Binary64.val a = some x) {p : Nat} (hp : p ≤ 22) (m : Nat) :
    (|x * 10 ^ p - m| + ((m : ℚ) + 1) / 2 ^ 53 < 1 / 2 →
      ((Value.scalar a).round p).beq (.scalar (ofDec m (-(p : Int)))) = true) ∧
    (|x * 10 ^ p + m| + ((m : ℚ) + 1) / 2 ^ 53 < 1 / 2 →
      ((Value.scalar a).round p).beq (.scalar (neg (ofDec m (-(p : Int))))) = true) := by
  have hm : ∀ t : ℚ, |t| + ((m : ℚ) + 1) / 2 ^ 53 < 1 / 2 → (m : ℚ) ≤ 2 ^ 53 := by
    intro t ht
    have := abs_nonneg t
    linarith
  constructor
  · intro h
    have h1 := round_to ha hp (m : Int) (by
      rw [Int.cast_natCast, abs_of_nonneg (a := (m : ℚ)) (by positivity)]
      exact h)
    have h2 := val_decimal (F := F) m (p := p) (hm _ h)
    rw [Value.round_small _ (show p < 2 ^ 31 by omega)]
    show FArith.beq (Value.roundScalar a (p : Int)) (ofDec m (-(p : Int))) = true
    rw [Binary64.beq_val h1 h2]
    simp
  · intro h
    have h1 := round_to ha hp (-(m : Int)) (by
      push_cast
      rw [sub_neg_eq_add, abs_neg, abs_of_nonneg (a := (m : ℚ)) (by positivity)]
      exact h)
    have h2 := Binary64.val_neg (ofDec m (-(p : Int)) : F)
    rw [val_decimal (F := F) m (p := p) (hm _ h)] at h2
    rw [Value.round_small _ (show p < 2 ^ 31 by omega)]
    show FArith.beq (Value.roundScalar a (p : Int)) (neg (ofDec m (-(p : Int)))) = true
    rw [Binary64.beq_val h1 h2]
    push_cast
    rw [neg_div, fl_neg]
    simp

/-- **C74**: the distance of a rounded number from the number is at most half a unit of the last digit and a small multiple of the
precision of `f64`. -/
theorem C74_error {a : F} {x : ℚ} (ha : Binary64.val a = some x) {p : Nat} (hp : p ≤ 22) (h : |x| * 10 ^ p < 2 ^ 1024 - 2 ^ 970) :
    ∃ c y, (Value.scalar a).round p = .scalar c ∧ Binary64.val c = some y ∧ |y - x| ≤ 1 / 2 / 10 ^ p + |x| / 2 ^ 51 + 1 / 10 ^ p / 2 ^ 50 := by
  have hs : |x * 10 ^ p| < Binary64.limit := by rwa [abs_mul, abs_of_pos (ten_pos p)]
  rw [Value.round_small _ (show p < 2 ^ 31 by omega)]
  refine ⟨_, _, rfl, roundScalar_float ha hp hs, ?_⟩
  have h0 := ten_pos p
  set T : ℚ := 10 ^ p with hT
  have hT1 : 1 ≤ T := one_le_pow₀ (by norm_num)
  set t := F64.fl (x * T) with htd
  set k : ℚ := (roundAway t : ℚ) with hk
  have e1 := F64.fl_error (x * T)
  have e2 : |k - t| ≤ 1 / 2 := roundAwayQ_abs t
  have e3 := F64.fl_error (k / T)
  have b1 : |t - x * T| ≤ |x| * T / 2 ^ 53 + 1 / 2 ^ 200 := by
    refine e1.trans (max_le ?_ ?_)
    · rw [abs_mul, abs_of_pos h0]
      have : (0 : ℚ) ≤ 1 / 2 ^ 200 := by positivity
      linarith
    · refine tiny_half.trans ?_
      have : 0 ≤ |x| * T / 2 ^ 53 := by positivity
      linarith
  have b2 : |k - x * T| ≤ 1 / 2 + |x| * T / 2 ^ 53 + 1 / 2 ^ 200 := by
    calc |k - x * T| = |(k - t) + (t - x * T)| := by ring_nf
      _ ≤ |k - t| + |t - x * T| := abs_add_le _ _
      _ ≤ _ := by linarith
  have b3 : |k / T - x| ≤ (1 / 2 + 1 / 2 ^ 200) / T + |x| / 2 ^ 53 := by
    have : k / T - x = (k - x * T) / T := by field_simp
    rw [this, abs_div, abs_of_pos h0, div_le_iff₀ h0]
    have e : ((1 / 2 + 1 / 2 ^ 200) / T + |x| / 2 ^ 53) * T = 1 / 2 + 1 / 2 ^ 200 + |x| * T / 2 ^ 53 := by field_simp
    rw [e]
    linarith
  have b4 : |k / T| ≤ |x| + ((1 / 2 + 1 / 2 ^ 200) / T + |x| / 2 ^ 53) := by
    calc |k / T| = |(k / T - x) + x| := by ring_nf
      _ ≤ |k / T - x| + |x| := abs_add_le _ _
      _ ≤ _ := by linarith
  have tb := ten_bound hp
  rw [← hT] at tb
  have hinv : 1 / 2 ^ 200 ≤ 1 / T / 2 ^ 60 := by
    rw [div_div]
    refine one_div_le_one_div_of_le (by positivity) ?_
    calc T * 2 ^ 60 ≤ 10 ^ 22 * 2 ^ 60 := by gcongr
      _ ≤ 2 ^ 200 := by norm_num
  have hTi : 0 < 1 / T := by positivity
  have eT : (1 / 2 + 1 / 2 ^ 200) / T = 1 / T / 2 + 1 / T / 2 ^ 200 := by field_simp
  have eT2 : 1 / 2 / T = 1 / T / 2 := by field_simp
  rw [eT] at b3 b4
  rw [eT2]
  have b5 : |F64.fl (k / T) - k / T| ≤ (|x| + (1 / T / 2 + 1 / T / 2 ^ 200 + |x| / 2 ^ 53)) / 2 ^ 53 + 1 / T / 2 ^ 60 := by
    refine e3.trans (max_le ?_ ?_)
    · have : |k / T| / 2 ^ 53 ≤ (|x| + (1 / T / 2 + 1 / T / 2 ^ 200 + |x| / 2 ^ 53)) / 2 ^ 53 := by gcongr
      have h1 : 0 ≤ 1 / T / 2 ^ 60 := by positivity
      linarith
    · refine (tiny_half.trans hinv).trans ?_
      have : 0 ≤ (|x| + (1 / T / 2 + 1 / T / 2 ^ 200 + |x| / 2 ^ 53)) / 2 ^ 53 := by positivity
      linarith
  calc |F64.fl (k / T) - x| = |(F64.fl (k / T) - k / T) + (k / T - x)| := by ring_nf
    _ ≤ |F64.fl (k / T) - k / T| + |k / T - x| := abs_add_le _ _
    _ ≤ _ := by
      have hx := abs_nonneg x
      generalize 1 / T = i at *
      linarith

/-- **C74**: rounding a number of moderate size twice is rounding it once. -/
theorem C74_idempotent {a : F} {x : ℚ} (ha : Binary64.val a = some x) {p : Nat} (hp : p ≤ 22) (h : |x| * 10 ^ p ≤ 2 ^ 50) :
    (((Value.scalar a).round p).round p).beq ((Value.scalar a).round p) = true := by
  have hx : |x * 10 ^ p| ≤ 2 ^ 50 := by rwa [abs_mul, abs_of_pos (ten_pos p)]
  have h1 := roundScalar_float ha hp (lt_limit_of_small (hx.trans (by norm_num)))
  set t := F64.fl (x * 10 ^ p)
  have ht : |t - x * 10 ^ p| ≤ 1 := by
    refine (F64.fl_error _).trans (max_le ?_ (tiny_half.trans (by norm_num)))
    have : |x * 10 ^ p| / 2 ^ 53 ≤ 2 ^ 50 / 2 ^ 53 := by gcongr
    refine this.trans (by norm_num)
  have hk : |(roundAway t : ℚ)| ≤ 2 ^ 50 + 3 / 2 := by
    have := roundAwayQ_abs t
    calc |(roundAway t : ℚ)| = |((roundAway t : ℚ) - t) + (t - x * 10 ^ p) + x * 10 ^ p| := by ring_nf
      _ ≤ |((roundAway t : ℚ) - t) + (t - x * 10 ^ p)| + |x * 10 ^ p| := abs_add_le _ _
      _ ≤ |(roundAway t : ℚ) - t| + |t - x * 10 ^ p| + |x * 10 ^ p| := by gcongr; exact abs_add_le _ _
      _ ≤ _ := by linarith
  have h2 := round_to h1 hp (roundAway t) (by
    have h0 := ten_pos p
    have e : F64.fl ((roundAway t : ℚ) / 10 ^ p) * 10 ^ p - roundAway t =
        (F64.fl ((roundAway t : ℚ) / 10 ^ p) - (roundAway t : ℚ) / 10 ^ p) * 10 ^ p := by field_simp
    rw [e, abs_mul, abs_of_pos h0]
    have h3 : |F64.fl ((roundAway t : ℚ) / 10 ^ p) - (roundAway t : ℚ) / 10 ^ p| * 10 ^ p ≤ |(roundAway t : ℚ)| / 2 ^ 53 + 1 / 2 ^ 60 := by
      have h4 := F64.fl_error ((roundAway t : ℚ) / 10 ^ p)
      calc _ ≤ max (|(roundAway t : ℚ) / 10 ^ p| / 2 ^ 53) (1 / 2 ^ 1075) * 10 ^ p := by gcongr
        _ = max (|(roundAway t : ℚ) / 10 ^ p| / 2 ^ 53 * 10 ^ p) (1 / 2 ^ 1075 * 10 ^ p) := max_mul_of_nonneg _ _ h0.le
        _ ≤ _ := by
          refine max_le ?_ ?_
          · rw [abs_div, abs_of_pos h0]
            have : |(roundAway t : ℚ)| / 10 ^ p / 2 ^ 53 * 10 ^ p = |(roundAway t : ℚ)| / 2 ^ 53 := by field_simp
            rw [this]
            have : (0 : ℚ) ≤ 1 / 2 ^ 60 := by positivity
            linarith
          · have h5 : (1 : ℚ) / 2 ^ 1075 * 10 ^ p ≤ 1 / 2 ^ 200 * 10 ^ 22 := mul_le_mul tiny_half (ten_bound hp) h0.le (by positivity)
            refine h5.trans ?_
            have h6 : (1 : ℚ) / 2 ^ 200 * 10 ^ 22 ≤ 1 / 2 ^ 60 := by norm_num
            refine h6.trans ?_
            have : 0 ≤ |(roundAway t : ℚ)| / 2 ^ 53 := by positivity
            linarith
    linarith)
  rw [Value.round_small _ (show p < 2 ^ 31 by omega), Value.round_small _ (show p < 2 ^ 31 by omega)]
  show FArith.beq (Value.roundScalar (Value.roundScalar a (p : Int)) (p : Int)) (Value.roundScalar a (p : Int)) = true
  rw [Binary64.beq_val h2 h1]
  simp

theorem roundAwayQ_mono {x y : ℚ} (h : x ≤ y) : roundAway x ≤ roundAway y := by
  unfold roundAway
  split <;> split
  · exact Int.floor_le_floor (by linarith)
  · linarith
  · have h1 : 0 ≤ ⌊-x + 1 / 2⌋ := Int.floor_nonneg.2 (by linarith)
    have h2 : 0 ≤ ⌊y + 1 / 2⌋ := Int.floor_nonneg.2 (by linarith)
    omega
  · have : ⌊-y + 1 / 2⌋ ≤ ⌊-x + 1 / 2⌋ := Int.floor_le_floor (by linarith)
    omega

/-- **C74**: rounding keeps the order: the smaller number is not rounded to a larger one. -/
theorem C74_monotone {a b : F} {x y : ℚ} (ha : Binary64.val a = some x) (hb : Binary64.val b = some y) (hxy : x ≤ y) {p : Nat} (hp : p ≤ 22)
    (hx : |x| * 10 ^ p < 2 ^ 1024 - 2 ^ 970) (hy : |y| * 10 ^ p < 2 ^ 1024 - 2 ^ 970) :
    ∃ c d z w, (Value.scalar a).round p = .scalar c ∧ (Value.scalar b).round p = .scalar d ∧ Binary64.val c = some z ∧
      Binary64.val d = some w ∧ z ≤ w := by
  have h0 := ten_pos p
  have hx' : |x * 10 ^ p| < Binary64.limit := by rwa [abs_mul, abs_of_pos h0]
  have hy' : |y * 10 ^ p| < Binary64.limit := by rwa [abs_mul, abs_of_pos h0]
  rw [Value.round_small _ (show p < 2 ^ 31 by omega), Value.round_small _ (show p < 2 ^ 31 by omega)]
  refine ⟨_, _, _, _, rfl, rfl, roundScalar_float ha hp hx', roundScalar_float hb hp hy', ?_⟩
  have bound : ∀ t : ℚ, |t| < Binary64.limit → |((roundAway (F64.fl t) : Int) : ℚ) / 10 ^ p| < Binary64.limit := by
    intro t ht
    have h1 := rep_lt_limit (representable_round (F64.representable_fl (F64.fl_no_overflow ht)))
    rw [abs_div, abs_of_pos h0]
    exact lt_of_le_of_lt (div_le_self (abs_nonneg _) (one_le_pow₀ (by norm_num))) h1
  refine fl_mono ?_ (bound _ hx') (bound _ hy')
  gcongr
  exact roundAwayQ_mono (fl_mono (by gcongr) hx' hy')

/-- **C74**: a number that is too large is rounded to infinity. -/
theorem C74_overflow {a : F} {x : ℚ} (ha : Binary64.val a = some x) {p : Nat} (hp : p ≤ 22) (h : 2 ^ 1024 - 2 ^ 970 ≤ |x| * 10 ^ p) :
    ∃ c, (Value.scalar a).round p = .scalar c ∧ isInf c = true := by
  rw [Value.round_small _ (show p < 2 ^ 31 by omega)]
  refine ⟨_, rfl, ?_⟩
  have ht := Tens.tens (F := F) p hp
  have hs : Binary64.limit ≤ |x * 10 ^ p| := by rwa [abs_mul, abs_of_pos (ten_pos p)]
  have h1 := fl_overflow hs
  have hne : x * 10 ^ p ≠ 0 := by
    intro h0
    rw [h0, F64.fl_zero, abs_zero] at h1
    exact absurd h1 (not_le.2 (by positivity))
  have hm : Ext.value (Ext.mul (Binary64.bits a).ext (Binary64.bits (powi (ofInt 10 : F) (p : Int))).ext) = some (x * 10 ^ p) :=
    Exact.val_mul (F := Ext ℚ) ha ht
  have hinf : ∃ s, (Binary64.bits (mul a (powi (ofInt 10 : F) (p : Int)))).ext = .inf s := by
    rw [Binary64.bits_mul]
    show ∃ s, (F64.rnd (Ext.mul _ _)).ext = .inf s
    generalize Ext.mul (Binary64.bits a).ext (Binary64.bits (powi (ofInt 10 : F) (p : Int))).ext = e at hm
    cases e with
    | fin z =>
      obtain rfl : z = x * 10 ^ p := by simpa [Ext.value] using hm
      refine ⟨decide (x * 10 ^ p < 0), ?_⟩
      unfold F64.rnd F64.roundQ
      simp only
      rw [if_neg hne]
      have e1 := F64.fl_of_ne hne
      unfold F64.lastBit at e1
      rw [← e1]
      rw [if_neg, if_pos]
      · exact_mod_cast h1
      · intro h0
        rw [h0, abs_zero] at h1
        exact absurd h1 (not_le.2 (by positivity))
    | negZero => exact absurd (Option.some.inj hm).symm hne
    | inf b => simp [Ext.value] at hm
    | nan => simp [Ext.value] at hm
  obtain ⟨s, hinf⟩ := hinf
  unfold Value.roundScalar
  rw [Binary64.bits_isInf, Binary64.bits_div, Binary64.bits_round]
  generalize Binary64.bits (mul a (powi (ofInt 10 : F) (p : Int))) = r at hinf
  unfold Binary64.val at ht
  generalize Binary64.bits (powi (ofInt 10 : F) (p : Int)) = q at ht
  obtain ⟨r⟩ := r
  obtain ⟨q⟩ := q
  simp only at hinf ht
  subst hinf
  cases q with
  | fin z => rfl
  | negZero => rfl
  | inf b => simp [Ext.value] at ht
  | nan => simp [Ext.value] at ht

/-- **C74**: the decimal number may be written as a literal: `1.250` is the number that everything close to `1.25` is rounded to. -/
theorem C74_text [UTable] {F : Type} [FNum F] [Binary64 F] [Tens F] {a : F} {x : ℚ} (ha : Binary64.val a = some x) (cfg : Cfg) (ip fp : Str)
    (h1 : ∀ c ∈ ip, c.isDigit = true) (h2 : ∀ c ∈ fp, c.isDigit = true) (hne : ip ≠ [] ∨ fp ≠ []) (hp : fp.length ≤ 22)
    (h : |x * 10 ^ fp.length - (decimal ip * 10 ^ fp.length + decimal fp : Nat)| +
      (((decimal ip * 10 ^ fp.length + decimal fp : Nat) : ℚ) + 1) / 2 ^ 53 < 1 / 2) :
    ∃ b, parse cfg (ip ++ '.' :: fp) = .ok (.scalar b : AST F) ∧ ((Value.scalar a).round fp.length).beq (.scalar b) = true :=
  ⟨_, (C14_numeral cfg ip fp h1 h2).2 hne, (C74_decimal ha hp _).1 h⟩

end

/-! ## Concrete cases -/

theorem val_21_16 : Binary64.val (ofDec 13125 (-4) : Double) = some (21 / 16) := by
  have h : ((13125 : Nat) : ℚ) * 10 ^ (-4 : Int) = 21 / 16 := by norm_num
  rw [Binary64.val_ofDec 13125 (-4) (by
    rw [h]
    have := lt_limit_of_small (x := 21 / 16) (by norm_num [abs_of_nonneg])
    rwa [abs_of_nonneg (by norm_num)] at this), h, F64.fl_representable]
  exact ⟨21, -4, by norm_num, by norm_num, by norm_num, by norm_num⟩

/-- `1.3125` rounded to two digits is `1.31`, to nine digits `1.3125`. -/
example : ((Value.scalar (ofDec 13125 (-4) : Double)).round 2).beq (.scalar (ofDec 131 (-2))) = true ∧
    ((Value.scalar (ofDec 13125 (-4) : Double)).round 9).beq (.scalar (ofDec 1312500000 (-9))) = true :=
  ⟨(C74_decimal val_21_16 (by norm_num) 131).1 (by norm_num [abs_of_nonneg]),
   (C74_decimal val_21_16 (by norm_num) 1312500000).1 (by norm_num)⟩

/-- A case of `C74_error`, `C74_idempotent` and `C74_overflow` each. -/
example : |(21 / 16 : ℚ)| * 10 ^ 9 ≤ 2 ^ 50 := by norm_num [abs_of_nonneg]
example : ((((Value.scalar (ofDec 13125 (-4) : Double)).round 9).round 9)).beq ((Value.scalar (ofDec 13125 (-4) : Double)).round 9) = true :=
  C74_idempotent val_21_16 (by norm_num) (by norm_num [abs_of_nonneg])

/-- What a user may not expect: `1.005` is stored as a number below `1.005` and is rounded to `1`; `2.675` to `2.68` although it is stored
as a number below `2.675` (the product with `100` is rounded up); `1e300` is rounded to infinity. -/
theorem C74_surprises :
    (Value.scalar (F64.lit 1005 (-3))).round 2 = .scalar (F64.lit 1 0) ∧
    (Value.scalar (F64.lit 2675 (-3))).round 2 = .scalar (F64.lit 268 (-2)) ∧ (F64.lit 2675 (-3)).ext.value.any (· < 2675 / 1000) = true ∧
    (Value.scalar (F64.lit 1 300)).round 10 = .scalar (FArith.inf false) := by
  refine ⟨?_, ?_, ?_, ?_⟩ <;> decide +kernel

end MUL
