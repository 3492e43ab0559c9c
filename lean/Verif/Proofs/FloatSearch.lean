import Verif.Proofs.FloatNewton
import Verif.Props.FloatDeriv
import Verif.Props.FloatLaws
import Verif.Num.Tens
import Verif.Spec.FloatNewton
/-!
# The search for a solution in binary64 arithmetic: the test and the step
-/

set_option linter.unusedSectionVars false

namespace MUL
open Out Spec

theorem one_lt_overflow : (1 : ℝ) < overflow := by
  have := Double.small (r := 1) (by rw [abs_one]; exact one_lt_pow₀ (by norm_num) (by norm_num))
  rwa [abs_one] at this

theorem sqrt_lt_overflow {x : ℝ} (h : x < overflow) : Real.sqrt x < overflow := by
  rcases le_total x 1 with h1 | h1
  · exact lt_of_le_of_lt (Real.sqrt_le_one.2 h1) one_lt_overflow
  · refine lt_of_le_of_lt ?_ h
    rw [Real.sqrt_le_left (by linarith)]
    nlinarith

theorem tiny_le {x : ℝ} (hx : 1 / 10 ^ 50 ≤ x) : (1 : ℝ) / 2 ^ 1075 ≤ x / 10 ^ 6 := by
  have : (1 : ℝ) / 2 ^ 1075 ≤ 1 / 2 ^ 250 := one_div_le_one_div_of_le (by positivity) (pow_le_pow_right₀ (by norm_num) (by norm_num))
  refine this.trans (le_trans ?_ (div_le_div_of_nonneg_right hx (by norm_num)))
  norm_num

section
variable {F : Type} [FNum F] [Binary64 F] {u : ℝ} [Libm F u] {cfg : Cfg}

include u in
/-- The computed norm of one number. -/
theorem norm_one {b : F} {q : ℚ} (hb : Binary64.val b = some q) (hq : |q * q| < Binary64.limit) :
    ∃ r : ℚ, Binary64.val (norm [b]) = some r ∧ |((F64.fl (q * q) : ℚ) : ℝ) - (q : ℝ) ^ 2| ≤ roundErr ((q : ℝ) ^ 2) ∧
      (0 : ℝ) ≤ (F64.fl (q * q) : ℚ) ∧
      |(r : ℝ) - Real.sqrt (F64.fl (q * q) : ℚ)| ≤ roundErr (Real.sqrt (F64.fl (q * q) : ℚ)) := by
  have h1 := Libm.square (u := u) b q hb hq
  have hrep : Representable (F64.fl (q * q)) := F64.representable_fl (F64.fl_no_overflow hq)
  have h2 : Binary64.val (FArith.add (FArith.ofInt 0) (FArith.powi b 2)) = some (F64.fl (q * q)) := by
    have := Binary64.val_add (val_int (F := F) (n := 0) (by norm_num)) h1 (by simpa using rep_lt_limit hrep)
    rw [this, Int.cast_zero, zero_add, F64.fl_representable hrep]
  have hnn : 0 ≤ F64.fl (q * q) := by
    have := fl_mono (x := 0) (y := q * q) (mul_self_nonneg q) (rep_lt_limit representable_zero) hq
    rwa [F64.fl_zero] at this
  obtain ⟨r, hr, hr'⟩ := Libm.sqrt (u := u) _ _ h2 hnn
  have hov : |Real.sqrt (F64.fl (q * q) : ℚ)| < overflow := by
    rw [abs_of_nonneg (Real.sqrt_nonneg _)]
    refine sqrt_lt_overflow ?_
    have := rep_lt_limit hrep
    rw [abs_of_nonneg hnn] at this
    rw [← limit_cast]
    exact_mod_cast this
  refine ⟨r, hr, ?_, by exact_mod_cast hnn, ?_⟩
  · have := fl_error_real (q * q)
    push_cast at this
    rwa [← sq (q : ℝ), abs_of_nonneg (sq_nonneg (q : ℝ))] at this
  · have := nearest_error hr' hov
    rwa [abs_of_nonneg (Real.sqrt_nonneg _)] at this

include u in
/-- Small numbers are recognized. -/
theorem small_of_le (hu : u ≤ 1 / 2 ^ 20) (hprec : cfg.prec ≤ 22) {b : F} {q : ℚ} (hb : Binary64.val b = some q)
    (hq : |(q : ℝ)| ≤ 9 / 10 * 10 ^ (-(cfg.prec : Int))) : normSmall cfg [b] = true := by
  obtain ⟨h, h1, h2⟩ := step_bounds (F := F) (u := u) cfg hu hprec
  have hH := zpow_pos (show (0 : ℝ) < 10 by norm_num) (-(cfg.prec : Int))
  have hH1 : (10 : ℝ) ^ (-(cfg.prec : Int)) ≤ 1 := by
    have : (10 : ℝ) ^ (-(cfg.prec : Int)) ≤ 10 ^ (0 : Int) := zpow_le_zpow_right₀ (by norm_num) (by omega)
    rwa [zpow_zero] at this
  have hH2 : (10 : ℝ) ^ (-(22 : Int)) ≤ 10 ^ (-(cfg.prec : Int)) := zpow_le_zpow_right₀ (by norm_num) (by omega)
  generalize (10 : ℝ) ^ (-(cfg.prec : Int)) = H at *
  have hH3 : (1 : ℝ) / 10 ^ 50 ≤ H ^ 2 := by
    refine le_trans ?_ (pow_le_pow_left₀ (by positivity) hH2 2)
    norm_num
  have hH4 : (1 : ℝ) / 10 ^ 50 ≤ H := by
    refine le_trans ?_ hH2
    norm_num
  have t1 := tiny_le hH3
  have t2 := tiny_le hH4
  have hsq : (q : ℝ) ^ 2 ≤ 81 / 100 * H ^ 2 := by
    have := pow_le_pow_left₀ (abs_nonneg _) hq 2
    rw [sq_abs] at this
    linarith
  have hlim : |q * q| < Binary64.limit := by
    refine lt_limit_of_real (lt_of_le_of_lt ?_ one_lt_overflow)
    push_cast
    rw [← sq, abs_of_nonneg (sq_nonneg _)]
    nlinarith
  obtain ⟨r, r1, r2, r3, r4⟩ := norm_one (u := u) hb hlim
  generalize ((F64.fl (q * q) : ℚ) : ℝ) = Q at *
  unfold roundErr at r2 r4
  generalize (1 : ℝ) / 2 ^ 1075 = T at *
  have r2' : Q ≤ 8101 / 10000 * H ^ 2 := by
    have := (abs_le.1 r2).2
    have hm : max ((q : ℝ) ^ 2 / 2 ^ 53) T ≤ H ^ 2 / 10 ^ 6 := max_le (by
      have : (q : ℝ) ^ 2 / 2 ^ 53 ≤ (81 / 100 * H ^ 2) / 2 ^ 53 := div_le_div_of_nonneg_right hsq (by norm_num)
      nlinarith [sq_nonneg H]) t1
    nlinarith [sq_nonneg H]
  have s1 : Real.sqrt Q ≤ 9001 / 10000 * H := by
    rw [Real.sqrt_le_left (by positivity)]
    nlinarith [sq_nonneg H]
  have s0 := Real.sqrt_nonneg Q
  have hm : max (Real.sqrt Q / 2 ^ 53) T ≤ H / 10 ^ 6 := max_le (by linarith) t2
  obtain ⟨r5, r6⟩ := abs_le.1 r4
  obtain ⟨l1, l2⟩ := abs_le.1 h2
  have hneg : Binary64.val (FArith.neg (stepH F cfg)) = some (-h) := by rw [Binary64.val_neg, h1]; rfl
  unfold normSmall
  show (FArith.lt (FArith.neg (stepH F cfg)) (norm [b]) && FArith.lt (norm [b]) (stepH F cfg)) = true
  rw [Binary64.lt_val hneg r1, Binary64.lt_val r1 h1, Bool.and_eq_true, decide_eq_true_eq, decide_eq_true_eq]
  constructor
  · have : ((-h : ℚ) : ℝ) < r := by push_cast; linarith
    exact_mod_cast this
  · have : (r : ℝ) < h := by linarith
    exact_mod_cast this

omit [Libm F u] in
/-- What is between two finite numbers is finite. -/
theorem finite_between {a b c : F} (h1 : FArith.lt a b = true) (h2 : FArith.lt b c = true) : ∃ q, Binary64.val b = some q := by
  rw [Binary64.bits_lt] at h1 h2
  have h1 : Ext.lt (Binary64.bits a).ext (Binary64.bits b).ext = true := h1
  have h2 : Ext.lt (Binary64.bits b).ext (Binary64.bits c).ext = true := h2
  unfold Binary64.val
  generalize (Binary64.bits a).ext = x at *
  generalize (Binary64.bits b).ext = y at *
  generalize (Binary64.bits c).ext = z at *
  cases y with
  | fin q => exact ⟨q, rfl⟩
  | negZero => exact ⟨0, rfl⟩
  | nan => cases x <;> simp [Ext.lt] at h1
  | inf b => cases b <;> cases x <;> cases z <;> simp [Ext.lt] at h1 h2

include u in
/-- Only small numbers are. -/
theorem le_of_small (hu : u ≤ 1 / 2 ^ 20) (hprec : cfg.prec ≤ 22) {b : F} (hs : normSmall cfg [b] = true) :
    ∃ q : ℚ, Binary64.val b = some q ∧ |(q : ℝ)| ≤ 101 / 100 * 10 ^ (-(cfg.prec : Int)) := by
  obtain ⟨h, h1, h2⟩ := step_bounds (F := F) (u := u) cfg hu hprec
  have hs : (FArith.lt (FArith.neg (stepH F cfg)) (norm [b]) && FArith.lt (norm [b]) (stepH F cfg)) = true := hs
  rw [Bool.and_eq_true] at hs
  obtain ⟨r', hr'⟩ := finite_between hs.1 hs.2
  have hadd : ∃ q, Binary64.val (FArith.powi b 2) = some q := by
    by_contra hc
    have hc : Binary64.val (FArith.powi b 2) = none := by
      cases hv : Binary64.val (FArith.powi b 2) with
      | none => rfl
      | some q => exact absurd ⟨q, hv⟩ hc
    have ha : Binary64.val (FArith.add (FArith.ofInt 0) (FArith.powi b 2)) = none := by
      have h0 := val_int (F := F) (n := 0) (by norm_num)
      unfold Binary64.val at h0 hc ⊢
      rw [Binary64.bits_add]
      show (F64.rnd (Ext.add (Binary64.bits (FArith.ofInt 0)).ext (Binary64.bits (FArith.powi b 2)).ext)).ext.value = none
      generalize (Binary64.bits (FArith.ofInt 0 : F)).ext = x at *
      generalize (Binary64.bits (FArith.powi b 2)).ext = y at *
      cases y with
      | fin q => cases hc
      | negZero => cases hc
      | nan => cases x <;> rfl
      | inf s => cases x <;> first | (cases h0; done) | (cases s <;> rfl)
    have := Libm.sqrt_none (u := u) _ ha
    have hn : norm [b] = FElem.sqrt (FArith.add (FArith.ofInt 0) (FArith.powi b 2)) := rfl
    rw [hn, this] at hr'
    cases hr'
  have hmul : ∃ q, Binary64.val (FArith.mul b b) = some q := by
    by_contra hc
    have hc : Binary64.val (FArith.mul b b) = none := by
      cases hv : Binary64.val (FArith.mul b b) with
      | none => rfl
      | some q => exact absurd ⟨q, hv⟩ hc
    rw [Libm.square_none (u := u) _ hc] at hadd
    obtain ⟨q, hq⟩ := hadd
    cases hq
  obtain ⟨p, hp⟩ := hmul
  obtain ⟨q, hq⟩ : ∃ q, Binary64.val b = some q := by
    unfold Binary64.val at hp ⊢
    rw [Binary64.bits_mul] at hp
    have hp : (F64.rnd (Ext.mul (Binary64.bits b).ext (Binary64.bits b).ext)).ext.value = some p := hp
    generalize (Binary64.bits b).ext = x at *
    cases x with
    | fin q => exact ⟨q, rfl⟩
    | negZero => exact ⟨0, rfl⟩
    | nan => cases hp
    | inf s => cases s <;> cases hp
  have hlim : |q * q| < Binary64.limit := by
    by_contra hc
    rw [not_lt] at hc
    unfold Binary64.val at hq hp
    rw [Binary64.bits_mul] at hp
    have hp : (F64.rnd (Ext.mul (Binary64.bits b).ext (Binary64.bits b).ext)).ext.value = some p := hp
    have hv : (Ext.mul (Binary64.bits b).ext (Binary64.bits b).ext).value = some (q * q) := Exact.val_mul (F := Ext ℚ) hq hq
    have hne : q * q ≠ 0 := by
      rintro h0
      rw [h0, abs_zero] at hc
      have := (abs_nonneg (0 : ℚ)).trans_lt (rep_lt_limit representable_zero)
      linarith
    generalize Ext.mul (Binary64.bits b).ext (Binary64.bits b).ext = x at *
    cases x with
    | fin y =>
      cases hv
      have := F64.roundQ_over hc
      have hp : (F64.roundQ (q * q)).value = some p := hp
      rw [this] at hp
      cases hp
    | negZero => exact hne (by simpa [Ext.value] using hv.symm)
    | nan => cases hv
    | inf s => cases hv
  refine ⟨q, hq, ?_⟩
  by_contra hbig
  rw [not_le] at hbig
  have hH := zpow_pos (show (0 : ℝ) < 10 by norm_num) (-(cfg.prec : Int))
  have hH2 : (10 : ℝ) ^ (-(22 : Int)) ≤ 10 ^ (-(cfg.prec : Int)) := zpow_le_zpow_right₀ (by norm_num) (by omega)
  generalize (10 : ℝ) ^ (-(cfg.prec : Int)) = H at *
  have hH3 : (1 : ℝ) / 10 ^ 50 ≤ H ^ 2 := by
    refine le_trans ?_ (pow_le_pow_left₀ (by positivity) hH2 2)
    norm_num
  have hH4 : (1 : ℝ) / 10 ^ 50 ≤ H := by
    refine le_trans ?_ hH2
    norm_num
  have t1 := tiny_le hH3
  have t2 := tiny_le hH4
  have hsq : 10201 / 10000 * H ^ 2 ≤ (q : ℝ) ^ 2 := by
    have := pow_le_pow_left₀ (by positivity) hbig.le 2
    rw [sq_abs] at this
    linarith
  obtain ⟨r, r1, r2, r3, r4⟩ := norm_one (u := u) hq hlim
  generalize ((F64.fl (q * q) : ℚ) : ℝ) = Q at *
  unfold roundErr at r2 r4
  generalize (1 : ℝ) / 2 ^ 1075 = T at *
  have r2' : 102 / 100 * H ^ 2 ≤ Q := by
    have := (abs_le.1 r2).1
    rcases max_cases ((q : ℝ) ^ 2 / 2 ^ 53) T with ⟨hm, _⟩ | ⟨hm, _⟩ <;> rw [hm] at this <;> linarith [sq_nonneg H]
  have s1 : 10099 / 10000 * H ≤ Real.sqrt Q := by
    rw [Real.le_sqrt' (by positivity)]
    nlinarith [sq_nonneg H]
  obtain ⟨r5, r6⟩ := abs_le.1 r4
  obtain ⟨l1, l2⟩ := abs_le.1 h2
  have h3 := hs.2
  rw [Binary64.lt_val r1 h1, decide_eq_true_eq] at h3
  have h3 : (r : ℝ) < h := by exact_mod_cast h3
  rcases max_cases (Real.sqrt Q / 2 ^ 53) T with ⟨hm, _⟩ | ⟨hm, _⟩ <;> rw [hm] at r5 <;> linarith

omit [Libm F u] in
theorem neg_one_left {b : F} {y : ℚ} (hb : Binary64.val b = some y) : Binary64.val (FArith.mul (FArith.ofInt (-1)) b) = some (-y) := by
  have hr := representable_neg (Binary64.rep hb)
  have h2 := Binary64.val_mul (val_int (F := F) (n := -1) (by norm_num)) hb (by
    push_cast
    rw [neg_one_mul]
    exact rep_lt_limit hr)
  push_cast at h2
  rwa [neg_one_mul, F64.fl_representable hr] at h2

theorem lt_limit_pow {x : ℚ} (h : |(x : ℝ)| ≤ 2 ^ 200) : |x| < Binary64.limit := by
  refine lt_limit_of_real (lt_overflow (h.trans ?_))
  exact pow_le_pow_right₀ (by norm_num) (by norm_num)

/-- Sums of binary64 numbers. -/
theorem sum_val {a b : F} {x y : ℚ} (ha : Binary64.val a = some x) (hb : Binary64.val b = some y) (h : |(x : ℝ) + y| ≤ 2 ^ 200) :
    ∃ z : ℚ, Binary64.val (FArith.add a b) = some z ∧ |(z : ℝ) - (x + y)| ≤ |(x : ℝ) + y| / 2 ^ 53 := by
  obtain ⟨i, hi⟩ := F64.representable_multiple (Binary64.rep ha)
  obtain ⟨j, hj⟩ := F64.representable_multiple (Binary64.rep hb)
  have hk := fl_error_real_multiple (x := x + y) (i + j) (by rw [hi, hj]; push_cast; ring)
  push_cast at hk
  exact ⟨_, Binary64.val_add ha hb (lt_limit_pow (by push_cast; exact h)), hk⟩

theorem quot_val {a b : F} {x y : ℚ} (ha : Binary64.val a = some x) (hb : Binary64.val b = some y) (hy : y ≠ 0)
    (h : |(x : ℝ) / y| ≤ 2 ^ 200) :
    ∃ z : ℚ, Binary64.val (FArith.div a b) = some z ∧ |(z : ℝ) - x / y| ≤ roundErr |(x : ℝ) / y| := by
  have hk := fl_error_real (x / y)
  push_cast at hk
  exact ⟨_, Binary64.val_div ha hb hy (lt_limit_pow (by push_cast; exact h)), hk⟩

set_option maxHeartbeats 2000000 in
include u in
/-- One step of the search. -/
theorem float_step (hu : u ≤ 1 / 2 ^ 20) (hprec : cfg.prec ≤ 22) {φ : F → F} {g : ℝ → ℝ} {s m ε : ℝ}
    (hg : Findable g s m ε (10 ^ (-(cfg.prec : Int))))
    (hφ : ComputesWithin φ g (s - 1 / 2) (s + 1 / 2 + 2 * 10 ^ (-(cfg.prec : Int))) ε) {a : F} {x : ℚ} (ha : Binary64.val a = some x)
    (hx : |(x : ℝ) - s| ≤ 1 / 2) (hns : normSmall cfg [φ a] ≠ true) :
    ∃ x' : ℚ, Binary64.val (stepOf cfg a (φ a) (φ (FArith.add a (stepH F cfg)))) = some x' ∧
      |(x' : ℝ) - s| ≤ 189 / 200 * |(x : ℝ) - s| + (11 / 10 * (ε / m) + (|s| + 2) / 2 ^ 53) := by
  obtain ⟨h, h1, h2⟩ := step_bounds (F := F) (u := u) cfg hu hprec
  have hH := zpow_pos (show (0 : ℝ) < 10 by norm_num) (-(cfg.prec : Int))
  have hH1 : (10 : ℝ) ^ (-(cfg.prec : Int)) ≤ 1 := by
    have : (10 : ℝ) ^ (-(cfg.prec : Int)) ≤ 10 ^ (0 : Int) := zpow_le_zpow_right₀ (by norm_num) (by omega)
    rwa [zpow_zero] at this
  have hH2 : (10 : ℝ) ^ (-(22 : Int)) ≤ 10 ^ (-(cfg.prec : Int)) := zpow_le_zpow_right₀ (by norm_num) (by omega)
  have hsm := fun (y : ℚ) (hy : Binary64.val (φ a) = some y) =>
    mt (small_of_le (u := u) hu hprec hy) hns
  generalize hHd : (10 : ℝ) ^ (-(cfg.prec : Int)) = H at *
  obtain ⟨l1, l2⟩ := abs_le.1 h2
  obtain ⟨x1, x2⟩ := abs_le.1 hx
  have hm := hg.pos
  have hs0 := abs_nonneg s
  have hnear := hg.near
  have hflat := hg.flat
  have hm46 : m ≤ 2 ^ 46 := by nlinarith
  have hxs : |(x : ℝ)| ≤ |s| + 1 / 2 := by
    calc |(x : ℝ)| = |((x : ℝ) - s) + s| := by ring_nf
      _ ≤ |(x : ℝ) - s| + |s| := abs_add_le _ _
      _ ≤ _ := by linarith
  -- the value
  obtain ⟨y, y1, y2⟩ := hφ a x ha (by linarith) (by linarith)
  have hε0 : 0 ≤ ε := (abs_nonneg _).trans y2
  -- the second point
  have hxh : |(x : ℝ) + h| ≤ |(x : ℝ)| + h := (abs_add_le _ _).trans (by rw [abs_of_pos (a := (h : ℝ)) (by linarith)])
  obtain ⟨z, z1, z2⟩ := sum_val ha h1 (by
    refine hxh.trans ?_
    have : |s| ≤ 2 ^ 46 := by nlinarith
    refine le_trans (show _ ≤ (2 : ℝ) ^ 50 by linarith) (pow_le_pow_right₀ (by norm_num) (by norm_num)))
  have z3 : |(z : ℝ) - x - h| ≤ (|(x : ℝ)| + h) / 2 ^ 53 := by
    rw [sub_sub]
    exact z2.trans (div_le_div_of_nonneg_right hxh (by norm_num))
  obtain ⟨z4, z5⟩ := abs_le.1 z3
  have z6 : (z : ℝ) ≤ x + 2 * H := by linarith
  have z7 : (x : ℝ) ≤ z := by linarith
  obtain ⟨y', y1', y2'⟩ := hφ _ z z1 (by linarith) (by linarith)
  -- sizes of the values
  have hsz : ∀ w : ℝ, s - 1 / 2 ≤ w → w ≤ s + 1 / 2 + 2 * H → |g w| ≤ 19 / 10 * m * |w - s| := by
    intro w w1 w2
    rcases hg.slopes with hs | hs
    · exact (slopes_zero hs hg.zero hm (by linarith) (by linarith) w1 w2).2.2.2
    · have := (slopes_zero hs (by simpa using hg.zero) hm (by linarith) (by linarith) w1 w2).2.2.2
      rwa [abs_neg] at this
  have hε1 : ε ≤ 1 := by linarith [hg.precise]
  have hyb : |(y : ℝ)| ≤ 95 / 100 * m + ε := by
    have k1 := hsz x (by linarith) (by linarith)
    have k2 : |(y : ℝ)| ≤ |(y : ℝ) - g x| + |g x| := by
      calc |(y : ℝ)| = |((y : ℝ) - g x) + g x| := by ring_nf
        _ ≤ _ := abs_add_le _ _
    have k3 := mul_le_mul_of_nonneg_left hx (show 0 ≤ 19 / 10 * m by linarith)
    linarith
  have hyb' : |(y' : ℝ)| ≤ 5 * m + ε := by
    have k1 := hsz z (by linarith) (by linarith)
    have k2 : |(y' : ℝ)| ≤ |(y' : ℝ) - g z| + |g z| := by
      calc |(y' : ℝ)| = |((y' : ℝ) - g z) + g z| := by ring_nf
        _ ≤ _ := abs_add_le _ _
    have k4 : |(z : ℝ) - s| ≤ 5 / 2 := abs_le.2 ⟨by linarith, by linarith⟩
    have k3 := mul_le_mul_of_nonneg_left k4 (show 0 ≤ 19 / 10 * m by linarith)
    linarith
  -- the slope is not too small
  have hmin : 1 / 10 ^ 23 ≤ m := by
    have := hsm y y1
    rw [not_le] at this
    have hp := hg.precise
    have : 89 / 100 * H ≤ 95 / 100 * m := by linarith
    have h9 : (1 : ℝ) / 10 ^ 23 ≤ 1 / 10 * 10 ^ (-(22 : Int)) := by norm_num
    linarith
  -- the difference
  have hdb : |(y' : ℝ) + ((-y : ℚ) : ℝ)| ≤ 2 ^ 50 := by
    push_cast
    refine (abs_add_le _ _).trans ?_
    rw [abs_neg]
    linarith
  obtain ⟨N, n1, n2⟩ := sum_val y1' (neg_one_val y1) (hdb.trans (pow_le_pow_right₀ (by norm_num) (by norm_num)))
  push_cast at n2 hdb
  rw [← sub_eq_add_neg] at n2 hdb
  have hNb : |(N : ℝ)| ≤ 2 ^ 51 := by
    calc |(N : ℝ)| = |((N : ℝ) - (y' - y)) + (y' - y)| := by ring_nf
      _ ≤ |(N : ℝ) - (y' - y)| + |(y' : ℝ) - y| := abs_add_le _ _
      _ ≤ _ := by linarith
  have hh0 : (1 : ℝ) / 10 ^ 23 ≤ h := by
    have h9 : (1 : ℝ) / 10 ^ 23 ≤ 1 / 10 * 10 ^ (-(22 : Int)) := by norm_num
    linarith
  have hhne : h ≠ 0 := by
    rintro rfl
    norm_num at hh0
  have hqb : |(N : ℝ) / h| ≤ 2 ^ 200 := by
    rw [abs_div, abs_of_pos (a := (h : ℝ)) (lt_of_lt_of_le (by positivity) hh0), div_le_iff₀ (lt_of_lt_of_le (by positivity) hh0)]
    refine hNb.trans (le_trans ?_ (mul_le_mul_of_nonneg_left hh0 (by positivity)))
    norm_num
  obtain ⟨q, q1, q2⟩ := quot_val n1 h1 hhne hqb
  -- both directions at once
  obtain ⟨σ, hσ, hs⟩ : ∃ σ : ℝ, (σ = 1 ∨ σ = -1) ∧ Slopes (fun x => σ * g x) (s - 1 / 2) (s + 1 / 2 + 2 * H) m (19 / 10 * m) := by
    rcases hg.slopes with hs | hs
    · exact ⟨1, Or.inl rfl, by simpa using hs⟩
    · exact ⟨-1, Or.inr rfl, by simpa using hs⟩
  have hσa : ∀ t : ℝ, |σ * t| = |t| := by
    intro t
    rcases hσ with rfl | rfl <;> simp
  have hσd : ∀ c t : ℝ, |σ * c - σ * t| = |c - t| := by
    intro c t
    rw [← mul_sub, hσa]
  have sl := slope_bounds (s := s) (h := h) (z := z) (y := σ * y) (y' := σ * y') (N := σ * N) (q := σ * q) (ε := ε) hs hm hH h2 hx
    (by linarith) (by linarith) z3 (by rw [hσd]; exact y2) (by rw [hσd]; exact y2')
    (by rw [← mul_sub, hσd, hσa]; exact n2) (by rw [mul_div_assoc, hσd, hσa]; exact q2) hg.accurate hnear hmin
  obtain ⟨sl1, sl2, -, -⟩ := sl
  have hqpos : 0 < σ * q := by linarith
  have hqa : |(q : ℝ)| = σ * q := by rw [← hσa, abs_of_pos hqpos]
  have hqne : q ≠ 0 := by
    rintro rfl
    norm_num at hqpos
  have htb : |((-y : ℚ) : ℝ) / q| ≤ 2 ^ 150 := by
    rw [abs_div, hqa, div_le_iff₀ hqpos]
    push_cast
    rw [abs_neg]
    have k1 : (98 : ℝ) / 100 * (1 / 10 ^ 23) ≤ σ * q := by linarith
    refine le_trans (show |(y : ℝ)| ≤ 2 ^ 50 by linarith) (le_trans ?_ (mul_le_mul_of_nonneg_left k1 (by positivity)))
    norm_num
  obtain ⟨t, t1, t2⟩ := quot_val (neg_one_left y1) q1 hqne (htb.trans (pow_le_pow_right₀ (by norm_num) (by norm_num)))
  push_cast at t2 htb
  have e1 : -((σ : ℝ) * y) / (σ * q) = -y / q := by
    rcases hσ with rfl | rfl
    · simp
    · simp [neg_div, div_neg]
  have htb2 : |(t : ℝ)| ≤ 2 ^ 151 := by
    have k1 : |(t : ℝ)| ≤ |(t : ℝ) - -y / q| + |-(y : ℝ) / q| := by
      calc |(t : ℝ)| = |((t : ℝ) - -y / q) + -y / q| := by ring_nf
        _ ≤ _ := abs_add_le _ _
    have k2 : roundErr |-(y : ℝ) / q| ≤ 2 ^ 150 := by
      unfold roundErr
      refine max_le ?_ ?_
      · refine (div_le_self (abs_nonneg _) (by norm_num)).trans htb
      · refine (div_le_self (by norm_num) (one_le_pow₀ (by norm_num))).trans (by norm_num)
    have k3 : (2 : ℝ) ^ 151 = 2 ^ 150 + 2 ^ 150 := by norm_num
    rw [k3]
    linarith
  obtain ⟨x', w1, w2⟩ := sum_val t1 ha (by
    refine (abs_add_le _ _).trans ?_
    have : |s| ≤ 2 ^ 46 := by nlinarith
    have k3 : (2 : ℝ) ^ 151 + 2 ^ 50 ≤ 2 ^ 200 := by norm_num
    linarith)
  refine ⟨x', w1, ?_⟩
  refine (step_contracts (x := x) (y := σ * y) (q := σ * q) (t := t) (x' := x') (ε := ε) hs (by simp [hg.zero]) hm (by linarith) (by linarith) (by linarith) (by linarith)
    hx (by rw [hσd]; exact y2) sl1 sl2 (by rw [e1]; exact t2) w2 ?_).1
  have := hg.accurate
  nlinarith

end

end MUL
