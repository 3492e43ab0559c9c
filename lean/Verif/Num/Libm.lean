import Verif.Spec.Rounding
import Verif.Num.Binary64
import Mathlib.Analysis.SpecialFunctions.Trigonometric.Bounds
import Mathlib.Analysis.Real.Pi.Bounds
import Mathlib.Analysis.Complex.ExponentialBounds
/-!
# Accuracy of the elementary functions

`Libm F u` says that `sqrt` is rounded correctly (as IEEE-754 demands) and that the other elementary functions have relative errors of at
most `u` (math libraries document such bounds; Rust does not). `Double` with correctly rounded functions is an instance.
-/

set_option linter.unusedSectionVars false

namespace MUL
open Spec FArith FElem

theorem rep_lt_limit {x : ℚ} (h : Representable x) : |x| < Binary64.limit := by
  obtain ⟨m, e, h1, _, h3, rfl⟩ := h
  rw [← F64.pow2_eq, abs_mul, abs_of_pos (F64.pow2_pos e)]
  have h4 : |(m : ℚ)| ≤ 2 ^ 53 - 1 := by
    have : |m| ≤ 2 ^ 53 - 1 := by omega
    exact_mod_cast this
  have h5 := F64.pow2_mono h3
  rw [show (971 : Int) = (971 : Nat) by rfl, F64.pow2_natCast] at h5
  have hp := F64.pow2_pos e
  unfold Binary64.limit
  calc |(m : ℚ)| * F64.pow2 e ≤ (2 ^ 53 - 1) * 2 ^ 971 := mul_le_mul h4 h5 hp.le (by norm_num)
    _ = 2 ^ 1024 - 2 ^ 971 := by rw [sub_mul, one_mul, ← pow_add]
    _ < _ := by
      have : (2 : ℚ) ^ 970 < 2 ^ 971 := pow_lt_pow_right₀ (by norm_num) (by norm_num)
      exact sub_lt_sub_left this _

theorem limit_cast : ((Binary64.limit : ℚ) : ℝ) = overflow := by
  unfold Binary64.limit overflow
  push_cast
  rfl

theorem fl_error_real (x : ℚ) : |((F64.fl x : ℚ) : ℝ) - x| ≤ roundErr |(x : ℝ)| := by
  have h := F64.fl_error x
  unfold roundErr
  have h2 : ((|F64.fl x - x| : ℚ) : ℝ) ≤ ((max (|x| / 2 ^ 53) (1 / 2 ^ 1075) : ℚ) : ℝ) := by exact_mod_cast h
  push_cast at h2
  exact h2

theorem fl_error_real_multiple {x : ℚ} (n : Int) (hn : x = n * F64.pow2 (-1074)) :
    |((F64.fl x : ℚ) : ℝ) - x| ≤ |(x : ℝ)| / 2 ^ 53 := by
  have h := F64.fl_error_multiple n hn
  have h2 : ((|F64.fl x - x| : ℚ) : ℝ) ≤ ((|x| / 2 ^ 53 : ℚ) : ℝ) := by exact_mod_cast h
  push_cast at h2
  exact h2

theorem lt_limit_of_real {x : ℚ} (h : |(x : ℝ)| < overflow) : |x| < Binary64.limit := by
  rw [← limit_cast] at h
  exact_mod_cast h

theorem roundErr_mono {s t : ℝ} (h : s ≤ t) : roundErr s ≤ roundErr t := by
  unfold roundErr
  have : s / 2 ^ 53 ≤ t / 2 ^ 53 := by gcongr
  exact max_le_max this le_rfl


/-- `f` computes the real function `g` on the domain `D` with relative accuracy `u`. -/
def Accurate {F : Type} [FNum F] [Binary64 F] (u : ℝ) (f : F → F) (g : ℝ → ℝ) (D : ℝ → Prop) : Prop :=
  ∀ (a : F) (x : ℚ), Binary64.val a = some x → D x → ∃ y : ℚ, Binary64.val (f a) = some y ∧ |(y : ℝ) - g x| ≤ libErr u |g x|

/-- The elementary functions have the relative accuracy `u`. -/
class Libm (F : Type) [FNum F] [Binary64 F] (u : ℝ) : Prop where
  nonneg : 0 ≤ u
  sin : Accurate (F := F) u FElem.sin Real.sin fun _ => True
  cos : Accurate (F := F) u FElem.cos Real.cos fun _ => True
  tan : Accurate (F := F) u FElem.tan Real.tan fun x => Real.cos x ≠ 0 ∧ |Real.tan x| < 2 ^ 1023
  asin : Accurate (F := F) u FElem.asin Real.arcsin fun x => -1 ≤ x ∧ x ≤ 1
  acos : Accurate (F := F) u FElem.acos Real.arccos fun x => -1 ≤ x ∧ x ≤ 1
  atan : Accurate (F := F) u FElem.atan Real.arctan fun _ => True
  ln : Accurate (F := F) u FElem.ln Real.log fun x => 0 < x
  /-- the nearest binary64 number -/
  sqrt : ∀ (a : F) (x : ℚ), Binary64.val a = some x → 0 ≤ x → ∃ y : ℚ, Binary64.val (FElem.sqrt a) = some y ∧
    ∀ z : ℚ, Representable z → |(y : ℝ) - Real.sqrt x| ≤ |(z : ℝ) - Real.sqrt x|
  pow_nat : ∀ (a b : F) (x : ℚ) (n : Nat), Binary64.val a = some x → Binary64.val b = some (n : ℚ) → |(x : ℝ) ^ n| < 2 ^ 1023 →
    ∃ y : ℚ, Binary64.val (powf a b) = some y ∧ |(y : ℝ) - x ^ n| ≤ libErr u |(x : ℝ) ^ n|
  pow_pos : ∀ (a b : F) (x y : ℚ), Binary64.val a = some x → Binary64.val b = some y → 0 < x → (x : ℝ) ^ (y : ℝ) < 2 ^ 1023 →
    ∃ z : ℚ, Binary64.val (powf a b) = some z ∧ |(z : ℝ) - (x : ℝ) ^ (y : ℝ)| ≤ libErr u ((x : ℝ) ^ (y : ℝ))
  /-- `x.powi(2)` is `x * x` -/
  square : ∀ (a : F) (x : ℚ), Binary64.val a = some x → |x * x| < Binary64.limit → Binary64.val (powi a 2) = some (F64.fl (x * x))
  /-- … also if `x * x` overflows or `x` is not finite -/
  square_none : ∀ a : F, Binary64.val (FArith.mul a a) = none → Binary64.val (powi a 2) = none
  /-- infinity and NaN have no finite square root -/
  sqrt_none : ∀ a : F, Binary64.val a = none → Binary64.val (FElem.sqrt a) = none
  /-- the step of derivatives, `10f64.powi(-n)` -/
  step : ∀ n : Nat, n ≤ 22 → ∃ y : ℚ, Binary64.val (powi (ofInt 10 : F) (-(n : Int))) = some y ∧
    |(y : ℝ) - 10 ^ (-(n : Int))| ≤ libErr u (10 ^ (-(n : Int)))
  /-- the number of slices of integrals, `10f64.powi(n)` -/
  slices : ∀ n : Nat, n ≤ 22 → ∃ y : ℚ, Binary64.val (powi (ofInt 10 : F) (n : Int)) = some y ∧ |(y : ℝ) - 10 ^ n| ≤ libErr u (10 ^ n)
  pi : ∃ y : ℚ, Binary64.val (FElem.pi : F) = some y ∧ |(y : ℝ) - Real.pi| ≤ libErr u Real.pi
  e : ∃ y : ℚ, Binary64.val (FElem.e : F) = some y ∧ |(y : ℝ) - Real.exp 1| ≤ libErr u (Real.exp 1)

/-! ## An instance -/

theorem representable_finite : {y : ℚ | Representable y}.Finite := by
  refine Set.Finite.subset (s := (fun p : Int × Int => (p.1 : ℚ) * 2 ^ p.2) '' (Set.Icc (-2 ^ 53) (2 ^ 53) ×ˢ Set.Icc (-1074) 971))
    (((Set.finite_Icc _ _).prod (Set.finite_Icc _ _)).image _) ?_
  rintro y ⟨m, e, h1, h2, h3, rfl⟩
  rw [abs_lt] at h1
  exact ⟨(m, e), ⟨⟨h1.1.le, h1.2.le⟩, ⟨h2, h3⟩⟩, rfl⟩

/-- Every real number has a nearest binary64 number. -/
theorem exists_nearest (r : ℝ) : ∃ y : ℚ, Representable y ∧ ∀ z : ℚ, Representable z → |(y : ℝ) - r| ≤ |(z : ℝ) - r| := by
  obtain ⟨y, h1, h2⟩ := Set.exists_min_image {y : ℚ | Representable y} (fun y => |(y : ℝ) - r|) representable_finite ⟨0, representable_zero⟩
  exact ⟨y, h1, h2⟩

/-- Its distance. -/
theorem nearest_error {r : ℝ} {y : ℚ} (h : ∀ z : ℚ, Representable z → |(y : ℝ) - r| ≤ |(z : ℝ) - r|) (hr : |r| < overflow) :
    |(y : ℝ) - r| ≤ roundErr |r| := by
  by_contra hlt
  rw [not_le] at hlt
  obtain ⟨ε, hε⟩ : ∃ ε, ε = |(y : ℝ) - r| - roundErr |r| := ⟨_, rfl⟩
  have hpos : 0 < ε := by linarith
  obtain ⟨q, hq1, hq2⟩ := exists_rat_btwn (show r < r + min (ε / 4) (overflow - |r|) by
    have := lt_min (show 0 < ε / 4 by linarith) (show 0 < overflow - |r| by linarith)
    linarith)
  have hq3 : |(q : ℝ) - r| < ε / 4 := by
    rw [abs_of_pos (by linarith)]
    linarith [min_le_left (ε / 4) (overflow - |r|)]
  have hq4 : |(q : ℝ)| < overflow := by
    have h1 : |(q : ℝ) - r| < overflow - |r| := by
      rw [abs_of_pos (by linarith)]
      linarith [min_le_right (ε / 4) (overflow - |r|)]
    calc |(q : ℝ)| = |((q : ℝ) - r) + r| := by ring_nf
      _ ≤ |(q : ℝ) - r| + |r| := abs_add_le _ _
      _ < _ := by linarith
  have h1 := h _ (F64.representable_fl (F64.fl_no_overflow (lt_limit_of_real hq4)))
  have h2 := fl_error_real q
  have h3 : roundErr |(q : ℝ)| ≤ roundErr |r| + ε / 4 := by
    have h4 : |(q : ℝ)| ≤ |r| + ε / 4 := by
      calc |(q : ℝ)| = |((q : ℝ) - r) + r| := by ring_nf
        _ ≤ |(q : ℝ) - r| + |r| := abs_add_le _ _
        _ ≤ _ := by linarith
    refine (roundErr_mono h4).trans ?_
    unfold roundErr
    rw [max_le_iff]
    constructor
    · rw [add_div]
      have : ε / 4 / 2 ^ 53 ≤ ε / 4 := div_le_self (by linarith) (by norm_num)
      linarith [le_max_left (|r| / 2 ^ 53) ((1 : ℝ) / 2 ^ 1075)]
    · linarith [le_max_right (|r| / 2 ^ 53) ((1 : ℝ) / 2 ^ 1075)]
  have h5 : |((F64.fl q : ℚ) : ℝ) - r| ≤ |((F64.fl q : ℚ) : ℝ) - q| + |(q : ℝ) - r| := by
    calc |((F64.fl q : ℚ) : ℝ) - r| = |(((F64.fl q : ℚ) : ℝ) - q) + (q - r)| := by ring_nf
      _ ≤ _ := abs_add_le _ _
  linarith

namespace Double

/-- The nearest binary64 number. -/
noncomputable def ofReal (r : ℝ) : Double :=
  ⟨⟨.fin (exists_nearest r).choose⟩, by
    rintro x h
    obtain rfl : (exists_nearest r).choose = x := by simpa [Ext.value] using h
    exact (exists_nearest r).choose_spec.1⟩

/-- A function, computed exactly and rounded. -/
noncomputable def lift (g : ℝ → ℝ) (a : Double) : Double :=
  match Binary64.val a with
  | some x => ofReal (g x)
  | none => nan

open Classical in
noncomputable instance : FElem Double where
  powf a b :=
    match Binary64.val a, Binary64.val b with
    | some x, some y => if h : ∃ n : Nat, y = n then ofReal ((x : ℝ) ^ h.choose) else ofReal ((x : ℝ) ^ (y : ℝ))
    | _, _ => nan
  sqrt := lift Real.sqrt
  sin := lift Real.sin
  cos := lift Real.cos
  tan := lift Real.tan
  asin := lift Real.arcsin
  acos := lift Real.arccos
  atan := lift Real.arctan
  ln := lift Real.log
  pi := ofReal Real.pi
  e := ofReal (Real.exp 1)

instance : FText Double where
  display a := FText.display a.bits
  displayExp a := FText.displayExp a.bits

noncomputable instance : FNum Double where

theorem val_ofReal {r : ℝ} (hr : |r| < overflow) : ∃ y : ℚ, Binary64.val (ofReal r) = some y ∧ |(y : ℝ) - r| ≤ libErr (1 / 2 ^ 53) |r| := by
  refine ⟨_, rfl, (nearest_error (exists_nearest r).choose_spec.2 hr).trans ?_⟩
  unfold roundErr libErr
  have h0 := abs_nonneg r
  have h1 : (1 : ℝ) / 2 ^ 1075 ≤ 1 / 2 ^ 1074 := one_div_le_one_div_of_le (by positivity) (pow_le_pow_right₀ (by norm_num) (by norm_num))
  have h2 : (0 : ℝ) < 1 / 2 ^ 1074 := by positivity
  have h3 : (0 : ℝ) ≤ 1 / 2 ^ 53 * |r| := by positivity
  rw [max_le_iff]
  exact ⟨by rw [div_eq_mul_one_div, mul_comm]; linarith, by linarith⟩

theorem small {r : ℝ} (h : |r| < 2 ^ 1023) : |r| < overflow := by
  refine h.trans ?_
  unfold overflow
  have h1 : (2 : ℝ) ^ 970 < 2 ^ 1023 := pow_lt_pow_right₀ (by norm_num) (by norm_num)
  have h2 : (2 : ℝ) ^ 1024 = 2 ^ 1023 + 2 ^ 1023 := by rw [pow_succ, mul_two]
  rw [h2]
  exact lt_sub_iff_add_lt.2 (add_lt_add_right h1 _)

theorem tiny {r : ℝ} (h : |r| ≤ 2000) : |r| < 2 ^ 1023 := by
  refine lt_of_le_of_lt h ?_
  calc (2000 : ℝ) < 2 ^ 11 := by norm_num
    _ ≤ 2 ^ 1023 := pow_le_pow_right₀ (by norm_num) (by norm_num)

theorem accurate_lift {g : ℝ → ℝ} {D : ℝ → Prop} (h : ∀ x : ℚ, Representable x → D x → |g x| < 2 ^ 1023) :
    Accurate (1 / 2 ^ 53) (lift g) g D := by
  intro a x hx hD
  unfold lift
  rw [hx]
  exact val_ofReal (small (h x (Binary64.rep hx) hD))

theorem log_bound {x : ℚ} (h : Representable x) (hx : 0 < (x : ℝ)) : |Real.log x| ≤ 2000 := by
  obtain ⟨n, hn⟩ := F64.representable_multiple h
  have hq : 0 < x := by exact_mod_cast hx
  have hn0 : 0 < n := by
    by_contra hle
    have : (n : ℚ) ≤ 0 := by exact_mod_cast not_lt.1 hle
    have := mul_nonpos_of_nonpos_of_nonneg this (F64.pow2_pos (-1074)).le
    linarith
  have h1 : (F64.pow2 (-1074)) ≤ x := by
    rw [hn]
    have : (1 : ℚ) ≤ n := by exact_mod_cast hn0
    exact le_mul_of_one_le_left (F64.pow2_pos _).le this
  have h2 : ((2 : ℝ) ^ 1074)⁻¹ ≤ (x : ℝ) := by
    rw [F64.pow2_eq, zpow_neg, show (1074 : Int) = (1074 : Nat) by rfl, zpow_natCast] at h1
    have h1' := (Rat.cast_le (K := ℝ)).2 h1
    push_cast at h1'
    exact h1'
  have h3 := lt_of_lt_of_le (rep_lt_limit h) (show Binary64.limit ≤ 2 ^ 1024 by unfold Binary64.limit; exact sub_le_self _ (by positivity))
  have h4 : (x : ℝ) ≤ 2 ^ 1024 := by
    rw [abs_of_pos hq] at h3
    exact_mod_cast h3.le
  have hl2 : Real.log 2 ≤ 1 := by
    have := Real.log_le_sub_one_of_pos (show (0 : ℝ) < 2 by norm_num)
    linarith
  have hl0 : 0 < Real.log 2 := Real.log_pos (by norm_num)
  rw [abs_le]
  constructor
  · have := Real.log_le_log (by positivity) h2
    rw [Real.log_inv, Real.log_pow] at this
    push_cast at this
    linarith
  · have := Real.log_le_log hx h4
    rw [Real.log_pow] at this
    push_cast at this
    linarith

theorem rnd_one_mul (a : F64) (ha : ∀ x, a.ext.value = some x → Representable x) {x : ℚ} (hx : a.ext.value = some x) :
    (F64.rnd (Ext.mul (.fin 1) a.ext)).ext.value = some x := by
  have h1 : (Ext.mul (.fin 1) a.ext).value = some (1 * x) := Exact.val_mul (F := Ext ℚ) (a := .fin 1) (b := a.ext) rfl hx
  rw [one_mul] at h1
  rw [Binary64.val_rnd h1 (rep_lt_limit (ha x hx)), F64.fl_representable (ha x hx)]

/-- Check of the step of derivatives. -/
def stepCheck (n : Nat) : Bool :=
  match (F64.powi (F64.rnd (.fin (10 : ℚ))) (-(n : Int))).ext with
  | .fin y => decide (|y - 1 / 10 ^ n| ≤ 1 / 10 ^ n / 2 ^ 53)
  | _ => false

theorem step_check : ∀ n < 23, stepCheck n = true := by decide +kernel

/-- Check of the number of slices of integrals. -/
def slicesCheck (n : Nat) : Bool := decide ((F64.powi (F64.rnd (.fin (10 : ℚ))) (n : Int)).ext = .fin (10 ^ n))

theorem slices_check : ∀ n < 23, slicesCheck n = true := by decide +kernel

instance : Libm Double (1 / 2 ^ 53) where
  nonneg := by positivity
  sin := accurate_lift fun x _ _ => tiny ((Real.abs_sin_le_one _).trans (by norm_num))
  cos := accurate_lift fun x _ _ => tiny ((Real.abs_cos_le_one _).trans (by norm_num))
  tan := accurate_lift fun x _ h => h.2
  asin := accurate_lift fun x _ _ => tiny (by
    rw [abs_le]
    have := Real.neg_pi_div_two_le_arcsin x
    have := Real.arcsin_le_pi_div_two x
    have := Real.pi_le_four
    constructor <;> linarith)
  acos := accurate_lift fun x _ _ => tiny (by
    rw [abs_le]
    have := Real.arccos_nonneg x
    have := Real.arccos_le_pi x
    have := Real.pi_le_four
    constructor <;> linarith)
  atan := accurate_lift fun x _ _ => tiny (by
    rw [abs_le]
    have := Real.neg_pi_div_two_lt_arctan x
    have := Real.arctan_lt_pi_div_two x
    have := Real.pi_le_four
    constructor <;> linarith)
  ln := accurate_lift fun x h hx => tiny (log_bound h hx)
  sqrt a x hx _ := by
    refine ⟨(exists_nearest (Real.sqrt x)).choose, ?_, (exists_nearest (Real.sqrt x)).choose_spec.2⟩
    show Binary64.val (lift Real.sqrt a) = _
    unfold lift
    rw [hx]
    rfl
  pow_nat a b x n ha hb h := by
    simp only [powf, ha, hb]
    have hex : ∃ m : Nat, (n : ℚ) = m := ⟨n, rfl⟩
    rw [dif_pos hex]
    have : hex.choose = n := by exact_mod_cast hex.choose_spec.symm
    rw [this]
    exact val_ofReal (small h)
  pow_pos a b x y ha hb hx h := by
    simp only [powf, ha, hb]
    have hpos : 0 < (x : ℝ) ^ (y : ℝ) := Real.rpow_pos_of_pos (by exact_mod_cast hx) _
    split
    · next hex =>
      have e : (x : ℝ) ^ (y : ℝ) = (x : ℝ) ^ hex.choose := by
        conv_lhs => rw [hex.choose_spec]
        push_cast
        rw [Real.rpow_natCast]
      have := val_ofReal (r := (x : ℝ) ^ hex.choose) (small (by rwa [← e, abs_of_pos hpos]))
      rw [← e, abs_of_pos hpos] at this
      rwa [← e]
    · have := val_ofReal (r := (x : ℝ) ^ (y : ℝ)) (small (by rwa [abs_of_pos hpos]))
      rwa [abs_of_pos hpos] at this
  square a x hx h := by
    have h1 : (F64.rnd (Ext.mul a.bits.ext a.bits.ext)).ext.value = some (F64.fl (x * x)) :=
      Binary64.val_rnd (Exact.val_mul (F := Ext ℚ) hx hx) h
    show (F64.powi a.bits 2).ext.value = _
    exact rnd_one_mul _ (rep_rnd _) h1
  square_none a h := by
    have h : (F64.rnd (Ext.mul a.bits.ext a.bits.ext)).ext.value = none := h
    show (F64.rnd (Ext.mul (.fin 1) (F64.rnd (Ext.mul a.bits.ext a.bits.ext)).ext)).ext.value = none
    generalize (F64.rnd (Ext.mul a.bits.ext a.bits.ext)).ext = x at *
    cases x with
    | fin q => cases h
    | negZero => cases h
    | nan => rfl
    | inf b => cases b <;> rfl
  sqrt_none a h := by
    show Binary64.val (lift Real.sqrt a) = _
    unfold lift
    rw [h]
    rfl
  slices n hn := by
    have h : (F64.powi (F64.rnd (.fin (10 : ℚ))) (n : Int)).ext = .fin (10 ^ n) := of_decide_eq_true (slices_check n (by omega))
    refine ⟨10 ^ n, by show (F64.powi (F64.rnd (.fin ((10 : Int) : ℚ))) (n : Int)).ext.value = some _; rw [Int.cast_ofNat, h]; rfl, ?_⟩
    push_cast
    rw [sub_self, abs_zero]
    unfold libErr
    positivity
  step n hn := by
    have h := step_check n (by omega)
    unfold stepCheck at h
    split at h
    · next y hy =>
      refine ⟨y, by show (F64.powi (F64.rnd (.fin ((10 : Int) : ℚ))) (-(n : Int))).ext.value = some y; rw [Int.cast_ofNat, hy]; rfl, ?_⟩
      have h2 : |y - 1 / 10 ^ n| ≤ 1 / 10 ^ n / 2 ^ 53 := of_decide_eq_true h
      have h3 : |(y : ℝ) - 1 / 10 ^ n| ≤ 1 / 10 ^ n / 2 ^ 53 := by
        have h2' := (Rat.cast_le (K := ℝ)).2 h2
        push_cast at h2'
        exact h2'
      rw [zpow_neg, zpow_natCast, ← one_div]
      refine h3.trans ?_
      unfold libErr
      have : (0 : ℝ) < 1 / 2 ^ 1074 := by positivity
      rw [div_eq_mul_one_div (1 / (10 : ℝ) ^ n) (2 ^ 53), mul_comm]
      linarith
    · exact absurd h (by simp)
  pi := by
    have := val_ofReal (r := Real.pi) (small (tiny (by rw [abs_of_pos Real.pi_pos]; linarith [Real.pi_le_four])))
    rwa [abs_of_pos Real.pi_pos] at this
  e := by
    have := val_ofReal (r := Real.exp 1) (small (tiny (by rw [abs_of_pos (Real.exp_pos _)]; linarith [Real.exp_one_lt_d9])))
    rwa [abs_of_pos (Real.exp_pos _)] at this

end Double
end MUL
