import Verif.Proofs.FloatDeriv
import Verif.Props.Rounding
/-!
# C69, C70: derivatives in binary64 arithmetic
-/

set_option linter.unusedSectionVars false

namespace MUL
open Out Spec FArith

section
variable {F : Type} [FNum F] [Binary64 F] {u : ℝ} [Libm F u] [UTable]

omit [UTable] in
/-- The step is close to `10^-PREC`. -/
theorem step_bounds (cfg : Cfg) (hu : u ≤ 1 / 2 ^ 20) (hprec : cfg.prec ≤ 22) :
    ∃ h : ℚ, Binary64.val (stepH F cfg) = some h ∧ |(h : ℝ) - 10 ^ (-(cfg.prec : Int))| ≤ 10 ^ (-(cfg.prec : Int)) / 2 ^ 19 := by
  obtain ⟨y, h1, h2⟩ := Libm.step (F := F) (u := u) cfg.prec hprec
  refine ⟨y, h1, h2.trans ?_⟩
  unfold libErr
  have h3 : (10 : ℝ) ^ (-(22 : Int)) ≤ 10 ^ (-(cfg.prec : Int)) := zpow_le_zpow_right₀ (by norm_num) (by omega)
  have h4 : (1 : ℝ) / 2 ^ 1074 ≤ 1 / 2 ^ 100 := one_div_le_one_div_of_le (by positivity) (pow_le_pow_right₀ (by norm_num) (by norm_num))
  have h5 : (1 : ℝ) / 2 ^ 100 ≤ 10 ^ (-(22 : Int)) / 2 ^ 20 := by norm_num
  have h6 := zpow_pos (show (0 : ℝ) < 10 by norm_num) (-(cfg.prec : Int))
  have h7 := mul_le_mul_of_nonneg_right hu h6.le
  have h8 : (10 : ℝ) ^ (-(22 : Int)) / 2 ^ 20 ≤ 10 ^ (-(cfg.prec : Int)) / 2 ^ 20 := by gcongr
  linarith

omit [Libm F u] [UTable] in
/-- `(a - a) / h` is zero. -/
theorem self_quotient {a h : F} {x y : ℚ} (ha : Binary64.val a = some x) (hh : Binary64.val h = some y) (hy : y ≠ 0) :
    ∃ c, diffQuotient h (.scalar a) (.scalar a) = .ok (.scalar c) ∧ Binary64.val c = some 0 := by
  obtain ⟨_, h2, _, _⟩ := C67_operations ha ha
  rw [sub_self, abs_zero] at h2
  obtain ⟨d, z, hd, hz, hn⟩ := h2 (by
    have : (2 : ℚ) ^ 970 < 2 ^ 1024 := pow_lt_pow_right₀ (by norm_num) (by norm_num)
    exact sub_pos.2 this)
  obtain rfl : z = 0 := by
    have := hn.2 0 representable_zero
    simpa using this
  refine ⟨FArith.div d h, ?_, ?_⟩
  · unfold diffQuotient
    rw [hd]
    rfl
  · have := Binary64.val_div hz hh hy (by
      rw [zero_div, abs_zero]
      have : (2 : ℚ) ^ 970 < 2 ^ 1024 := pow_lt_pow_right₀ (by norm_num) (by norm_num)
      exact sub_pos.2 this)
    rwa [zero_div, F64.fl_zero] at this

include u in
/-- **C69.** If the point `a` is a number of size at least `2^55 * 10^-PREC`, then `D(e,x,a)` is `0` for every expression whose results at
this point are finite numbers. -/
theorem C69_far (cfg : Cfg) (hu : u ≤ 1 / 2 ^ 20) (hprec : cfg.prec ≤ 22) (e a : Ex) (x : Str) (hwf : (Ex.deriv e x a).WF) (ctx : Context F)
    (s : F) (q : ℚ) (hs : Finishes (fun n => eval cfg n (a.tree cfg) ctx) (.ok [.scalar s])) (hq : Binary64.val s = some q)
    (hfar : 2 ^ 55 * 10 ^ (-(cfg.prec : Int)) ≤ |(q : ℝ)|) (ys : List F)
    (hy : Finishes (fun n => eval cfg n (e.tree cfg) (setVar ctx x s)) (.ok (ys.map .scalar)))
    (hfin : ∀ y ∈ ys, ∃ z, Binary64.val y = some z) :
    ∃ zs : List F, zs.length = ys.length ∧ (∀ z ∈ zs, Binary64.val z = some 0) ∧
      Finishes (fun n => quickEval cfg n (Ex.deriv e x a).text ctx) (.ok (zs.map .scalar)) := by
  obtain ⟨h, h1, h2⟩ := step_bounds (F := F) (u := u) cfg hu hprec
  have hp := zpow_pos (show (0 : ℝ) < 10 by norm_num) (-(cfg.prec : Int))
  have h3 := abs_le.1 h2
  have hpos : 0 < (h : ℝ) := by
    have : (10 : ℝ) ^ (-(cfg.prec : Int)) / 2 ^ 19 < 10 ^ (-(cfg.prec : Int)) := div_lt_self hp (by norm_num)
    linarith
  have hpos' : 0 < h := by exact_mod_cast hpos
  have hlt : (h : ℝ) < 2 * 10 ^ (-(cfg.prec : Int)) := by
    have : (10 : ℝ) ^ (-(cfg.prec : Int)) / 2 ^ 19 < 10 ^ (-(cfg.prec : Int)) := div_lt_self hp (by norm_num)
    linarith
  have hlt' : 2 ^ 54 * h < |q| := by
    have : (2 : ℝ) ^ 54 * h < |(q : ℝ)| := by
      refine lt_of_lt_of_le ?_ hfar
      linarith
    exact_mod_cast this
  have hrep := Binary64.rep hq
  have hlim : |q + h| < Binary64.limit := by
    obtain ⟨m, k, hm, _, hk, hq'⟩ := hrep
    rw [← F64.pow2_eq] at hq'
    have hp1 : (h : ℝ) < 2 ^ 970 := by
      refine hlt.trans_le ?_
      have : (10 : ℝ) ^ (-(cfg.prec : Int)) ≤ 10 ^ (0 : Int) := zpow_le_zpow_right₀ (by norm_num) (by omega)
      rw [zpow_zero] at this
      have h9 : (2 : ℝ) ^ 1 ≤ 2 ^ 970 := pow_le_pow_right₀ (by norm_num) (by norm_num)
      refine le_trans ?_ h9
      linarith
    have hp2 : h < 2 ^ 970 := by
      have : (h : ℝ) < ((2 ^ 970 : ℚ) : ℝ) := by
        push_cast
        exact hp1
      exact_mod_cast this
    have h4 : |(m : ℚ)| ≤ 2 ^ 53 - 1 := by
      have : |m| ≤ 2 ^ 53 - 1 := by omega
      exact_mod_cast this
    have h5 := F64.pow2_mono hk
    rw [show (971 : Int) = (971 : Nat) by rfl, F64.pow2_natCast] at h5
    have h6 : |q| ≤ 2 ^ 1024 - 2 ^ 971 := by
      calc |q| = |(m : ℚ)| * F64.pow2 k := by rw [hq', abs_mul, abs_of_pos (F64.pow2_pos k)]
        _ ≤ (2 ^ 53 - 1) * 2 ^ 971 := mul_le_mul h4 h5 (F64.pow2_pos k).le (by norm_num)
        _ = 2 ^ 1024 - 2 ^ 971 := by rw [sub_mul, one_mul, ← pow_add]
    have h7 : |q + h| ≤ |q| + h := (abs_add_le _ _).trans (by rw [abs_of_pos hpos'])
    have h8 : (2 : ℚ) ^ 971 = 2 ^ 970 + 2 ^ 970 := by rw [pow_succ, mul_two]
    rw [h8] at h6
    unfold Binary64.limit
    generalize (2 : ℚ) ^ 970 = A at *
    generalize (2 : ℚ) ^ 1024 = B at *
    linarith
  have hq0 : q ≠ 0 := by
    rintro rfl
    rw [abs_zero] at hlt'
    linarith
  have hsame : add s (stepH F cfg) = s := by
    refine eq_of_val ?_ hq hq0
    rw [Binary64.val_add hq h1 hlim, fl_absorb hrep hpos'.le hlt' hlim]
  have hz : ∃ zs : List F, zs.length = ys.length ∧ (∀ z ∈ zs, Binary64.val z = some 0) ∧
      List.Forall₂ (fun p v => diffQuotient (stepH F cfg) p.1 p.2 = .ok v)
        ((ys.map (Value.scalar : F → Value F)).zip (ys.map .scalar)) (zs.map .scalar) := by
    clear hy
    induction ys with
    | nil => exact ⟨[], rfl, by simp, .nil⟩
    | cons y ys ih =>
      obtain ⟨zs, i1, i2, i3⟩ := ih fun y hy => hfin y (by simp [hy])
      obtain ⟨w, hw⟩ := hfin y (by simp)
      obtain ⟨c, c1, c2⟩ := self_quotient hw h1 hpos'.ne'
      refine ⟨c :: zs, by simp [i1], ?_, .cons c1 i3⟩
      simpa using ⟨c2, i2⟩
  obtain ⟨zs, z1, z2, z3⟩ := hz
  refine ⟨zs, z1, z2, ?_⟩
  refine ((C29_eval cfg _ ctx (C09_parse_text (F := F) cfg _ hwf)).1 _).1 ?_
  have := C44_derivative cfg ctx x (e.tree cfg) (a.tree cfg) s _ _ _ hs hy (by rw [hsame]; exact hy) rfl z3
  simpa [Ex.tree] using this

omit [Libm F u] [UTable] in
theorem neg_one_val {b : F} {y : ℚ} (hb : Binary64.val b = some y) : Binary64.val (mul b (ofInt (-1))) = some (-y) := by
  have hr := representable_neg (Binary64.rep hb)
  have h2 := Binary64.val_mul hb (val_int (F := F) (n := -1) (by norm_num)) (by
    push_cast
    rw [mul_neg_one]
    exact rep_lt_limit hr)
  push_cast at h2
  rwa [mul_neg_one, F64.fl_representable hr] at h2

omit [UTable] in
theorem lt_overflow {x : ℝ} (h : x ≤ 2 ^ 1000) : x < overflow := by
  have h1 : |(2 : ℝ) ^ 1000| < 2 ^ 1023 := by
    rw [abs_of_pos (by positivity)]
    exact pow_lt_pow_right₀ (by norm_num) (by norm_num)
  have h2 := Double.small h1
  rw [abs_of_pos (by positivity)] at h2
  exact lt_of_le_of_lt h h2

include u in
/-- **C70.** Let `e`, at binary64 numbers within two steps of the point `p`, be computed to within `ε` of a function `f`, which differs
from its tangent of slope `d` at `p` by at most `C/2` times the square of the distance. Then `D(e,x,p)` is within
`3ε * 10^PREC + C * 10^-PREC + |d| (|p| * 10^PREC + 5) / 2^52 + 2^-1074` of `d`. -/
theorem C70_derivative (cfg : Cfg) (hu : u ≤ 1 / 2 ^ 20) (hprec : cfg.prec ≤ 22) (φ : Defs) (ρ : EnvR) (e a : Ex) (x : Str)
    (hwf : (Ex.deriv e x a).WF) (ctx : Context F) (hm : ModelsR cfg ctx ρ φ) (f : ℝ → ℝ) (p d C ε : ℝ)
    (ha : Rounds cfg u φ [] ρ a (.scalar ⟨p, 0⟩))
    (he : ∀ z, RepresentableR z → |z - p| ≤ 2 * 10 ^ (-(cfg.prec : Int)) →
      Rounds cfg u φ [] (ρ.set x (.scalar ⟨z, 0⟩)) e (.scalar ⟨f z, ε⟩))
    (hf : ∀ z, |z - p| ≤ 2 * 10 ^ (-(cfg.prec : Int)) → |f z - f p - d * (z - p)| ≤ C / 2 * (z - p) ^ 2)
    (hp : |p| ≤ 2 ^ 50 * 10 ^ (-(cfg.prec : Int))) (hd : |d| ≤ 2 ^ 900) (hC0 : 0 ≤ C) (hC : C ≤ 2 ^ 900) (hε : ε ≤ 2 ^ 900) :
    ∃ (v : F) (q : ℚ), Finishes (fun n => quickEval cfg n (Ex.deriv e x a).text ctx) (.ok [.scalar v]) ∧ Binary64.val v = some q ∧
      |(q : ℝ) - d| ≤ 3 * (ε / 10 ^ (-(cfg.prec : Int))) + C * 10 ^ (-(cfg.prec : Int)) +
        |d| * (|p| / 10 ^ (-(cfg.prec : Int)) + 5) / 2 ^ 52 + 1 / 2 ^ 1074 := by
  obtain ⟨h, h1, h2⟩ := step_bounds (F := F) (u := u) cfg hu hprec
  have hH := zpow_pos (show (0 : ℝ) < 10 by norm_num) (-(cfg.prec : Int))
  have hH1 : (10 : ℝ) ^ (-(cfg.prec : Int)) ≤ 1 := by
    have : (10 : ℝ) ^ (-(cfg.prec : Int)) ≤ 10 ^ (0 : Int) := zpow_le_zpow_right₀ (by norm_num) (by omega)
    rwa [zpow_zero] at this
  have hH2 : (10 : ℝ) ^ (-(22 : Int)) ≤ 10 ^ (-(cfg.prec : Int)) := zpow_le_zpow_right₀ (by norm_num) (by omega)
  have l := abs_le.1 h2
  generalize hHdef : (10 : ℝ) ^ (-(cfg.prec : Int)) = H at *
  have hpos : 0 < (h : ℝ) := by linarith [l.1]
  have hlt : (h : ℝ) ≤ 2 := by linarith [l.2]
  obtain ⟨sv, s1, s2⟩ := rounds_eval ha hm
  cases sv <;> simp only [NearV] at s2
  rename_i s
  obtain ⟨p', hs, hp'⟩ := s2
  have hpe := near_zero hp'
  simp only at hpe
  subst hpe
  -- the second point
  have hz0 : |((p' + h : ℚ) : ℝ)| < overflow := by
    refine lt_overflow ?_
    have : |((p' + h : ℚ) : ℝ)| ≤ |(p' : ℝ)| + h := by
      push_cast
      exact (abs_add_le _ _).trans (by rw [abs_of_pos hpos])
    calc |((p' + h : ℚ) : ℝ)| ≤ 2 ^ 51 := by linarith
      _ ≤ 2 ^ 1000 := pow_le_pow_right₀ (by norm_num) (by norm_num)
  have hz1 := lt_limit_of_real hz0
  have hzv := Binary64.val_add hs h1 hz1
  obtain ⟨i, hi⟩ := F64.representable_multiple (Binary64.rep hs)
  obtain ⟨j, hj⟩ := F64.representable_multiple (Binary64.rep h1)
  have hk := fl_error_real_multiple (x := p' + h) (i + j) (by rw [hi, hj]; push_cast; ring)
  have hzr : Representable (F64.fl (p' + h)) := F64.representable_fl (F64.fl_no_overflow hz1)
  generalize F64.fl (p' + h) = z at *
  have hk' : |((z : ℝ) - p') - h| ≤ (|(p' : ℝ)| + h) / 2 ^ 53 := by
    have e1 : (z : ℝ) - p' - h = z - ((p' + h : ℚ) : ℝ) := by push_cast; ring
    rw [e1]
    refine hk.trans ?_
    gcongr
    push_cast
    exact (abs_add_le _ _).trans (by rw [abs_of_pos hpos])
  have hz2 : |(z : ℝ) - p'| ≤ 2 * H := by
    have := abs_le.1 hk'
    rw [abs_le]
    constructor <;> linarith [l.1, l.2, this.1, this.2]
  -- the two values
  obtain ⟨y1, f1, n1⟩ := rounds_eval (F := F) (he p' ⟨p', Binary64.rep hs, rfl⟩ (by rw [sub_self, abs_zero]; linarith)) (hm.set x ⟨p', hs, by simp⟩)
  obtain ⟨y2, f2, n2⟩ := rounds_eval (F := F) (he z ⟨z, hzr, rfl⟩ hz2) (hm.set x ⟨z, hzv, by simp⟩)
  cases y1 <;> simp only [NearV] at n1
  cases y2 <;> simp only [NearV] at n2
  rename_i y1 y2
  obtain ⟨q1, v1, e1⟩ := n1
  obtain ⟨q2, v2, e2⟩ := n2
  simp only at e1 e2
  have hε0 : 0 ≤ ε := (abs_nonneg _).trans e1
  have hN : |((q2 - q1 : ℚ) : ℝ) - d * (z - p')| ≤ 2 * ε + C / 2 * ((z : ℝ) - p') ^ 2 := by
    have e : ((q2 - q1 : ℚ) : ℝ) - d * (z - p') = (q2 - f z) + (f p' - q1) + (f z - f p' - d * (z - p')) := by push_cast; ring
    rw [e]
    refine (abs_add_three _ _ _).trans ?_
    rw [abs_sub_comm (f p')]
    linarith [hf z hz2]
  obtain ⟨i1, hi1⟩ := F64.representable_multiple (Binary64.rep v1)
  obtain ⟨i2, hi2⟩ := F64.representable_multiple (Binary64.rep v2)
  have hNf := fl_error_real_multiple (x := q2 - q1) (i2 - i1) (by rw [hi1, hi2]; push_cast; ring)
  have b := quotient_bound (q := ((F64.fl (F64.fl (q2 - q1) / h) : ℚ) : ℝ)) hH h2 hk' hp hN hNf (by
    have := fl_error_real (F64.fl (q2 - q1) / h)
    unfold roundErr at this
    push_cast at this ⊢
    exact this) hC0 hε0
  have hdH : |d| * H ≤ 2 ^ 900 := by
    have := mul_le_mul hd hH1 hH.le (by positivity)
    rwa [mul_one] at this
  have hCH : C * H ^ 2 ≤ 2 ^ 900 := by
    have := mul_le_mul hC (pow_le_one₀ hH.le hH1 : H ^ 2 ≤ 1) (by positivity) (by positivity)
    rwa [mul_one] at this
  have hCH1 : C * H ≤ 2 ^ 900 := by
    have := mul_le_mul hC hH1 hH.le (by positivity)
    rwa [mul_one] at this
  have big : (2 : ℝ) ^ 1000 = 2 ^ 100 * 2 ^ 900 := by rw [← pow_add]
  have hbig : (0 : ℝ) < 2 ^ 900 := by positivity
  have hNlim : |q2 - q1| < Binary64.limit := by
    refine lt_limit_of_real (lt_overflow (b.2.1.trans ?_))
    rw [big]
    clear b
    generalize (2 : ℝ) ^ 900 = B at *
    linarith only [hdH, hε, hCH, hbig]
  have hQlim : |F64.fl (q2 - q1) / h| < Binary64.limit := by
    refine lt_limit_of_real (lt_overflow ?_)
    have t1 : |((F64.fl (q2 - q1) / h : ℚ) : ℝ)| ≤ |d| + |((F64.fl (q2 - q1) : ℚ) : ℝ) / h - d| := by
      push_cast
      calc _ = |d + (((F64.fl (q2 - q1) : ℚ) : ℝ) / h - d)| := by ring_nf
        _ ≤ _ := abs_add_le _ _
    refine t1.trans ((add_le_add le_rfl b.1).trans ?_)
    have t2 : ε / H ≤ 2 ^ 900 * 10 ^ 22 := by
      rw [div_le_iff₀ hH]
      have t3 : (1 : ℝ) ≤ 10 ^ 22 * H := by
        have : (10 : ℝ) ^ 22 * 10 ^ (-(22 : Int)) ≤ 10 ^ 22 * H := by gcongr
        have e5 : (10 : ℝ) ^ 22 * 10 ^ (-(22 : Int)) = 1 := by norm_num
        linarith
      calc ε ≤ 2 ^ 900 := hε
        _ ≤ 2 ^ 900 * (10 ^ 22 * H) := le_mul_of_one_le_right hbig.le t3
        _ = _ := by ring
    have t4 : |(p' : ℝ)| / H ≤ 2 ^ 50 := by rwa [div_le_iff₀ hH]
    have t5 : |d| * ((|(p' : ℝ)| / H + 3) / 2 ^ 53) ≤ 2 ^ 900 * 1 := by
      refine mul_le_mul hd ?_ (by positivity) hbig.le
      linarith
    rw [big]
    clear b
    generalize (2 : ℝ) ^ 900 = B at *
    linarith only [t2, t5, hd, hCH1, hbig]
  have vd := Binary64.val_add v2 (neg_one_val v1) (by rwa [← sub_eq_add_neg])
  rw [← sub_eq_add_neg] at vd
  have vq := Binary64.val_div vd h1 (by exact_mod_cast hpos.ne') hQlim
  refine ⟨_, _, ?_, vq, b.2.2⟩
  refine ((C29_eval cfg _ ctx (C09_parse_text (F := F) cfg _ hwf)).1 _).1 ?_
  have := C44_derivative cfg ctx x (e.tree cfg) (a.tree cfg) s [.scalar y1] [.scalar y2]
    [.scalar (div (add y2 (mul y1 (ofInt (-1)))) (stepH F cfg))] s1 f1 f2 rfl (.cons rfl .nil)
  simpa [Ex.tree] using this

/-! ## Examples -/

include u in
theorem whole_eval (cfg : Cfg) (ρ : Str → Option Ints) (e : Ex) (n : Int) (h : WholeEx ρ e (.scalar n)) (ctx : Context F) (hd : NoDupVars ctx)
    (hρ : ∀ x m, ρ x = some m → ∃ v, ctx.findVar x = some [v] ∧ Stores v m) :
    ∃ a : F, Finishes (fun k => eval cfg k (e.tree cfg) ctx) (.ok [.scalar a]) ∧ Binary64.val a = some (n : ℚ) := by
  obtain ⟨v, h1, h2⟩ := rounds_eval (F := F) (u := u) (whole_rounds (cfg := cfg) (u := u) (φ := fun _ => none) (cur := []) h) (ctx := ctx)
    ⟨hd, by
      intro x o hx
      obtain ⟨m, hm, rfl⟩ := Option.map_eq_some_iff.1 hx
      obtain ⟨v, hv1, hv2⟩ := hρ x m hm
      exact ⟨v, hv1, near_toR.2 hv2⟩, nofun⟩
  have h3 := near_toR.1 h2
  cases v <;> simp only [Stores] at h3
  exact ⟨_, h1, h3⟩

include u in
/-- The derivative of `3*x` at one billion is `0` (default precision). -/
example (cfg : Cfg) (hcfg : cfg.prec = 8) (hu : u ≤ 1 / 2 ^ 20) : ∃ a : F,
    Finishes (fun n => quickEval cfg n "D(3*x,x,1000000000)".toList (⟨[], []⟩ : Context F)) (.ok [.scalar a]) ∧ Binary64.val a = some 0 := by
  have hnum : ∀ (ρ : Str → Option Ints) (s : String) (n : Nat), digitsNumber s.toList = n → Fits n → WholeEx ρ (.num s.toList none) (.scalar n) := by
    intro ρ s n h1 h2
    have := WholeEx.num (ρ := ρ) s.toList
    rw [h1] at this
    exact this h2
  obtain ⟨s, s1, s2⟩ := whole_eval (F := F) (u := u) cfg (fun _ => none) _ _
    (hnum _ "1000000000" 1000000000 (by decide) (by unfold Fits; decide)) ⟨[], []⟩ (by simp [NoDupVars]) nofun
  obtain ⟨y, y1, y2⟩ := whole_eval (F := F) (u := u) cfg (fun n => if n = "x".toList then some (.scalar 1000000000) else none)
    (.bin .mult (.num "3".toList none) (.var "x".toList)) 3000000000
    (.mult _ _ 3 1000000000 (hnum _ "3" 3 (by decide) (by unfold Fits; decide)) (.var _ _ (by simp)) (by unfold Fits; decide))
    (setVar ⟨[], []⟩ "x".toList s) (by simp [NoDupVars, setVar, Context.addVar]) (by
      intro x m hx
      split at hx
      · next h =>
        subst h
        cases hx
        refine ⟨.scalar s, by simp [setVar, Context.addVar, Context.findVar], ?_⟩
        simpa [Stores] using s2
      · cases hx)
  obtain ⟨zs, z1, z2, z3⟩ := C69_far (F := F) (u := u) cfg hu (by omega) (.bin .mult (.num "3".toList none) (.var "x".toList))
    (.num "1000000000".toList none) "x".toList
    ⟨⟨wf_num (s := "3") (by decide), wf_name (n := "x") (by decide), by decide, by decide, nofun⟩, nameShape_letters (by decide) (by decide),
      wf_num (s := "1000000000") (by decide)⟩ ⟨[], []⟩ s 1000000000 s1 (by simpa using s2) (by rw [hcfg]; norm_num) [y] y1 (by
      intro w hw
      obtain rfl : w = y := by simpa using hw
      exact ⟨_, y2⟩)
  match zs, z1 with
  | [z], _ => exact ⟨z, z3, z2 z (by simp)⟩

include u in
/-- The derivative of `x*x` at `1` is within `10^-6` of `2` (default precision). -/
example (cfg : Cfg) (hcfg : cfg.prec = 8) (hu : u ≤ 1 / 2 ^ 20) : ∃ (a : F) (q : ℚ),
    Finishes (fun n => quickEval cfg n "D(x*x,x,1)".toList (⟨[], []⟩ : Context F)) (.ok [.scalar a]) ∧ Binary64.val a = some q ∧
      |(q : ℝ) - 2| ≤ 1 / 10 ^ 6 := by
  have h8 : (10 : ℝ) ^ (-(cfg.prec : Int)) = 1 / 10 ^ 8 := by rw [hcfg]; norm_num
  have one : Rounds cfg u (fun _ => none) [] (fun _ => none) (.num "1".toList none) (.scalar ⟨1, 0⟩) := by
    have := whole_rounds (cfg := cfg) (u := u) (φ := fun _ => none) (cur := []) (ρ := fun _ => none)
      (WholeEx.num "1".toList (by unfold Fits; decide))
    have e : digitsNumber "1".toList = 1 := by decide
    rw [e] at this
    simpa [Ints.toR, exactR] using this
  obtain ⟨v, q, h1, h2, h3⟩ := C70_derivative (F := F) (u := u) cfg hu (by omega) (fun _ => none) (fun _ => none)
    (.bin .mult (.var "x".toList) (.var "x".toList)) (.num "1".toList none) "x".toList
    ⟨⟨wf_name (n := "x") (by decide), wf_name (n := "x") (by decide), by decide, by decide, nofun⟩, nameShape_letters (by decide) (by decide),
      wf_num (s := "1") (by decide)⟩ ⟨[], []⟩ ⟨by simp [NoDupVars], nofun, nofun⟩ (fun z => z * z) 1 2 2 (1 / 2 ^ 52) one
    (by
      intro z _ hz
      have hz' : |z - 1| ≤ 1 / 10 ^ 7 := hz.trans (by rw [h8]; norm_num)
      have hzz := abs_le.1 hz'
      have hsq : |z * z| ≤ 2 := by
        rw [abs_of_nonneg (mul_self_nonneg z)]
        nlinarith
      have hv : Rounds cfg u (fun _ => none) [] (EnvR.set (fun _ => none) "x".toList (.scalar ⟨z, 0⟩)) (.var "x".toList) (.scalar ⟨z, 0⟩) :=
        .var _ _ (by simp [EnvR.set])
      refine .weaken _ _ _ (.bin .mult _ _ _ _ _ hv hv (.mult (.scalar (.rounded z 0 z 0 ?_)))) (.scalar ?_)
      · simp only [prodErr, mul_zero, zero_mul, add_zero]
        refine lt_overflow (hsq.trans ?_)
        calc (2 : ℝ) = 2 ^ 1 := by norm_num
          _ ≤ 2 ^ 1000 := pow_le_pow_right₀ (by norm_num) (by norm_num)
      · simp only [prodErr, mul_zero, zero_mul, add_zero, zero_add]
        unfold roundErr
        exact max_le (by linarith) (one_div_le_one_div_of_le (by positivity) (pow_le_pow_right₀ (by norm_num) (by norm_num))))
    (by
      intro z _
      have e : z * z - 1 * 1 - 2 * (z - 1) = (z - 1) ^ 2 := by ring
      rw [e, abs_of_nonneg (sq_nonneg _)]
      linarith)
    (by rw [h8]; norm_num) (by
      rw [abs_of_pos (by norm_num)]
      calc (2 : ℝ) = 2 ^ 1 := by norm_num
        _ ≤ 2 ^ 900 := pow_le_pow_right₀ (by norm_num) (by norm_num)) (by norm_num) (by
      calc (2 : ℝ) = 2 ^ 1 := by norm_num
        _ ≤ 2 ^ 900 := pow_le_pow_right₀ (by norm_num) (by norm_num)) (by
      have h0 : (1 : ℝ) ≤ 2 ^ 900 := one_le_pow₀ (by norm_num)
      exact le_trans (by norm_num) h0)
  refine ⟨v, q, h1, h2, h3.trans ?_⟩
  rw [h8]
  have h4 : (1 : ℝ) / 2 ^ 1074 ≤ 1 / 2 ^ 100 := one_div_le_one_div_of_le (by positivity) (pow_le_pow_right₀ (by norm_num) (by norm_num))
  refine (add_le_add le_rfl h4).trans ?_
  rw [abs_of_pos (by norm_num), abs_of_pos (by norm_num)]
  norm_num

end
end MUL
