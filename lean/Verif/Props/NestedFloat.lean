import Verif.Props.FloatDeriv
import Verif.Proofs.FloatLinear
/-!
# C92: a derivative of a derivative in binary64 arithmetic

The second difference quotient divides differences of values of the formula by `10^-16`. Binary64 numbers of size at least `1` are multiples of
`2^-52`, so that such a quotient is a multiple of `2^-52 * 10^16 = 2.22...`, up to small errors: it cannot be near `2`.
-/

set_option linter.unusedSectionVars false

namespace MUL
open Out Spec FArith

theorem small_limit {x : ℚ} (h : |x| ≤ 2 ^ 100) : |x| < Binary64.limit := by
  refine lt_limit_1000 (h.trans ?_)
  have : (2 : ℚ) ^ 100 ≤ 2 ^ 1000 := pow_le_pow_right₀ (by norm_num) (by norm_num)
  refine this.trans (le_mul_of_one_le_left (by positivity) (by norm_num))

theorem one_representable : Representable 1 := ⟨1, 0, by norm_num, by norm_num, by norm_num, by norm_num⟩

/-- Binary64 numbers of size at least `1` are multiples of `2^-52`. -/
theorem grid_of_large {x : ℚ} (h : Representable x) (hx : 1 ≤ |x|) : ∃ n : Int, x = n / 2 ^ 52 := by
  obtain ⟨m, e, hm, _, _, rfl⟩ := h
  have he : -52 ≤ e := by
    by_contra hlt
    rw [abs_mul, abs_of_pos (zpow_pos (by norm_num) e : (0 : ℚ) < 2 ^ e)] at hx
    have h1 : (2 : ℚ) ^ e ≤ 2 ^ (-53 : Int) := zpow_le_zpow_right₀ (by norm_num) (by omega)
    have h2 : |(m : ℚ)| < 2 ^ 53 := by exact_mod_cast hm
    have h3 : (0 : ℚ) < 2 ^ e := zpow_pos (by norm_num) e
    have h4 : |(m : ℚ)| * 2 ^ e < 2 ^ 53 * 2 ^ (-53 : Int) :=
      lt_of_lt_of_le (mul_lt_mul_of_pos_right h2 h3) (mul_le_mul_of_nonneg_left h1 (by positivity))
    have h5 : (2 : ℚ) ^ 53 * 2 ^ (-53 : Int) = 1 := by norm_num
    linarith
  refine ⟨m * 2 ^ (e + 52).toNat, ?_⟩
  push_cast
  rw [← zpow_natCast (2 : ℚ) (e + 52).toNat, Int.toNat_of_nonneg (by omega), zpow_add₀ (by norm_num)]
  norm_num
  ring

/-- Small multiples of `2^-52` are binary64 numbers. -/
theorem grid_representable {n : Int} (h : |(n : ℚ) / 2 ^ 52| ≤ 1) : Representable ((n : ℚ) / 2 ^ 52) := by
  refine ⟨n, -52, ?_, by norm_num, by norm_num, by norm_num; ring⟩
  rw [abs_div, abs_of_pos (by positivity : (0 : ℚ) < 2 ^ 52), div_le_one (by positivity)] at h
  have : |n| ≤ 2 ^ 52 := by exact_mod_cast h
  exact lt_of_le_of_lt this (by norm_num)

theorem fl_one_le {x : ℚ} (h : 1 ≤ x) (hx : x ≤ 2 ^ 100) : 1 ≤ F64.fl x := by
  have := fl_mono h (small_limit (by norm_num)) (small_limit (by rwa [abs_of_nonneg (by linarith)]))
  rwa [F64.fl_representable one_representable] at this

theorem fl_rep {x : ℚ} (hx : |x| ≤ 2 ^ 100) : Representable (F64.fl x) := F64.representable_fl (F64.fl_no_overflow (small_limit hx))

theorem fl_err {x B : ℚ} (h : |x| ≤ B) (hB : 1 ≤ B) : |F64.fl x - x| ≤ B / 2 ^ 53 := by
  refine (F64.fl_error x).trans (max_le (by gcongr) ?_)
  have h1 : (1 : ℚ) / 2 ^ 1075 ≤ 1 / 2 ^ 53 := one_div_le_one_div_of_le (by positivity) (pow_le_pow_right₀ (by norm_num) (by norm_num))
  refine h1.trans ?_
  gcongr

/-- Points one step apart, and the rounded squares. -/
theorem square_points {q h : ℚ} (hq : 1 ≤ q) (hq' : q ≤ 1001) (h0 : 0 < h) (h1 : h ≤ 2 / 10 ^ 8) :
    1 ≤ F64.fl (q + h) ∧ |F64.fl (q + h) - q| ≤ 3 / 10 ^ 8 ∧
    ∃ n : Int, F64.fl (F64.fl (q + h) * F64.fl (q + h)) - F64.fl (q * q) = n / 2 ^ 52 ∧ |(n : ℚ) / 2 ^ 52| ≤ 1 / 1000 := by
  have a1 : 1 ≤ F64.fl (q + h) := fl_one_le (by linarith) (by norm_num; linarith)
  have a2 : |F64.fl (q + h) - (q + h)| ≤ 1002 / 2 ^ 53 := fl_err (by rw [abs_of_pos (by linarith)]; linarith) (by norm_num)
  have a3 : |F64.fl (q + h) - q| ≤ 3 / 10 ^ 8 := by
    rw [abs_le] at a2 ⊢
    norm_num at a2 h1 ⊢
    constructor <;> linarith [a2.1, a2.2]
  generalize F64.fl (q + h) = p at a1 a3 ⊢
  clear a2
  have a3' := abs_le.1 a3
  have hp : p ≤ 1002 := by norm_num at a3'; linarith [a3'.2]
  have b1 : |F64.fl (p * p) - p * p| ≤ 1100000 / 2 ^ 53 := fl_err (by rw [abs_of_pos (by positivity)]; nlinarith) (by norm_num)
  have b2 : |F64.fl (q * q) - q * q| ≤ 1100000 / 2 ^ 53 := fl_err (by rw [abs_of_pos (by positivity)]; nlinarith) (by norm_num)
  have c1 : 1 ≤ F64.fl (p * p) := fl_one_le (by nlinarith) (by norm_num; nlinarith)
  have c2 : 1 ≤ F64.fl (q * q) := fl_one_le (by nlinarith) (by norm_num; nlinarith)
  obtain ⟨m, hm⟩ := grid_of_large (fl_rep (x := p * p) (by rw [abs_of_pos (by positivity)]; norm_num; nlinarith)) (by rw [abs_of_pos (by linarith)]; exact c1)
  obtain ⟨k, hk⟩ := grid_of_large (fl_rep (x := q * q) (by rw [abs_of_pos (by positivity)]; norm_num; nlinarith)) (by rw [abs_of_pos (by linarith)]; exact c2)
  refine ⟨a1, a3, m - k, by rw [hm, hk]; push_cast; ring, ?_⟩
  have e : (((m - k : Int) : ℚ)) / 2 ^ 52 = (F64.fl (p * p) - p * p) - (F64.fl (q * q) - q * q) + (p - q) * (p + q) := by
    rw [hm, hk]; push_cast; ring
  rw [e]
  have d1 : |(p - q) * (p + q)| ≤ 3 / 10 ^ 8 * 2003 := by
    rw [abs_mul]
    exact mul_le_mul a3 (by rw [abs_of_pos (by linarith)]; linarith) (abs_nonneg _) (by norm_num)
  rw [abs_le] at b1 b2 d1 ⊢
  norm_num at b1 b2 d1 ⊢
  constructor <;> linarith [b1.1, b1.2, b2.1, b2.2, d1.1, d1.2]

/-- The second difference quotient of values on the grid is not near `2`. -/
theorem second_quotient {h : ℚ} (hh : |h - 1 / 10 ^ 8| ≤ 1 / 10 ^ 8 / 2 ^ 19) {m n : Int} (hm : |(m : ℚ) / 2 ^ 52| ≤ 1 / 1000)
    (hn : |(n : ℚ) / 2 ^ 52| ≤ 1 / 1000) :
    |F64.fl ((m : ℚ) / 2 ^ 52 / h)| ≤ 2 ^ 20 ∧ |F64.fl ((n : ℚ) / 2 ^ 52 / h)| ≤ 2 ^ 20 ∧
    |F64.fl (F64.fl ((n : ℚ) / 2 ^ 52 / h) - F64.fl ((m : ℚ) / 2 ^ 52 / h)) / h| ≤ 2 ^ 50 ∧
    1 / 5 ≤ |F64.fl (F64.fl (F64.fl ((n : ℚ) / 2 ^ 52 / h) - F64.fl ((m : ℚ) / 2 ^ 52 / h)) / h) - 2| := by
  have hh' := abs_le.1 hh
  have hlo : 99999 / 10 ^ 13 ≤ h := by norm_num at hh' ⊢; linarith [hh'.1]
  have hhi : h ≤ 100001 / 10 ^ 13 := by norm_num at hh' ⊢; linarith [hh'.2]
  have h0 : 0 < h := lt_of_lt_of_le (by norm_num) hlo
  have quo : ∀ {k : Int}, |(k : ℚ) / 2 ^ 52| ≤ 1 / 1000 → |(k : ℚ) / 2 ^ 52 / h| ≤ 100002 := by
    intro k hk
    rw [abs_div, abs_of_pos h0, div_le_iff₀ h0]
    refine hk.trans ?_
    refine le_trans ?_ (mul_le_mul_of_nonneg_left hlo (by norm_num))
    norm_num
  have err : ∀ {k : Int}, |(k : ℚ) / 2 ^ 52| ≤ 1 / 1000 → |F64.fl ((k : ℚ) / 2 ^ 52 / h) - (k : ℚ) / 2 ^ 52 / h| ≤ 100002 / 2 ^ 53 := fun hk =>
    fl_err (quo hk) (by norm_num)
  have qm := quo hm
  have qn := quo hn
  have em := err hm
  have en := err hn
  have key : (n : ℚ) / 2 ^ 52 / h - (m : ℚ) / 2 ^ 52 / h = ((n - m : Int) : ℚ) / (2 ^ 52 * h) := by
    push_cast; field_simp
  generalize (m : ℚ) / 2 ^ 52 / h = A at *
  generalize (n : ℚ) / 2 ^ 52 / h = B at *
  generalize n - m = k at key
  generalize F64.fl A = a at *
  generalize F64.fl B = b at *
  rw [abs_le] at qm qn em en
  have ha : |a| ≤ 100003 := by rw [abs_le]; norm_num at em; constructor <;> linarith [qm.1, qm.2, em.1, em.2]
  have hb : |b| ≤ 100003 := by rw [abs_le]; norm_num at en; constructor <;> linarith [qn.1, qn.2, en.1, en.2]
  rw [abs_le] at ha hb
  have hab : |b - a| ≤ 200006 := by rw [abs_le]; constructor <;> linarith [ha.1, ha.2, hb.1, hb.2]
  have hd := fl_err hab (by norm_num)
  have hd2 : |F64.fl (b - a) - (k : ℚ) / (2 ^ 52 * h)| ≤ 400020 / 2 ^ 53 := by
    rw [← key]
    rw [abs_le] at hd ⊢
    norm_num at hd em en ⊢
    constructor <;> linarith [hd.1, hd.2, em.1, em.2, en.1, en.2]
  have hd3 : |F64.fl (b - a)| ≤ 200007 := by
    rw [abs_le] at hd hab ⊢
    norm_num at hd ⊢
    constructor <;> linarith [hd.1, hd.2, hab.1, hab.2]
  generalize F64.fl (b - a) = d at *
  have hq : |d / h| ≤ 200015 * 10 ^ 8 := by
    rw [abs_div, abs_of_pos h0, div_le_iff₀ h0]
    refine hd3.trans (le_trans ?_ (mul_le_mul_of_nonneg_left hlo (by norm_num)))
    norm_num
  have hy := fl_err hq (by norm_num)
  have hq2 : |d / h - (k : ℚ) / (2 ^ 52 * h * h)| ≤ 5 / 1000 := by
    have e : d / h - (k : ℚ) / (2 ^ 52 * h * h) = (d - (k : ℚ) / (2 ^ 52 * h)) / h := by field_simp
    rw [e, abs_div, abs_of_pos h0, div_le_iff₀ h0]
    refine hd2.trans (le_trans ?_ (mul_le_mul_of_nonneg_left hlo (by norm_num)))
    norm_num
  refine ⟨?_, ?_, ?_, ?_⟩
  · rw [abs_le]; norm_num; constructor <;> linarith [ha.1, ha.2]
  · rw [abs_le]; norm_num; constructor <;> linarith [hb.1, hb.2]
  · exact hq.trans (by norm_num)
  · generalize F64.fl (d / h) = y at *
    have hy2 : |y - (k : ℚ) / (2 ^ 52 * h * h)| ≤ 8 / 1000 := by
      have e : y - (k : ℚ) / (2 ^ 52 * h * h) = (y - d / h) + (d / h - (k : ℚ) / (2 ^ 52 * h * h)) := by ring
      rw [e]
      refine (abs_add_le _ _).trans ?_
      norm_num at hy hq2 ⊢
      linarith
    have hM : 2 ^ 52 * h * h ≤ 4504 / 10000 := by
      have : h * h ≤ 100001 / 10 ^ 13 * (100001 / 10 ^ 13) := mul_le_mul hhi hhi h0.le (by norm_num)
      norm_num at this ⊢
      linarith
    have hM0 : 0 < 2 ^ 52 * h * h := by positivity
    rw [abs_le] at hy2
    rcases lt_trichotomy k 0 with hk | hk | hk
    · have : (k : ℚ) / (2 ^ 52 * h * h) ≤ 0 := div_nonpos_of_nonpos_of_nonneg (by exact_mod_cast hk.le) hM0.le
      rw [le_abs]; right
      norm_num at hy2; linarith [hy2.2]
    · subst hk
      norm_num at hy2
      rw [le_abs]; right
      linarith [hy2.2]
    · have hk1 : (1 : ℚ) ≤ k := by exact_mod_cast hk
      have : 1 / (4504 / 10000) ≤ (k : ℚ) / (2 ^ 52 * h * h) := div_le_div₀ (by linarith) hk1 hM0 hM
      rw [le_abs]; left
      norm_num at hy2 this; linarith [hy2.1]

section
variable {F : Type} [FNum F] [Binary64 F] {u : ℝ} [Libm F u] [UTable]

/-- The square of the variable. -/
theorem square_eval (cfg : Cfg) (ctx : Context F) (x : Str) (s : F) (hx : ctx.findVar x = some [.scalar s]) :
    Finishes (fun n => eval cfg n (.simple .mult (.variable x) (.variable x)) ctx) (.ok [.scalar (mul s s)]) := by
  have hv : Finishes (fun n => evalRec cfg n (.variable x) ctx []) (.ok [.scalar s]) := ⟨by simp, 1, by simp [evalRec, hx]⟩
  exact simple_one hv hv rfl

theorem quotient_val {a b h : F} {x y z : ℚ} (ha : Binary64.val a = some x) (hb : Binary64.val b = some y) (hh : Binary64.val h = some z)
    (hz : z ≠ 0) (h1 : |x - y| ≤ 2 ^ 100) (h2 : |F64.fl (x - y) / z| ≤ 2 ^ 100) :
    ∃ c, diffQuotient h (.scalar b) (.scalar a) = .ok (.scalar c) ∧ Binary64.val c = some (F64.fl (F64.fl (x - y) / z)) := by
  have hd := Binary64.val_add ha (neg_one_val hb) (small_limit (by rwa [← sub_eq_add_neg]))
  rw [← sub_eq_add_neg] at hd
  exact ⟨_, rfl, Binary64.val_div hd hh hz (small_limit h2)⟩

include u in
/-- **C92.** In binary64 arithmetic, with the default precision, `D(D(x*x,x,x),x,a)` is never within `0.2` of `2`, for any `a` from `1` to
`1000`: the second derivative of `x*x` cannot be computed in this way. -/
theorem C92_binary64 (cfg : Cfg) (hu : u ≤ 1 / 2 ^ 20) (hprec : cfg.prec = 8) (a : Ex) (x : Str)
    (hwf : (Ex.deriv (.deriv (.bin .mult (.var x) (.var x)) x (.var x)) x a).WF) (ctx : Context F)
    (s : F) (q : ℚ) (hs : Finishes (fun n => eval cfg n (a.tree cfg) ctx) (.ok [.scalar s])) (hq : Binary64.val s = some q) (h1 : 1 ≤ q)
    (h2 : q ≤ 1000) :
    ∃ (z : F) (y : ℚ), Finishes (fun n => quickEval cfg n (Ex.deriv (.deriv (.bin .mult (.var x) (.var x)) x (.var x)) x a).text ctx)
      (.ok [.scalar z]) ∧ Binary64.val z = some y ∧ 1 / 5 ≤ |y - 2| := by
  obtain ⟨h, hv, hh⟩ := step_bounds (F := F) (u := u) cfg hu (by omega)
  have hh' : |h - 1 / 10 ^ 8| ≤ 1 / 10 ^ 8 / 2 ^ 19 := by
    rw [hprec, show (10 : ℝ) ^ (-((8 : Nat) : Int)) = ((1 / 10 ^ 8 : ℚ) : ℝ) by norm_num] at hh
    have h3 : ((|h - 1 / 10 ^ 8| : ℚ) : ℝ) ≤ ((1 / 10 ^ 8 / 2 ^ 19 : ℚ) : ℝ) := by push_cast at hh ⊢; exact hh
    exact_mod_cast h3
  clear hh
  have habs := abs_le.1 hh'
  have h0 : 0 < h := by norm_num at habs; linarith [habs.1]
  have hhi : h ≤ 2 / 10 ^ 8 := by norm_num at habs ⊢; linarith [habs.2]
  obtain ⟨p1, p2, m, hm, hmb⟩ := square_points h1 (by linarith) h0 hhi
  have p2' := abs_le.1 p2
  have hp1 : F64.fl (q + h) ≤ 1001 := by norm_num at p2'; linarith [p2'.2]
  obtain ⟨r1, r2, n, hn, hnb⟩ := square_points p1 hp1 h0 hhi
  have r2' := abs_le.1 r2
  have hr1 : F64.fl (F64.fl (q + h) + h) ≤ 1002 := by norm_num at r2'; linarith [r2'.2]
  have v1 := Binary64.val_add hq hv (small_limit (by rw [abs_of_pos (by linarith)]; norm_num at hhi ⊢; linarith))
  have v2 := Binary64.val_add v1 hv (small_limit (by rw [abs_of_pos (by linarith)]; norm_num at hhi ⊢; linarith))
  have w0 := Binary64.val_mul hq hq (small_limit (by rw [abs_of_pos (by positivity)]; norm_num; nlinarith))
  have w1 := Binary64.val_mul v1 v1 (small_limit (by rw [abs_of_pos (by positivity)]; norm_num; nlinarith))
  have w2 := Binary64.val_mul v2 v2 (small_limit (by rw [abs_of_pos (by positivity)]; norm_num; nlinarith))
  obtain ⟨s1, s2, s3, s4⟩ := second_quotient hh' hmb hnb
  have big : ∀ k : Int, |(k : ℚ) / 2 ^ 52| ≤ 1 / 1000 → |(k : ℚ) / 2 ^ 52 / h| ≤ 2 ^ 100 := by
    intro k hk
    rw [abs_div, abs_of_pos h0, div_le_iff₀ h0]
    refine hk.trans ?_
    have : (1 : ℚ) / 10 ^ 9 ≤ h := by norm_num at habs ⊢; linarith [habs.1]
    refine le_trans ?_ (mul_le_mul_of_nonneg_left this (by norm_num))
    norm_num
  have ex : ∀ k : Int, |(k : ℚ) / 2 ^ 52| ≤ 1 / 1000 → F64.fl ((k : ℚ) / 2 ^ 52) = (k : ℚ) / 2 ^ 52 := fun k hk =>
    F64.fl_representable (grid_representable (hk.trans (by norm_num)))
  obtain ⟨d1, e1, g1⟩ := quotient_val w1 w0 hv h0.ne' (by rw [hm]; exact hmb.trans (by norm_num)) (by rw [hm, ex m hmb]; exact big m hmb)
  obtain ⟨d2, e2, g2⟩ := quotient_val w2 w1 hv h0.ne' (by rw [hn]; exact hnb.trans (by norm_num)) (by rw [hn, ex n hnb]; exact big n hnb)
  rw [hm, ex m hmb] at g1
  rw [hn, ex n hnb] at g2
  obtain ⟨z, e3, g3⟩ := quotient_val g2 g1 hv h0.ne' (by
    refine (abs_sub _ _).trans ((add_le_add s2 s1).trans (by norm_num))) (s3.trans (by norm_num))
  refine ⟨z, _, ?_, g3, s4⟩
  refine ((C29_eval cfg _ ctx (C09_parse_text (F := F) cfg _ hwf)).1 _).1 ?_
  have found : ∀ (c : Context F) (w : F), (setVar c x w).findVar x = some [.scalar w] := fun c w => by unfold setVar; rw [findVar_addVar, if_pos rfl]
  have inner : ∀ (w : F) (d : F), diffQuotient (stepH F cfg) (.scalar (mul w w)) (.scalar (mul (add w (stepH F cfg)) (add w (stepH F cfg)))) = .ok (.scalar d) →
      Finishes (fun n => eval cfg n (.derivative (.simple .mult (.variable x) (.variable x)) x (.variable x)) (setVar ctx x w)) (.ok [.scalar d]) := by
    intro w d hd
    exact C44_derivative cfg _ x _ _ w [.scalar (mul w w)] [.scalar (mul (add w (stepH F cfg)) (add w (stepH F cfg)))] [.scalar d]
      ⟨by simp, 1, by simp [eval, evalRec, found]⟩ (square_eval cfg _ x w (found _ _)) (square_eval cfg _ x _ (found _ _)) rfl (.cons hd .nil)
  have := C44_derivative cfg ctx x (.derivative (.simple .mult (.variable x) (.variable x)) x (.variable x)) (a.tree cfg) s [.scalar d1] [.scalar d2] [.scalar z]
    hs (inner s d1 e1) (inner _ d2 e2) rfl (.cons e3 .nil)
  simpa [Ex.tree, BinOp.op] using this

/-- `D(D(x*x,x,x),x,3)`. -/
example (hu : u ≤ 1 / 2 ^ 20) : ∃ (z : F) (y : ℚ), Finishes (fun n => quickEval Cfg.default n "D(D(x*x,x,x),x,3)".toList (⟨[], []⟩ : Context F))
      (.ok [.scalar z]) ∧ Binary64.val z = some y ∧ 1 / 5 ≤ |y - 2| := by
  have htext : "D(D(x*x,x,x),x,3)".toList = (Ex.deriv (.deriv (.bin .mult (.var ['x']) (.var ['x'])) ['x'] (.var ['x'])) ['x'] (.num ['3'] none)).text := by
    decide
  rw [htext]
  have wx : (Ex.var ['x']).WF := wf_name (n := "x") (by decide)
  obtain ⟨a, h1, h2⟩ := whole_eval (F := F) (u := u) Cfg.default (fun _ => none) (.num ['3'] none) 3 (by
    have := WholeEx.num (ρ := fun _ => none) ['3'] (by unfold Fits; decide)
    exact this) ⟨[], []⟩ (by simp [NoDupVars]) nofun
  exact C92_binary64 (u := u) Cfg.default hu rfl (.num ['3'] none) ['x'] ⟨⟨⟨wx, wx, by decide, by decide, nofun⟩, nameShape_letters (by decide) (by decide), wx⟩, nameShape_letters (by decide) (by decide), wf_num (s := "3") (by decide)⟩
    _ a 3 h1 h2 (by norm_num) (by norm_num)

end
end MUL
