import Verif.Proofs.FloatSearch
import Verif.Props.FloatRound
import Verif.Props.EqSafe
/-!
# The search for a solution in binary64 arithmetic: what is found and reported
-/

set_option linter.unusedSectionVars false

namespace MUL
open Out Spec

theorem mem_startValues {j : Int} : j ∈ startValues ↔ -1000 ≤ j ∧ j < 1000 := by
  unfold startValues
  rw [List.mem_map]
  constructor
  · rintro ⟨n, hn, rfl⟩
    rw [List.mem_range] at hn
    omega
  · rintro ⟨h1, h2⟩
    exact ⟨(j + 1000).toNat, List.mem_range.2 (by omega), by omega⟩

section
variable {F : Type} [FNum F] [Binary64 F] {u : ℝ} [Libm F u] {cfg : Cfg} {φ : F → F}

omit [Libm F u] in
theorem finite_step {a : F} (h : (Value.scalar a).isInfOrNan ≠ true) : ∃ q, Binary64.val a = some q := by
  have h : (FArith.isInf a || FArith.isNaN a) ≠ true := h
  rw [finite_of_double, ne_eq, Bool.not_eq_true, Option.isNone_eq_false_iff, Option.isSome_iff_exists] at h
  exact h

omit [Libm F u] in
theorem not_infinite {a : F} {q : ℚ} (h : Binary64.val a = some q) : (Value.scalar a).isInfOrNan ≠ true := by
  show (FArith.isInf a || FArith.isNaN a) ≠ true
  rw [finite_of_double, h]
  simp

omit [Libm F u] in
/-- What a search finds is a finite number that passes the test. -/
theorem searchFrom_spec (k : Nat) {a b : F} (ha : ∃ q, Binary64.val a = some q) (h : searchFrom cfg φ k a = some b) :
    (∃ q, Binary64.val b = some q) ∧ normSmall cfg [φ b] = true := by
  induction k generalizing a with
  | zero => cases h
  | succ k ih =>
    rw [searchFrom] at h
    split at h
    · next hs =>
      cases h
      exact ⟨ha, hs⟩
    · split at h
      · cases h
      · next hi => exact ih (finite_step hi) h

omit [Libm F u] in
theorem start_val {j : Int} (h1 : -1000 ≤ j) (h2 : j < 1000) : Binary64.val (FArith.ofInt j : F) = some (j : ℚ) :=
  val_int (by rw [abs_le]; constructor <;> omega)

omit [Libm F u] in
theorem searchAll_spec {b : F} (h : b ∈ searchAll cfg φ) : (∃ q, Binary64.val b = some q) ∧ normSmall cfg [φ b] = true := by
  obtain ⟨j, hj, hj'⟩ := List.mem_filterMap.1 h
  obtain ⟨h1, h2⟩ := mem_startValues.1 hj
  exact searchFrom_spec 1000 ⟨_, start_val h1 h2⟩ hj'

theorem limit_power : (189 / 200 : ℝ) ^ 999 ≤ 1 / 10 ^ 22 :=
  (pow_le_pow_left₀ (by norm_num) (by norm_num) 999).trans slow_power

include u in
/-- The search from a point near a zero succeeds. -/
theorem float_search_found (hu : u ≤ 1 / 2 ^ 20) (hprec : cfg.prec ≤ 22) {g : ℝ → ℝ} {s m ε : ℝ}
    (hg : Findable g s m ε (10 ^ (-(cfg.prec : Int))))
    (hφ : ComputesWithin φ g (s - 1 / 2) (s + 1 / 2 + 2 * 10 ^ (-(cfg.prec : Int))) ε) (k n : Nat) (hkn : n + k = 999) {a : F} {x : ℚ}
    (ha : Binary64.val a = some x) (hx : |(x : ℝ) - s| ≤ 1 / 2)
    (hx' : |(x : ℝ) - s| ≤ (189 / 200) ^ n / 2 + 91 / 5 * (11 / 10 * (ε / m) + (|s| + 2) / 2 ^ 53)) :
    ∃ (b : F) (q : ℚ), searchFrom cfg φ (k + 1) a = some b ∧ Binary64.val b = some q ∧ |(q : ℝ) - s| ≤ 1 / 2 := by
  have hH := zpow_pos (show (0 : ℝ) < 10 by norm_num) (-(cfg.prec : Int))
  have hH1 : (10 : ℝ) ^ (-(cfg.prec : Int)) ≤ 1 := by
    have : (10 : ℝ) ^ (-(cfg.prec : Int)) ≤ 10 ^ (0 : Int) := zpow_le_zpow_right₀ (by norm_num) (by omega)
    rwa [zpow_zero] at this
  have hH2 : (10 : ℝ) ^ (-(22 : Int)) ≤ 10 ^ (-(cfg.prec : Int)) := zpow_le_zpow_right₀ (by norm_num) (by omega)
  have hm := hg.pos
  have hEm : ε / m ≤ 10 ^ (-(cfg.prec : Int)) / 400 := by
    rw [div_le_iff₀ hm]
    have := hg.accurate
    linarith
  induction k generalizing n a x with
  | zero =>
    obtain rfl : n = 999 := by omega
    refine ⟨a, x, ?_, ha, hx⟩
    rw [searchFrom, if_pos]
    obtain ⟨x1, x2⟩ := abs_le.1 hx
    obtain ⟨y, y1, y2⟩ := hφ a x ha (by linarith) (by linarith)
    refine small_of_le (u := u) hu hprec y1 ?_
    have hsz : |g x| ≤ 19 / 10 * m * |(x : ℝ) - s| := by
      rcases hg.slopes with hs | hs
      · exact (slopes_zero hs hg.zero hm (by linarith) (by linarith) (by linarith) (by linarith)).2.2.2
      · have := (slopes_zero (x := x) hs (by simpa using hg.zero) hm (by linarith) (by linarith) (by linarith) (by linarith)).2.2.2
        rwa [abs_neg] at this
    have k2 : |(y : ℝ)| ≤ |(y : ℝ) - g x| + |g x| := by
      calc |(y : ℝ)| = |((y : ℝ) - g x) + g x| := by ring_nf
        _ ≤ _ := abs_add_le _ _
    have lp := limit_power
    generalize (10 : ℝ) ^ (-(cfg.prec : Int)) = H at *
    generalize (189 / 200 : ℝ) ^ 999 = P at *
    have hf := hg.flat
    have hp := hg.precise
    have hs0 := abs_nonneg s
    have e1 : m * (ε / m) = ε := by field_simp
    have k3 := mul_le_mul_of_nonneg_left hx' (show 0 ≤ 19 / 10 * m by linarith)
    have k4 : 19 / 10 * m * (P / 2 + 91 / 5 * (11 / 10 * (ε / m) + (|s| + 2) / 2 ^ 53)) =
        95 / 100 * (m * P) + 19 / 10 * (91 / 5) * (11 / 10) * (m * (ε / m)) + 19 / 10 * (91 / 5) / 2 ^ 53 * (m * (|s| + 2)) := by ring
    rw [k4, e1] at k3
    have k5 : m * P ≤ m * (1 / 10 ^ 22) := mul_le_mul_of_nonneg_left lp hm.le
    have k6 : m * (|s| + 2) ≤ 2 ^ 46 * H := le_trans (mul_le_mul_of_nonneg_left (by linarith) hm.le) hf
    have k7 : m ≤ 2 ^ 46 * H := by nlinarith
    linarith
  | succ k ih =>
    rw [searchFrom]
    by_cases hs : normSmall cfg [φ a] = true
    · rw [if_pos hs]
      exact ⟨a, x, rfl, ha, hx⟩
    · rw [if_neg hs]
      obtain ⟨x', w1, w2⟩ := float_step (u := u) hu hprec hg hφ ha hx hs
      rw [if_neg (not_infinite w1)]
      refine ih (n + 1) (by omega) w1 ?_ ?_
      · refine w2.trans ?_
        have := hg.near
        generalize (10 : ℝ) ^ (-(cfg.prec : Int)) = H at *
        linarith
      · refine w2.trans ?_
        have hs0 := abs_nonneg s
        have hε0 : 0 ≤ ε / m := by
          obtain ⟨x1, x2⟩ := abs_le.1 hx
          obtain ⟨y, y1, y2⟩ := hφ a x ha (by linarith) (by linarith)
          exact div_nonneg ((abs_nonneg _).trans y2) hm.le
        rw [pow_succ (189 / 200 : ℝ) n]
        generalize (189 / 200 : ℝ) ^ n = P at *
        linarith

include u in
/-- Every zero is found from the nearest start value. -/
theorem zero_found (hu : u ≤ 1 / 2 ^ 20) (hprec : cfg.prec ≤ 22) {g : ℝ → ℝ} {s m ε : ℝ}
    (hg : Findable g s m ε (10 ^ (-(cfg.prec : Int))))
    (hφ : ComputesWithin φ g (s - 1 / 2) (s + 1 / 2 + 2 * 10 ^ (-(cfg.prec : Int))) ε) (h1 : -1000 ≤ s) (h2 : s ≤ 999) :
    ∃ b ∈ searchAll cfg φ, ∃ q : ℚ, Binary64.val b = some q ∧ |(q : ℝ) - s| ≤ 1 / 2 ∧
      |(q : ℝ) - s| ≤ 103 / 100 * 10 ^ (-(cfg.prec : Int)) / m := by
  have hm := hg.pos
  have hH := zpow_pos (show (0 : ℝ) < 10 by norm_num) (-(cfg.prec : Int))
  have hr := abs_sub_round s
  rw [abs_sub_comm] at hr
  obtain ⟨r1, r2⟩ := abs_le.1 hr
  have hj1 : -1000 ≤ round s := by
    have : (-1001 : ℝ) < ((round s : Int) : ℝ) := by linarith
    have : (-1001 : Int) < round s := by exact_mod_cast this
    omega
  have hj2 : round s < 1000 := by
    have : ((round s : Int) : ℝ) < ((1000 : Int) : ℝ) := by push_cast; linarith
    exact_mod_cast this
  have hv := start_val (F := F) hj1 hj2
  have hx0 : |(((round s : Int) : ℚ) : ℝ) - s| ≤ 1 / 2 := by push_cast; exact hr
  obtain ⟨y0, -, hy0⟩ := hφ _ _ hv (by linarith [(abs_le.1 hx0).1]) (by linarith [(abs_le.1 hx0).2])
  have hε0 : 0 ≤ ε := (abs_nonneg _).trans hy0
  obtain ⟨b, q, b1, b2, b3⟩ := float_search_found (u := u) hu hprec hg hφ 999 0 rfl hv hx0 (by
    have : 0 ≤ 11 / 10 * (ε / m) + (|s| + 2) / 2 ^ 53 := by positivity
    rw [pow_zero]
    linarith)
  refine ⟨b, List.mem_filterMap.2 ⟨round s, mem_startValues.2 ⟨hj1, hj2⟩, b1⟩, q, b2, b3, ?_⟩
  have hsm := (searchFrom_spec _ ⟨_, hv⟩ b1).2
  obtain ⟨y, y1, y2⟩ := le_of_small (u := u) hu hprec hsm
  obtain ⟨q1, q2⟩ := abs_le.1 b3
  obtain ⟨y', y1', y2'⟩ := hφ b q b2 (by linarith) (by linarith)
  obtain rfl : y' = y := by
    rw [y1] at y1'
    cases y1'
    rfl
  have hsz : m * |(q : ℝ) - s| ≤ |g q| := by
    rcases hg.slopes with hs | hs
    · exact (slopes_zero hs hg.zero hm (by linarith) (by linarith) (by linarith) (by linarith)).2.2.1
    · have := (slopes_zero (x := q) hs (by simpa using hg.zero) hm (by linarith) (by linarith) (by linarith) (by linarith)).2.2.1
      rwa [abs_neg] at this
  rw [le_div_iff₀ hm, mul_comm]
  refine hsz.trans ?_
  have k : |g q| ≤ |(y' : ℝ) - g q| + |(y' : ℝ)| := by
    calc |g q| = |-((y' : ℝ) - g q) + y'| := by ring_nf
      _ ≤ _ := (abs_add_le _ _).trans (by rw [abs_neg])
  have := hg.precise
  linarith

omit [Libm F u] in
/-- Numbers that are rounded to the same number are close. -/
theorem rounded_close [Tens F] {a w : F} {x y : ℚ} (ha : Binary64.val a = some x) (hw : Binary64.val w = some y) {p : Nat} (hp : p ≤ 22)
    (h : |x| * 10 ^ p < 2 ^ 1024 - 2 ^ 970) (he : Value.beq ((Value.scalar a).round p) ((Value.scalar w).round p) = true) :
    |x - y| ≤ 101 / 100 / 10 ^ p + |x| / 2 ^ 49 := by
  obtain ⟨c, z, c1, c2, c3⟩ := C74_error ha hp h
  rw [c1] at he
  by_cases h2 : |y| * 10 ^ p < 2 ^ 1024 - 2 ^ 970
  · obtain ⟨d, t, d1, d2, d3⟩ := C74_error hw hp h2
    rw [d1] at he
    have he : FArith.beq c d = true := he
    rw [Binary64.beq_val c2 d2, decide_eq_true_eq] at he
    subst he
    have k1 : |x - y| ≤ |z - x| + |z - y| := by
      calc |x - y| = |-(z - x) + (z - y)| := by ring_nf
        _ ≤ _ := (abs_add_le _ _).trans (by rw [abs_neg])
    have k2 : |y| ≤ |x| + |x - y| := by
      calc |y| = |x + -(x - y)| := by ring_nf
        _ ≤ _ := (abs_add_le _ _).trans (by rw [abs_neg])
    have hT : (0 : ℚ) < 1 / 10 ^ p := by positivity
    have e1 : (1 : ℚ) / 2 / 10 ^ p = 1 / 2 * (1 / 10 ^ p) := by ring
    have e2 : (101 : ℚ) / 100 / 10 ^ p = 101 / 100 * (1 / 10 ^ p) := by ring
    rw [e1] at c3 d3
    rw [e2]
    have hx0 := abs_nonneg x
    have hd0 := abs_nonneg (x - y)
    generalize (1 : ℚ) / 10 ^ p = T at *
    clear h h2
    linarith
  · obtain ⟨d, d1, d2⟩ := C74_overflow hw hp (not_lt.1 h2)
    rw [d1] at he
    have he : FArith.beq c d = true := he
    exfalso
    rw [Binary64.bits_beq] at he
    rw [Binary64.bits_isInf] at d2
    have he : Ext.beq (Binary64.bits c).ext (Binary64.bits d).ext = true := he
    have d2 : FArith.isInf (Binary64.bits d).ext = true := d2
    unfold Binary64.val at c2
    generalize (Binary64.bits c).ext = A at *
    generalize (Binary64.bits d).ext = B at *
    cases A <;> cases B <;> simp_all [Ext.beq, FArith.isInf, Ext.value]

end

end MUL
