import Verif.Spec.Overflow
import Verif.Props.FloatDeriv
import Verif.Props.FloatIntegral
import Verif.Props.FloatLaws
/-!
# C95: an overflow is never hidden

`C95_finite`: a formula of literals, variables, sums, differences, products, absolute values and quotients by literals always ends with one
number, and if this number is finite, it is accurate: no intermediate result has overflowed, whatever the sizes.
-/
set_option linter.unusedSectionVars false

namespace MUL
open Out Spec FArith

variable {F : Type} [FNum F] [Binary64 F]

/-! ## Finite results come from finite operands -/

theorem fin_rnd {a : Ext ℚ} {q : ℚ} (h : (F64.rnd a).ext.value = some q) : ∃ x, a.value = some x ∧ q = F64.fl x := by
  cases a with
  | fin x =>
    refine ⟨x, rfl, ?_⟩
    by_cases hx : |x| < Binary64.limit
    · rw [Binary64.val_rnd (a := .fin x) rfl hx] at h
      exact (Option.some.inj h).symm
    · have := F64.roundQ_over (not_lt.1 hx)
      simp only [F64.rnd, this, Ext.value] at h
      cases h
  | negZero =>
    refine ⟨0, rfl, ?_⟩
    simp only [F64.rnd, Ext.value, Option.some.injEq] at h
    rw [← h, F64.fl_zero]
  | inf b => simp [F64.rnd, Ext.value] at h
  | nan => simp [F64.rnd, Ext.value] at h

theorem add_inv {a b : F} {q : ℚ} (h : Binary64.val (add a b) = some q) :
    ∃ x y, Binary64.val a = some x ∧ Binary64.val b = some y ∧ q = F64.fl (x + y) := by
  unfold Binary64.val at h ⊢
  rw [Binary64.bits_add] at h
  obtain ⟨z, h1, rfl⟩ := fin_rnd h
  cases ha : (Binary64.bits a).ext.value with
  | none =>
    exfalso
    generalize (Binary64.bits a).ext = u at h1 ha
    generalize (Binary64.bits b).ext = v at h1
    cases u <;> simp only [Ext.value] at ha <;> try (cases ha)
    all_goals cases v <;> simp only [Ext.add] at h1 <;> first | cases h1 | (split at h1 <;> cases h1)
  | some x =>
    cases hb : (Binary64.bits b).ext.value with
    | none =>
      exfalso
      generalize (Binary64.bits a).ext = u at h1 ha
      generalize (Binary64.bits b).ext = v at h1 hb
      cases v <;> simp only [Ext.value] at hb <;> try (cases hb)
      all_goals cases u <;> simp only [Ext.value] at ha <;> try (cases ha)
      all_goals simp only [Ext.add] at h1
      all_goals first | cases h1 | (split at h1 <;> cases h1)
    | some y =>
      rw [Ext.add_value ha hb] at h1
      cases h1
      exact ⟨x, y, rfl, rfl, rfl⟩

theorem mul_inv' {a b : F} {q : ℚ} (h : Binary64.val (mul a b) = some q) :
    ∃ x y, Binary64.val a = some x ∧ Binary64.val b = some y ∧ q = F64.fl (x * y) := by
  unfold Binary64.val at h ⊢
  rw [Binary64.bits_mul] at h
  obtain ⟨z, h1, rfl⟩ := fin_rnd h
  cases ha : (Binary64.bits a).ext.value with
  | none =>
    exfalso
    generalize (Binary64.bits a).ext = u at h1 ha
    generalize (Binary64.bits b).ext = v at h1
    cases u <;> simp only [Ext.value] at ha <;> try (cases ha)
    all_goals cases v <;> simp only [Ext.mul] at h1 <;> first | cases h1 | (split at h1 <;> cases h1)
  | some x =>
    cases hb : (Binary64.bits b).ext.value with
    | none =>
      exfalso
      generalize (Binary64.bits a).ext = u at h1 ha
      generalize (Binary64.bits b).ext = v at h1 hb
      cases v <;> simp only [Ext.value] at hb <;> try (cases hb)
      all_goals cases u <;> simp only [Ext.value] at ha <;> try (cases ha)
      all_goals simp only [Ext.mul] at h1
      all_goals first | cases h1 | (split at h1 <;> cases h1)
    | some y =>
      cases h1.symm.trans (Exact.val_mul (F := Ext ℚ) ha hb)
      exact ⟨x, y, rfl, rfl, rfl⟩

/-- Quotients by a number other than zero. -/
theorem div_inv {a b : F} {q y : ℚ} (hb : Binary64.val b = some y) (hy : y ≠ 0) (h : Binary64.val (FArith.div a b) = some q) :
    ∃ x, Binary64.val a = some x ∧ q = F64.fl (x / y) := by
  unfold Binary64.val at h hb ⊢
  rw [Binary64.bits_div] at h
  obtain ⟨z, h1, rfl⟩ := fin_rnd h
  cases ha : (Binary64.bits a).ext.value with
  | none =>
    exfalso
    generalize (Binary64.bits a).ext = u at h1 ha
    generalize (Binary64.bits b).ext = v at h1 hb
    cases v <;> simp only [Ext.value] at hb <;> try (cases hb)
    all_goals cases u <;> simp only [Ext.value] at ha <;> try (cases ha)
    all_goals simp only [Ext.div] at h1
    all_goals first | cases h1 | (split at h1 <;> cases h1)
  | some x =>
    cases h1.symm.trans (Exact.val_div (F := Ext ℚ) ha hb hy)
    exact ⟨x, rfl, rfl⟩

theorem ofDec_inv {m : Nat} {e : Int} {q : ℚ} (h : Binary64.val (ofDec m e : F) = some q) : q = F64.fl (m * 10 ^ e) := by
  have hn : (0 : ℚ) ≤ (m : ℚ) * 10 ^ e := by positivity
  by_cases hl : (m : ℚ) * 10 ^ e < Binary64.limit
  · rw [Binary64.val_ofDec m e hl] at h
    exact (Option.some.inj h).symm
  · unfold Binary64.val at h
    rw [Binary64.bits_ofDec] at h
    obtain ⟨x, h1, rfl⟩ := fin_rnd h
    have h2 : (if 0 ≤ e then ((m * 10 ^ e.toNat : Nat) : ℚ) else mkRat m (10 ^ (-e).toNat)) = (m : ℚ) * 10 ^ e := by
      split
      · rename_i he
        obtain ⟨n, rfl⟩ := Int.eq_ofNat_of_zero_le he
        simp
      · rename_i he
        obtain ⟨n, hn⟩ := Int.eq_ofNat_of_zero_le (a := -e) (by omega)
        obtain rfl : e = -(n : Int) := by omega
        rw [Rat.mkRat_eq_div]
        simp
        rfl
    rw [h2] at h1
    simp only [Ext.value, Option.some.injEq] at h1
    rw [h1]

/-! ## The error bounds -/

/-- `a`, if it is finite, is `x` up to the bound. -/
def IfFinite (a : F) (x m : ℝ) (n : Nat) : Prop := ∀ q, Binary64.val a = some q → |(q : ℝ) - x| ≤ ((1 + unit) ^ n - 1) * m

theorem unit_pos : 0 < unit := by unfold unit; positivity
theorem least_pos : 0 < least := by unfold least; positivity

theorem grow_pos (n : Nat) : 1 ≤ (1 + unit) ^ n := one_le_pow₀ (by linarith [unit_pos])

theorem roundErr_le {s : ℝ} (hs : 0 ≤ s) : roundErr s ≤ unit * s + unit * least := by
  have e : unit * least = 1 / 2 ^ 1075 := by
    unfold unit least
    rw [div_mul_div_comm, one_mul, ← pow_add]
  have e2 : s / 2 ^ 53 = unit * s := by unfold unit; ring
  unfold roundErr
  rw [e, e2]
  have h1 : 0 ≤ unit * s := mul_nonneg unit_pos.le hs
  have h2 : (0 : ℝ) ≤ 1 / 2 ^ 1075 := by positivity
  exact max_le (by linarith) (by linarith)

theorem numeral_nonneg (ip : Str) (fp : Option Str) : 0 ≤ Spec.numeral ip fp := by
  cases fp <;> simp only [Spec.numeral] <;> positivity

theorem magnitude_le {ρ : Str → Option ℚ} {e : Ex} {x m : ℝ} {n : Nat} (h : Magnitude ρ e x m n) : |x| ≤ m := by
  induction h with
  | num ip fp =>
    rw [abs_of_nonneg (numeral_nonneg ip fp)]
    linarith [least_pos]
  | var => rfl
  | paren _ ih => exact ih
  | neg _ ih => rwa [abs_neg]
  | abs _ _ ih => rwa [abs_abs]
  | add _ _ h1 h2 => exact (abs_add_le _ _).trans (add_le_add h1 h2)
  | sub _ _ h1 h2 => exact (abs_sub _ _).trans (add_le_add h1 h2)
  | mult _ _ h1 h2 | juxt _ _ h1 h2 =>
    rw [abs_mul]
    have := mul_le_mul h1 h2 (abs_nonneg _) ((abs_nonneg _).trans h1)
    linarith [least_pos]
  | div ip fp _ h1 _ ih =>
    have h2 := least_pos.trans_le h1
    rw [abs_div, abs_of_pos h2]
    have := div_le_div_of_nonneg_right ih h2.le
    linarith [least_pos]

theorem accurate_size {q x m : ℝ} {n : Nat} (hx : |x| ≤ m) (h : |q - x| ≤ ((1 + unit) ^ n - 1) * m) : |q| ≤ (1 + unit) ^ n * m := by
  have := abs_add_le (q - x) x
  rw [sub_add_cancel] at this
  linarith

theorem accurate_mono {d m : ℝ} {i n : Nat} (hm : 0 ≤ m) (h : d ≤ ((1 + unit) ^ i - 1) * m) (hn : i ≤ n) : d ≤ ((1 + unit) ^ n - 1) * m := by
  refine h.trans (mul_le_mul_of_nonneg_right ?_ hm)
  have := pow_le_pow_right₀ (show 1 ≤ 1 + unit by linarith [unit_pos]) hn
  linarith

theorem sum_bound {p q x y m k s : ℝ} {i j : Nat} (hx : |x| ≤ m) (hy : |y| ≤ k) (hp : |p - x| ≤ ((1 + unit) ^ i - 1) * m)
    (hq : |q - y| ≤ ((1 + unit) ^ j - 1) * k) (hs : |s - (p + q)| ≤ unit * |p + q|) :
    |s - (x + y)| ≤ ((1 + unit) ^ (max i j + 1) - 1) * (m + k) := by
  have hm := (abs_nonneg _).trans hx
  have hk := (abs_nonneg _).trans hy
  have hp' := accurate_mono hm hp (le_max_left i j)
  have hq' := accurate_mono hk hq (le_max_right i j)
  have sp := accurate_size hx hp'
  have sq := accurate_size hy hq'
  have h1 := abs_add_le p q
  have h2 : |s - (x + y)| ≤ |s - (p + q)| + (|p - x| + |q - y|) := by
    have e : s - (x + y) = (s - (p + q)) + ((p - x) + (q - y)) := by ring
    rw [e]
    exact (abs_add_le _ _).trans (add_le_add le_rfl (abs_add_le _ _))
  have h3 : unit * |p + q| ≤ unit * ((1 + unit) ^ max i j * m + (1 + unit) ^ max i j * k) :=
    mul_le_mul_of_nonneg_left (by linarith) unit_pos.le
  have e : ((1 + unit) ^ (max i j + 1) - 1) * (m + k) = ((1 + unit) ^ max i j - 1) * m + ((1 + unit) ^ max i j - 1) * k +
      unit * ((1 + unit) ^ max i j * m + (1 + unit) ^ max i j * k) := by rw [pow_succ]; ring
  rw [e]
  linarith

theorem prod_bound {p q x y m k s : ℝ} {i j : Nat} (hx : |x| ≤ m) (hy : |y| ≤ k) (hp : |p - x| ≤ ((1 + unit) ^ i - 1) * m)
    (hq : |q - y| ≤ ((1 + unit) ^ j - 1) * k) (hs : |s - p * q| ≤ unit * |p * q| + unit * least) :
    |s - x * y| ≤ ((1 + unit) ^ (i + j + 1) - 1) * (m * k + least) := by
  have hm := (abs_nonneg _).trans hx
  have hk := (abs_nonneg _).trans hy
  have sp := accurate_size hx hp
  have sq := accurate_size hy hq
  have gi := grow_pos i
  have gj := grow_pos j
  have hu := unit_pos
  have hl := least_pos
  set A := (1 + unit) ^ i
  set B := (1 + unit) ^ j
  have eA : (1 + unit) ^ (i + j + 1) = A * B * (1 + unit) := by rw [pow_succ, pow_add]
  have h1 : |p * q| ≤ A * m * (B * k) := by
    rw [abs_mul]
    exact mul_le_mul sp sq (abs_nonneg _) (mul_nonneg (by linarith) hm)
  have h2 : |s - x * y| ≤ |s - p * q| + (|p - x| * |q| + |x| * |q - y|) := by
    have e : s - x * y = (s - p * q) + ((p - x) * q + x * (q - y)) := by ring
    rw [e, ← abs_mul, ← abs_mul]
    exact (abs_add_le _ _).trans (add_le_add le_rfl (abs_add_le _ _))
  have h3 : |p - x| * |q| ≤ (A - 1) * m * (B * k) := mul_le_mul hp sq (abs_nonneg _) (mul_nonneg (by linarith) hm)
  have h4 : |x| * |q - y| ≤ m * ((B - 1) * k) := mul_le_mul hx hq (abs_nonneg _) hm
  have h5 : unit * |p * q| ≤ unit * (A * m * (B * k)) := mul_le_mul_of_nonneg_left h1 hu.le
  have h6 : (1 + unit) ≤ A * B * (1 + unit) := le_mul_of_one_le_left (by linarith) (by nlinarith)
  have h7 : unit * least ≤ (A * B * (1 + unit) - 1) * least := mul_le_mul_of_nonneg_right (by linarith) hl.le
  have e : (A * B * (1 + unit) - 1) * (m * k + least) = (A - 1) * m * (B * k) + m * ((B - 1) * k) + unit * (A * m * (B * k)) +
      (A * B * (1 + unit) - 1) * least := by ring
  rw [eA, e]
  linarith

/-- Rounding of a literal. -/
theorem num_bound {c d : ℝ} (hc : 0 ≤ c) (h : |d - c| ≤ roundErr c) : |d - c| ≤ ((1 + unit) ^ 1 - 1) * (c + least) := by
  refine h.trans ((roundErr_le hc).trans (le_of_eq ?_))
  ring

/-- Quotients by a rounded literal. -/
theorem quot_bound {p x m c d s : ℝ} {i : Nat} (hx : |x| ≤ m) (hp : |p - x| ≤ ((1 + unit) ^ i - 1) * m) (hc : 0 < c)
    (hd : |d - c| ≤ unit * c) (hs : |s - p / d| ≤ unit * |p / d| + unit * least) :
    |s - x / c| ≤ ((1 + unit) ^ (i + 3) - 1) * (m / c + least) := by
  have hm := (abs_nonneg _).trans hx
  have sp := accurate_size hx hp
  have gi := grow_pos i
  have hu := unit_pos
  have hu1 : unit ≤ 1 / 2 := by unfold unit; norm_num
  have hl := least_pos
  set A := (1 + unit) ^ i
  have hd' := abs_le.1 hd
  have hd0 : 0 < d := by nlinarith
  set B := (1 + unit) ^ 2
  have hB1 : 1 ≤ B := grow_pos 2
  have eA : (1 + unit) ^ (i + 3) = A * B * (1 + unit) := by rw [pow_add, show (3 : Nat) = 2 + 1 from rfl, pow_succ (1 + unit) 2, mul_assoc]
  -- the reciprocal of the literal
  have hr : |1 / d - 1 / c| ≤ (B - 1) * (1 / c) := by
    have e : 1 / d - 1 / c = (c - d) / d * (1 / c) := by field_simp
    rw [e, abs_mul, abs_of_pos (show 0 < 1 / c by positivity)]
    refine mul_le_mul_of_nonneg_right ?_ (by positivity)
    rw [abs_div, abs_of_pos hd0, div_le_iff₀ hd0, abs_sub_comm]
    refine hd.trans ?_
    have h1 : (1 - unit) * c ≤ d := by linarith
    have h2 : (B - 1) * ((1 - unit) * c) ≤ (B - 1) * d := mul_le_mul_of_nonneg_left h1 (by linarith)
    refine le_trans ?_ h2
    rw [← mul_assoc]
    refine mul_le_mul_of_nonneg_right ?_ hc.le
    show unit ≤ ((1 + unit) ^ 2 - 1) * (1 - unit)
    nlinarith [mul_pos hu hu, mul_pos (mul_pos hu hu) hu]
  have hrs : |1 / d| ≤ B * (1 / c) := accurate_size (n := 2) (m := 1 / c) (by rw [abs_of_pos (show 0 < 1 / c by positivity)]) hr
  rw [div_eq_mul_one_div p d] at hs
  rw [div_eq_mul_one_div x c, div_eq_mul_one_div m c]
  have := prod_bound (j := 2) (y := 1 / c) (k := 1 / c) hx (by rw [abs_of_pos (show 0 < 1 / c by positivity)]) hp hr hs
  exact this

theorem fl_mul_bound (w : ℚ) : |((F64.fl w : ℚ) : ℝ) - w| ≤ unit * |(w : ℝ)| + unit * least :=
  (fl_error_real w).trans (roundErr_le (abs_nonneg _))

/-- A literal of normal size. -/
theorem normal_literal {c : ℚ} (h : least ≤ (c : ℝ)) : |((F64.fl c : ℚ) : ℝ) - c| ≤ unit * c := by
  have hc := least_pos.trans_le h
  have h1 := fl_error_real c
  rw [abs_of_pos hc] at h1
  refine h1.trans (max_le (le_of_eq (by unfold unit; ring)) ?_)
  have e : unit * least = 1 / 2 ^ 1075 := by
    unfold unit least
    rw [div_mul_div_comm, one_mul, ← pow_add]
  rw [← e]
  exact mul_le_mul_of_nonneg_left h unit_pos.le

/-! ## The evaluation -/

theorem magnitude_eval {cfg : Cfg} {ρ : Str → Option ℚ} {e : Ex} {x m : ℝ} {n : Nat} (h : Magnitude ρ e x m n) {ctx : Context F} {cur : Str}
    (hρ : ∀ v q, ρ v = some q → ∃ a, ctx.findVar v = some [.scalar a] ∧ ∀ p, Binary64.val a = some p → p = q) :
    ∃ a : F, Finishes (fun k => evalRec cfg k (e.tree cfg) ctx cur) (.ok [.scalar a]) ∧ IfFinite a x m n := by
  induction h with
  | num ip fp =>
    obtain ⟨m, k, h1, h2⟩ := near_numeral (F := F) (cfg := cfg) (ip := ip) (fp := fp)
    rw [h1]
    refine ⟨_, scalar_rec cfg ctx _ _, ?_⟩
    intro q hq
    rw [ofDec_inv hq]
    have h4 := fl_error_real ((m : ℚ) * 10 ^ k)
    rw [h2, abs_of_nonneg (numeral_nonneg ip fp)] at h4
    exact num_bound (numeral_nonneg ip fp) h4
  | var v x hv =>
    obtain ⟨a, h1, h2⟩ := hρ v x hv
    refine ⟨a, ⟨by simp, 1, by simp only [Ex.tree, evalRec, h1]⟩, ?_⟩
    · intro q hq
      rw [h2 q hq]
      simp
  | paren _ ih =>
    obtain ⟨a, h1, h2⟩ := ih
    exact ⟨a, simple_one h1 (scalar_rec cfg ctx _ (FArith.ofInt 0)) rfl, h2⟩
  | neg _ ih =>
    obtain ⟨a, h1, h2⟩ := ih
    refine ⟨_, simple_one (scalar_rec cfg ctx _ (FArith.ofInt 0)) h1 rfl, ?_⟩
    intro q hq
    obtain ⟨y, z, h3, h4, rfl⟩ := mul_inv' hq
    rw [val_int (F := F) (n := -1) (by norm_num)] at h3
    cases h3
    have := h2 z h4
    push_cast
    rw [neg_one_mul, F64.fl_representable (representable_neg (Binary64.rep h4)), Rat.cast_neg, ← neg_add', abs_neg] 
    exact this
  | abs name _ ih =>
    obtain ⟨a, h1, h2⟩ := ih
    refine ⟨if lt a (ofInt 0) then mul a (ofInt (-1)) else a,
      simple_one (op := .abs) h1 (scalar_rec cfg ctx _ (FArith.ofInt 0)) (by simp only [opTable, vAbs]; split <;> rfl), ?_⟩
    intro q hq
    have h0 : Binary64.val (ofInt 0 : F) = some ((0 : Int) : ℚ) := val_int (n := 0) (by norm_num)
    obtain ⟨y, hy, rfl⟩ : ∃ y, Binary64.val a = some y ∧ q = |y| := by
      split at hq
      · next hlt =>
        obtain ⟨y, o, h7, h8, rfl⟩ := mul_inv' hq
        rw [val_int (F := F) (n := -1) (by norm_num)] at h8
        cases h8
        refine ⟨y, h7, ?_⟩
        rw [Binary64.lt_val h7 h0] at hlt
        have := of_decide_eq_true hlt
        push_cast at this ⊢
        rw [mul_neg_one, F64.fl_representable (representable_neg (Binary64.rep h7)), abs_of_neg this]
      · next hlt =>
        refine ⟨q, hq, ?_⟩
        rw [Binary64.lt_val hq h0] at hlt
        have := of_decide_eq_false (Bool.not_eq_true _ ▸ hlt)
        push_cast at this
        rw [abs_of_nonneg (not_lt.1 this)]
    rw [Rat.cast_abs]
    exact (abs_abs_sub_abs_le _ _).trans (h2 y hy)
  | add hl hr ihl ihr =>
    obtain ⟨a, h1, h2⟩ := ihl
    obtain ⟨b, h3, h4⟩ := ihr
    refine ⟨_, simple_one h1 h3 rfl, ?_⟩
    intro q hq
    obtain ⟨y, z, h5, h6, rfl⟩ := add_inv hq
    refine sum_bound (magnitude_le hl) (magnitude_le hr) (h2 y h5) (h4 z h6) ?_
    refine (fl_add_error (Binary64.rep h5) (Binary64.rep h6)).trans (le_of_eq ?_)
    unfold unit; ring
  | sub hl hr ihl ihr =>
    obtain ⟨a, h1, h2⟩ := ihl
    obtain ⟨b, h3, h4⟩ := ihr
    refine ⟨_, simple_one h1 h3 rfl, ?_⟩
    intro q hq
    obtain ⟨y, z, h5, h6, rfl⟩ := add_inv hq
    obtain ⟨z', o, h7, h8, rfl⟩ := mul_inv' h6
    rw [val_int (F := F) (n := -1) (by norm_num)] at h8
    cases h8
    have ez : F64.fl (z' * ((-1 : Int) : ℚ)) = -z' := by
      push_cast
      rw [mul_neg_one, F64.fl_representable (representable_neg (Binary64.rep h7))]
    rw [ez]
    rw [sub_eq_add_neg]
    refine sum_bound (q := ((-z' : ℚ) : ℝ)) (magnitude_le hl) (by rw [abs_neg]; exact magnitude_le hr) (h2 y h5) ?_ ?_
    · have := h4 z' h7
      rw [Rat.cast_neg, ← abs_neg]
      convert this using 2
      ring
    · refine (fl_add_error (Binary64.rep h5) (representable_neg (Binary64.rep h7))).trans (le_of_eq ?_)
      unfold unit; ring
  | mult hl hr ihl ihr | juxt hl hr ihl ihr =>
    obtain ⟨a, h1, h2⟩ := ihl
    obtain ⟨b, h3, h4⟩ := ihr
    refine ⟨_, simple_one h1 h3 rfl, ?_⟩
    intro q hq
    obtain ⟨y, z, h5, h6, rfl⟩ := mul_inv' hq
    refine prod_bound (magnitude_le hl) (magnitude_le hr) (h2 y h5) (h4 z h6) ?_
    have := fl_mul_bound (y * z)
    push_cast at this
    exact this
  | div ip fp hl hc hc2 ihl =>
    obtain ⟨a, h1, h2⟩ := ihl
    obtain ⟨m', k, h3, h4⟩ := near_numeral (F := F) (cfg := cfg) (ip := ip) (fp := fp)
    have h5 : Finishes (fun j => evalRec cfg j ((Ex.num ip fp).tree cfg : AST F) ctx cur) (.ok [.scalar (ofDec m' k)]) := by
      rw [h3]
      exact scalar_rec cfg ctx _ _
    refine ⟨_, simple_one h1 h5 rfl, ?_⟩
    have hlim : (m' : ℚ) * 10 ^ k < Binary64.limit := by
      have h6 : ((m' * 10 ^ k : ℚ) : ℝ) < ((2 ^ 1023 : ℚ) : ℝ) := by rw [h4]; push_cast; exact hc2
      have h7 : (m' * 10 ^ k : ℚ) < 2 ^ 1023 := by exact_mod_cast h6
      refine h7.trans ?_
      unfold Binary64.limit
      have e1 : (2 : ℚ) ^ 1024 = 2 * 2 ^ 1023 := pow_succ' 2 1023
      have e2 : (2 : ℚ) ^ 970 < 2 ^ 1023 := pow_lt_pow_right₀ (by norm_num) (by norm_num)
      rw [e1]
      generalize (2 : ℚ) ^ 1023 = s at e2 ⊢
      generalize (2 : ℚ) ^ 970 = t at e2 ⊢
      linarith
    have hv := Binary64.val_ofDec (F := F) m' k hlim
    have hcq : least ≤ ((m' * 10 ^ k : ℚ) : ℝ) := by rw [h4]; exact hc
    have hn := normal_literal hcq
    rw [h4] at hn
    have hc0 := least_pos.trans_le hc
    have hd0 : (F64.fl (m' * 10 ^ k) : ℚ) ≠ 0 := by
      intro h0
      rw [h0, Rat.cast_zero, zero_sub, abs_neg, abs_of_pos hc0] at hn
      have : unit < 1 := by unfold unit; norm_num
      nlinarith
    intro q hq
    obtain ⟨y, h6, rfl⟩ := div_inv hv hd0 hq
    refine quot_bound (magnitude_le hl) (h2 y h6) hc0 hn ?_
    have := fl_mul_bound (y / F64.fl (m' * 10 ^ k))
    rw [Rat.cast_div] at this
    exact this

section
variable [UTable]

/-- C95: the formula ends with one number `a`. If `a` is finite, it differs from the exact value `x` by at most `(1 + 2^-53)^n - 1` times the
size `m` of the formula, however large the intermediate results are. Variables may be infinite or NaN: only if they are finite they have to be
the numbers of `ρ`. -/
theorem C95_finite (cfg : Cfg) (ρ : Str → Option ℚ) (e : Ex) (x m : ℝ) (n : Nat) (hwf : e.WF) (h : Magnitude ρ e x m n) (ctx : Context F)
    (hρ : ∀ v q, ρ v = some q → ∃ a, ctx.findVar v = some [.scalar a] ∧ ∀ p, Binary64.val a = some p → p = q) :
    ∃ a : F, Finishes (fun k => quickEval cfg k e.text ctx) (.ok [.scalar a]) ∧
      ∀ q, Binary64.val a = some q → |(q : ℝ) - x| ≤ ((1 + 1 / 2 ^ 53) ^ n - 1) * m := by
  obtain ⟨a, h1, h2⟩ := magnitude_eval (cfg := cfg) (cur := []) h hρ
  exact ⟨a, ((C29_eval cfg e.text ctx (C09_parse_text (F := F) cfg e hwf)).1 _).1 h1, h2⟩

end

/-- C95: the value and the size do not depend on the order of the derivation, and the size bounds the value. -/
theorem C95_unique {ρ : Str → Option ℚ} {e : Ex} {x y m k : ℝ} {n j : Nat} (h : Magnitude ρ e x m n) (h' : Magnitude ρ e y k j) :
    x = y ∧ m = k ∧ n = j ∧ |x| ≤ m := by
  refine ⟨?_, ?_, ?_, magnitude_le h⟩
  all_goals
    induction h generalizing y k j with
    | num => cases h'; rfl
    | var _ _ h1 => cases h' with | var _ _ h2 => first | rfl | (rw [h1] at h2; cases h2; rfl)
    | paren _ ih => cases h' with | paren h2 => exact ih h2
    | neg _ ih => cases h' with | neg h2 => first | rw [ih h2] | exact ih h2
    | abs _ _ ih => cases h' with | abs _ h2 => first | rw [ih h2] | exact ih h2
    | add _ _ i1 i2 => cases h' with | add h2 h3 => rw [i1 h2, i2 h3]
    | sub _ _ i1 i2 => cases h' with | sub h2 h3 => rw [i1 h2, i2 h3]
    | mult _ _ i1 i2 => cases h' with | mult h2 h3 => rw [i1 h2, i2 h3]
    | juxt _ _ i1 i2 => cases h' with | juxt h2 h3 => rw [i1 h2, i2 h3]
    | div _ _ _ _ _ ih => cases h' with | div _ _ h2 => rw [ih h2]

/-- C95: the exact value is what the formula means (C60). -/
theorem C95_denotes (cfg : Cfg) (φ : Defs) {ρ : Str → Option ℚ} {e : Ex} {x m : ℝ} {n : Nat} (h : Magnitude ρ e x m n) :
    Denotes cfg φ [] (fun v => (ρ v).map fun q => [.scalar (q : ℝ)]) e [.scalar x] := by
  induction h with
  | num ip fp => exact .num ip fp
  | var v x hv => exact .var v _ (by simp [hv])
  | paren _ ih => exact .paren _ _ ih
  | neg _ ih => exact .neg _ _ _ ih (.cons (.scalar _) .nil)
  | abs name _ ih => exact .fn name _ _ _ _ ih (.cons (.abs _) .nil)
  | add _ _ i1 i2 => exact Denotes.bin _ _ _ _ _ [_] i1 i2 (.cons (.add (.scalar _ _)) .nil)
  | sub _ _ i1 i2 => exact Denotes.bin _ _ _ _ _ [_] i1 i2 (.cons (.sub (.scalar _ _)) .nil)
  | mult _ _ i1 i2 => exact Denotes.bin _ _ _ _ _ [_] i1 i2 (.cons (.mult (.scalar _ _)) .nil)
  | juxt _ _ i1 i2 => exact Denotes.bin _ _ _ _ _ [_] i1 i2 (.cons (.juxt (.scalar _ _)) .nil)
  | div ip fp _ h1 _ ih => exact Denotes.bin _ _ _ _ _ [_] ih (.num ip fp) (.cons (.div (.scalar _ _ (least_pos.trans_le h1).ne')) .nil)

/-! ## A quotient hides an overflow -/

theorem square_inf {a : F} {x : ℚ} (ha : Binary64.val a = some x) (hl : Binary64.limit ≤ x * x) :
    (Binary64.bits (mul a a)).ext = .inf false := by
  have h0 : 0 < x * x := lt_of_lt_of_le ((abs_nonneg _).trans_lt (rep_lt_limit representable_zero)) hl
  rw [Binary64.bits_mul]
  unfold Binary64.val at ha
  generalize (Binary64.bits a) = b at ha
  obtain ⟨b⟩ := b
  cases b with
  | fin y =>
    simp only [Ext.value, Option.some.injEq] at ha
    subst ha
    have h3 : Ext.mul (.fin y) (.fin y) = .fin (y * y) := by
      simp only [Ext.mul, Ext.value, Ext.mk]
      rw [if_neg (fun h => h0.ne' h.1)]
    show (F64.rnd (Ext.mul _ _)).ext = _
    rw [h3]
    show F64.roundQ _ = _
    rw [F64.roundQ_over (by rwa [abs_of_pos h0]), decide_eq_false (not_lt.2 h0.le)]
  | negZero =>
    simp only [Ext.value, Option.some.injEq] at ha
    subst ha
    simp at h0
  | inf b => simp [Ext.value] at ha
  | nan => simp [Ext.value] at ha

theorem big_square : Binary64.limit ≤ (2 : ℚ) ^ 600 * 2 ^ 600 := by
  rw [← pow_add]
  unfold Binary64.limit
  have e2 : (2 : ℚ) ^ 1024 ≤ 2 ^ (600 + 600) := pow_le_pow_right₀ (by norm_num) (by norm_num)
  have e3 : (0 : ℚ) < 2 ^ 970 := by positivity
  generalize (2 : ℚ) ^ (600 + 600) = r at e2 ⊢
  generalize (2 : ℚ) ^ 1024 = s at e2 ⊢
  generalize (2 : ℚ) ^ 970 = t at e3 ⊢
  linarith

theorem over_inf {a b : F} {x : ℚ} (ha : Binary64.val a = some x) (hb : (Binary64.bits b).ext = .inf false) :
    Binary64.val (FArith.div a b) = some 0 := by
  unfold Binary64.val at ha ⊢
  rw [Binary64.bits_div]
  show (F64.rnd (Ext.div _ _)).ext.value = _
  rw [hb]
  generalize (Binary64.bits a).ext = u at ha
  cases u with
  | fin x =>
    simp only [Ext.div, Ext.mk]
    split
    · simp [F64.rnd, Ext.value]
    · simp [F64.rnd, F64.roundQ_zero, Ext.value]
  | negZero => simp [Ext.div, Ext.mk, Ext.signNeg, F64.rnd, Ext.value]
  | inf b => simp [Ext.value] at ha
  | nan => simp [Ext.value] at ha

/-- `(x/(x*x))*x` -/
def hidden : Ex := .bin .mult (.paren (.bin .div (.var ['x']) (.paren (.bin .mult (.var ['x']) (.var ['x']))))) (.var ['x'])

/-- C95 fails for quotients by formulas: for `x = 2^600` the product `x*x` overflows, but `(x/(x*x))*x`, which should be 1, is 0. -/
theorem C95_quotient_false [UTable] (cfg : Cfg) (ctx : Context F) (a : F) (hx : ctx.findVar ['x'] = some [.scalar a])
    (ha : Binary64.val a = some (2 ^ 600)) :
    hidden.text = "(x/(x*x))*x".toList ∧
    ∃ c : F, Finishes (fun k => quickEval cfg k hidden.text ctx) (.ok [.scalar c]) ∧ Binary64.val c = some 0 := by
  have hv : Finishes (fun k => evalRec cfg k ((Ex.var ['x']).tree cfg : AST F) ctx []) (.ok [.scalar a]) :=
    ⟨by simp, 1, by simp only [Ex.tree, evalRec, hx]⟩
  have h1 := simple_one (op := .mult) hv hv rfl
  have h2 := simple_one (op := .parenths) h1 (scalar_rec cfg ctx _ (FArith.ofInt 0)) rfl
  have h3 := simple_one (op := .div) hv h2 rfl
  have h4 := simple_one (op := .parenths) h3 (scalar_rec cfg ctx _ (FArith.ofInt 0)) rfl
  have h5 := simple_one (op := .mult) h4 hv rfl
  have hwf : hidden.WF := by
    have w := wf_name (n := "x") (by decide)
    exact ⟨⟨w, ⟨w, w, by decide, by decide, nofun⟩, by decide, by decide, nofun⟩, w, by decide, by decide, nofun⟩
  refine ⟨by decide, _, ((C29_eval cfg hidden.text ctx (C09_parse_text (F := F) cfg hidden hwf)).1 _).1 h5, ?_⟩
  have h6 := Binary64.val_mul (over_inf ha (square_inf ha big_square)) ha (by rw [zero_mul]; exact rep_lt_limit representable_zero)
  rw [zero_mul, F64.fl_zero] at h6
  exact h6

/-! ## Examples -/

/-- `2+3*x` has the value `2 + 3x`; three roundings. -/
example [UTable] (cfg : Cfg) (ctx : Context F) (a : F) (x : ℚ) (hx : ctx.findVar ['x'] = some [.scalar a]) (ha : Binary64.val a = some x) :
    ∃ c : F, Finishes (fun k => quickEval cfg k "2+3*x".toList ctx) (.ok [.scalar c]) ∧ ∀ q, Binary64.val c = some q →
      |(q : ℝ) - (2 + 3 * x)| ≤ ((1 + 1 / 2 ^ 53) ^ 3 - 1) * ((2 + least) + ((3 + least) * |(x : ℝ)| + least)) := by
  have h2 : Spec.numeral ['2'] none = 2 := by simp [Spec.numeral, digitsNumber]
  have h3 : Spec.numeral ['3'] none = 3 := by simp [Spec.numeral, digitsNumber]
  have hm : Magnitude (fun v => if v = ['x'] then some x else none) (.bin .add (.num ['2'] none) (.bin .mult (.num ['3'] none) (.var ['x'])))
      (2 + 3 * x) ((2 + least) + ((3 + least) * |(x : ℝ)| + least)) 3 := by
    rw [← h2, ← h3]
    exact .add (.num _ _) (.mult (.num _ _) (.var _ _ (by simp)))
  have w := wf_name (n := "x") (by decide)
  exact C95_finite cfg _ (.bin .add (.num ['2'] none) (.bin .mult (.num ['3'] none) (.var ['x']))) _ _ _ ⟨wf_num (s := "2") (by decide), ⟨wf_num (s := "3") (by decide), w, by decide, by decide, nofun⟩,
    by decide, by decide, nofun⟩ hm ctx (by
    intro v q hv
    split at hv
    · next h =>
      subst h
      cases hv
      exact ⟨a, hx, fun p hp => by rw [ha] at hp; exact (Option.some.inj hp).symm⟩
    · cases hv)

/-- The number `2^600` can be stored. -/
example : ∃ a : Double, Binary64.val a = some (2 ^ 600) := by
  refine ⟨Double.mk' (.fin (2 ^ 600)), ?_⟩
  have hr : Representable (2 ^ 600) := ⟨1, 600, by norm_num, by norm_num, by norm_num, by
    rw [Int.cast_one, one_mul]
    exact (zpow_natCast (2 : ℚ) 600).symm⟩
  have := Binary64.val_rnd (a := .fin (2 ^ 600)) rfl (rep_lt_limit hr)
  rw [F64.fl_representable hr] at this
  exact this

end MUL
