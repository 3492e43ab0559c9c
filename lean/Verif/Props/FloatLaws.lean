import Verif.Num.Tens
import Verif.Props.Arith
import Verif.Props.Eval
import Verif.Props.FloatRound
import Verif.Props.Scalar
/-!
# C83: laws of arithmetic that hold in binary64
-/

namespace MUL
open Out Spec

set_option linter.unusedSectionVars false

/-! ## On the numbers with signed zeros and infinities -/

namespace Ext

theorem add_comm' (a b : Ext ℚ) : Ext.add a b = Ext.add b a := by
  cases a <;> cases b <;> simp [Ext.add, Ext.value, _root_.add_comm]
  rename_i a b
  cases a <;> cases b <;> rfl

theorem mul_comm' (a b : Ext ℚ) : Ext.mul a b = Ext.mul b a := by
  cases a <;> cases b <;> simp [Ext.mul, Ext.value, _root_.mul_comm, Bool.xor_comm, Ext.signNeg]

theorem neg_neg' (a : Ext ℚ) : Ext.neg (Ext.neg a) = a := by
  cases a with
  | fin x =>
    by_cases hx : x = 0
    · simp [Ext.neg, Ext.mk, hx]
    · simp [Ext.neg, Ext.mk, hx]
  | negZero => simp [Ext.neg, Ext.mk]
  | inf b => simp [Ext.neg]
  | nan => rfl

theorem mul_one' (a : Ext ℚ) : Ext.mul a (.fin 1) = a := by
  cases a with
  | fin x =>
    by_cases hx : x = 0
    · subst hx; decide +kernel
    · simp [Ext.mul, Ext.mk, Ext.value, hx]
  | negZero => decide +kernel
  | inf b => cases b <;> decide +kernel
  | nan => rfl

theorem div_one' (a : Ext ℚ) : Ext.div a (.fin 1) = a := by
  cases a with
  | fin x =>
    by_cases hx : x = 0
    · subst hx; decide +kernel
    · simp [Ext.div, Ext.mk, Ext.value, hx]
  | negZero => decide +kernel
  | inf b => cases b <;> decide +kernel
  | nan => rfl

theorem sub_self' {a : Ext ℚ} {x : ℚ} (h : a.value = some x) : Ext.sub a a = .fin 0 := by
  cases a with
  | fin y =>
    by_cases hx : y = 0
    · simp [Ext.sub, Ext.add, Ext.neg, Ext.mk, Ext.value, hx]
    · simp [Ext.sub, Ext.add, Ext.neg, Ext.mk, Ext.value, hx]
  | negZero => simp [Ext.sub, Ext.add, Ext.neg, Ext.value]
  | inf b => cases h
  | nan => cases h

theorem div_self' {a : Ext ℚ} {x : ℚ} (h : a.value = some x) (hx : x ≠ 0) : Ext.div a a = .fin 1 := by
  cases a with
  | fin y =>
    have hy : y ≠ 0 := by
      simp only [Ext.value, Option.some.injEq] at h
      rw [h]
      exact hx
    simp [Ext.div, Ext.mk, Ext.value, hy]
  | negZero => exact absurd (by simpa [Ext.value] using h.symm) hx
  | inf b => cases h
  | nan => cases h

theorem lt_fin {a b : Ext ℚ} {x y : ℚ} (ha : a.value = some x) (hb : b.value = some y) : Ext.lt a b = decide (x < y) := by
  cases a <;> cases b <;> simp_all [Ext.value, Ext.lt]

theorem add_mono {a b c : Ext ℚ} (h : Ext.lt (Ext.add b c) (Ext.add a c) = true) : Ext.lt b a = true := by
  rcases a with x | _ | (_ | _) | _ <;> rcases b with y | _ | (_ | _) | _ <;> rcases c with z | _ | (_ | _) | _ <;>
    simp_all [Ext.add, Ext.lt, Ext.value]

end Ext

namespace F64

theorem rnd_self {a : Ext ℚ} (h : ∀ x, a.value = some x → Representable x) : rnd a = ⟨a⟩ := by
  cases a with
  | fin x => exact rnd_representable (h x rfl)
  | negZero => rfl
  | inf b => rfl
  | nan => rfl

theorem roundQ_over {x : ℚ} (h : Binary64.limit ≤ |x|) : roundQ x = .inf (decide (x < 0)) := by
  have h1 := fl_overflow h
  have h0 : x ≠ 0 := by
    rintro rfl
    rw [fl_zero, abs_zero] at h1
    exact absurd h1 (not_le.2 (by positivity))
  have h2 : fl x ≠ 0 := by
    intro h2
    rw [h2, abs_zero] at h1
    exact absurd h1 (not_le.2 (by positivity))
  rw [fl_of_ne h0] at h1 h2
  unfold lastBit at h1 h2
  unfold roundQ
  rw [if_neg h0]
  simp only
  rw [if_neg h2, if_pos (by rw [Nat.cast_pow]; exact h1)]

theorem roundQ_mono {x y : ℚ} (h : Ext.lt (roundQ x) (roundQ y) = true) : x < y := by
  by_contra hxy
  rw [not_lt] at hxy
  rcases lt_or_ge |x| Binary64.limit with hx | hx <;> rcases lt_or_ge |y| Binary64.limit with hy | hy
  · rw [Ext.lt_fin (roundQ_value (fl_no_overflow hx)) (roundQ_value (fl_no_overflow hy))] at h
    have := fl_mono hxy hy hx
    exact absurd (of_decide_eq_true h) (not_lt.2 this)
  · rw [roundQ_over hy] at h
    have hy0 : y < 0 := by
      by_contra hy0
      rw [not_lt] at hy0
      rw [abs_of_nonneg hy0] at hy
      have := le_abs_self x
      linarith
    rw [decide_eq_true hy0] at h
    revert h
    cases roundQ x <;> simp [Ext.lt]
  · rw [roundQ_over hx] at h
    have hx0 : ¬ x < 0 := by
      intro hx0
      rw [abs_of_neg hx0] at hx
      have := neg_abs_le y
      linarith
    rw [decide_eq_false hx0] at h
    revert h
    cases roundQ y <;> simp [Ext.lt]
  · rw [roundQ_over hx, roundQ_over hy] at h
    have h' : x < 0 ∧ ¬ y < 0 := by simpa [Ext.lt] using h
    have := h'.1
    exact h'.2 (by linarith)

theorem roundQ_zero : roundQ 0 = .fin 0 := if_pos rfl

/-- Rounding never turns an order around. -/
theorem rnd_mono {a b : Ext ℚ} (h : Ext.lt (rnd a).ext (rnd b).ext = true) : Ext.lt a b = true := by
  have hz : ∀ c : Ext ℚ, Ext.lt .negZero c = Ext.lt (roundQ 0) c := by
    intro c; rw [roundQ_zero]; cases c <;> simp [Ext.lt, Ext.value]
  have hz' : ∀ c : Ext ℚ, Ext.lt c .negZero = Ext.lt c (roundQ 0) := by
    intro c; rw [roundQ_zero]; cases c <;> simp [Ext.lt, Ext.value]
  have hinf : ∀ (s : Bool) (c : Ext ℚ), Ext.lt (.inf s) c = true → s = true := by
    intro s c; cases c <;> simp [Ext.lt] <;> tauto
  have hinf' : ∀ (s : Bool) (c : Ext ℚ), Ext.lt c (.inf s) = true → s = false := by
    intro s c; cases c <;> simp [Ext.lt]
  cases a with
  | nan => cases b <;> exact absurd h (by simp [rnd, Ext.lt])
  | inf s =>
    cases b with
    | nan => exact absurd h (by simp [rnd, Ext.lt])
    | inf t => exact h
    | fin y => have := hinf s _ h; simp [Ext.lt, this]
    | negZero => have := hinf s _ h; simp [Ext.lt, this]
  | fin x =>
    cases b with
    | nan => revert h; simp only [rnd]; cases roundQ x <;> simp [Ext.lt]
    | inf t => have := hinf' t _ h; simp [Ext.lt, this]
    | fin y => have := roundQ_mono h; simp [Ext.lt, Ext.value, this]
    | negZero =>
      simp only [rnd, hz'] at h
      have := roundQ_mono h; simp [Ext.lt, Ext.value, this]
  | negZero =>
    cases b with
    | nan => exact absurd h (by simp [rnd, Ext.lt])
    | inf t => have := hinf' t _ h; simp [Ext.lt, this]
    | fin y =>
      simp only [rnd, hz] at h
      have := roundQ_mono h; simp [Ext.lt, Ext.value, this]
    | negZero => exact absurd h (by simp [rnd, Ext.lt, Ext.value])

end F64

section
variable {F : Type} [FNum F] [Binary64 F]

theorem bits_ext {a b : F} (h : (Binary64.bits a).ext = (Binary64.bits b).ext) : a = b := by
  apply Binary64.bits_inj
  cases ha : Binary64.bits a
  cases hb : Binary64.bits b
  rw [ha, hb] at h
  simpa using h

theorem bits_whole (n : Int) (h : |n| ≤ 2 ^ 53) : Binary64.bits (FArith.ofInt n : F) = ⟨.fin n⟩ := by
  rw [Binary64.bits_ofInt]
  exact F64.rnd_representable (representable_int h)

/-- C83: addition and multiplication commute, for all numbers, zeros, infinities and NaN. -/
theorem C83_commutative (a b : F) : FArith.add a b = FArith.add b a ∧ FArith.mul a b = FArith.mul b a := by
  constructor
  · apply Binary64.bits_inj
    rw [Binary64.bits_add, Binary64.bits_add]
    show F64.rnd _ = F64.rnd _
    rw [Ext.add_comm']
  · apply Binary64.bits_inj
    rw [Binary64.bits_mul, Binary64.bits_mul]
    show F64.rnd _ = F64.rnd _
    rw [Ext.mul_comm']

/-- C83: `a*1` and `a/1` are `a`, `-(-a)` is `a`. -/
theorem C83_units (a : F) : FArith.mul a (FArith.ofInt 1) = a ∧ FArith.div a (FArith.ofInt 1) = a ∧ FArith.neg (FArith.neg a) = a := by
  have h1 : Binary64.bits (FArith.ofInt 1 : F) = ⟨.fin 1⟩ := by simpa using bits_whole (F := F) 1 (by norm_num)
  refine ⟨?_, ?_, ?_⟩
  · apply Binary64.bits_inj
    rw [Binary64.bits_mul, h1]
    show F64.rnd (Ext.mul _ _) = _
    rw [Ext.mul_one', F64.rnd_self fun x hx => Binary64.representable a x hx]
  · apply Binary64.bits_inj
    rw [Binary64.bits_div, h1]
    show F64.rnd (Ext.div _ _) = _
    rw [Ext.div_one', F64.rnd_self fun x hx => Binary64.representable a x hx]
  · apply bits_ext
    rw [Binary64.bits_neg, Binary64.bits_neg]
    exact Ext.neg_neg' _

/-- C83: `a-a` is 0 for every finite number, `a/a` is 1 for every finite number but 0. -/
theorem C83_cancel {a : F} {x : ℚ} (h : Binary64.val a = some x) :
    FArith.sub a a = FArith.ofInt 0 ∧ (x ≠ 0 → FArith.div a a = FArith.ofInt 1) := by
  constructor
  · apply Binary64.bits_inj
    have h0 : Binary64.bits (FArith.ofInt 0 : F) = ⟨.fin 0⟩ := by simpa using bits_whole (F := F) 0 (by norm_num)
    rw [Binary64.bits_sub, h0]
    show F64.rnd (Ext.sub _ _) = _
    rw [Ext.sub_self' h]
    rfl
  · intro hx
    apply Binary64.bits_inj
    rw [Binary64.bits_div, Binary64.bits_ofInt]
    show F64.rnd (Ext.div _ _) = F64.rnd _
    rw [Ext.div_self' h hx]
    norm_num

/-- C83: adding the same number never turns an order around. -/
theorem C83_monotone (a b c : F) (h : FArith.lt a b = true) : FArith.lt (FArith.add b c) (FArith.add a c) = false := by
  by_contra h'
  rw [Bool.not_eq_false, Binary64.bits_lt, Binary64.bits_add, Binary64.bits_add] at h'
  have h2 : Ext.lt (Binary64.bits b).ext (Binary64.bits a).ext = true := Ext.add_mono (F64.rnd_mono h')
  rw [Binary64.bits_lt] at h
  have h1 : Ext.lt (Binary64.bits a).ext (Binary64.bits b).ext = true := h
  revert h1 h2
  generalize (Binary64.bits b).ext = b
  generalize (Binary64.bits a).ext = a
  cases a <;> cases b <;> simp [Ext.lt, Ext.value] <;> intros <;> (try linarith) <;> simp_all

/-- C83: but addition is not associative, multiplication does not distribute, and `(a/b)*b` need not be `a`. -/
theorem C83_not_laws :
    (∃ a b c : F, FArith.beq (FArith.add (FArith.add a b) c) (FArith.add a (FArith.add b c)) = false) ∧
    (∃ a b c : F, FArith.beq (FArith.mul a (FArith.add b c)) (FArith.add (FArith.mul a b) (FArith.mul a c)) = false) ∧
    ∃ a b : F, FArith.beq (FArith.mul (FArith.div a b) b) a = false := by
  refine ⟨⟨FArith.ofDec 1 (-1), FArith.ofDec 2 (-1), FArith.ofDec 3 (-1), ?_⟩,
    ⟨FArith.ofInt 5, FArith.ofDec 1 (-1), FArith.ofDec 2 (-1), ?_⟩, ⟨FArith.ofInt 1, FArith.ofInt 49, ?_⟩⟩
  all_goals
    simp only [Binary64.bits_beq, Binary64.bits_add, Binary64.bits_mul, Binary64.bits_div, Binary64.bits_ofInt, Binary64.bits_ofDec]
    decide +kernel

/-- C83: sums of numbers, vectors and matrices do not depend on the order. -/
theorem C83_sum (a b : Value F) (ha : WFValue a) (hb : WFValue b) (v : Value F) : vAdd a b = .ok v ↔ vAdd b a = .ok v := by
  have key : ∀ a b : Value F, WFValue a → WFValue b → vAdd a b = .ok v → vAdd b a = .ok v := by
    intro a b ha hb h
    by_cases hs : SameShape a b
    · rw [← C30_commutes (fun x y => (C83_commutative x y).1) a b ha hb hs]
      exact h
    · obtain ⟨⟨e, he⟩, _⟩ := C30_mismatch a b ha hb hs
      rw [he] at h
      cases h
  exact ⟨key a b ha hb, key b a hb ha⟩

/-- C83: nor do products, unless one factor is a matrix and the other not a number. -/
theorem C83_product (a b : Value F) (h : ¬ ((∃ m, a = .matrix m) ∧ ¬ ∃ x, b = .scalar x))
    (h' : ¬ ((∃ m, b = .matrix m) ∧ ¬ ∃ x, a = .scalar x)) : vMult a b = vMult b a := by
  cases a <;> cases b
  all_goals first
    | rfl
    | exact C33_symmetric (fun x y => (C83_commutative x y).2) _ _
    | (exfalso; simp at h h'; done)
    | (simp only [vMult, ssmult, (C83_commutative _ _).2])

theorem flatMap_swap {α β γ : Type} (xs : List α) (ys : List β) (f : α → β → γ) :
    List.Perm (xs.flatMap fun a => ys.map fun b => f a b) (ys.flatMap fun b => xs.map fun a => f a b) := by
  rw [← Multiset.coe_eq_coe, ← Multiset.coe_bind, ← Multiset.coe_bind]
  have h1 : ∀ a, ((ys.map fun b => f a b : List γ) : Multiset γ) = (ys : Multiset β).bind fun b => {f a b} := by
    intro a; rw [Multiset.bind_singleton]; rfl
  have h2 : ∀ b, ((xs.map fun a => f a b : List γ) : Multiset γ) = (xs : Multiset α).bind fun a => {f a b} := by
    intro b; rw [Multiset.bind_singleton]; rfl
  simp only [h1, h2]
  exact Multiset.bind_bind _ _

/-- C83: the texts `l+r` and `r+l`, and `l*r` and `r*l`, give the same numbers, if `l` and `r` give numbers (with several values, in
another order). -/
theorem C83_swap [UTable] (cfg : Cfg) (op : BinOp) (hop : op = .add ∨ op = .mult) (l r : Ex) (hwf : (Ex.bin op l r).WF)
    (hwf' : (Ex.bin op r l).WF) (ctx : Context F) (xs ys : List F)
    (hl : Finishes (fun n => eval cfg n (l.tree cfg) ctx) (.ok (xs.map .scalar)))
    (hr : Finishes (fun n => eval cfg n (r.tree cfg) ctx) (.ok (ys.map .scalar))) :
    ∃ us vs : List (Value F), Finishes (fun n => quickEval cfg n (Ex.bin op l r).text ctx) (.ok us) ∧
      Finishes (fun n => quickEval cfg n (Ex.bin op r l).text ctx) (.ok vs) ∧ us.Perm vs := by
  rcases hop with rfl | rfl
  · refine ⟨_, _, C72_operator cfg .add _ rfl l r hwf ctx xs ys hl hr, C72_operator cfg .add _ rfl r l hwf' ctx ys xs hr hl, ?_⟩
    refine List.Perm.map _ ?_
    simp only [← List.map_eq_flatMap]
    refine (flatMap_swap _ _ _).trans (List.Perm.of_eq ?_)
    simp only [(C83_commutative _ _).1]
  · refine ⟨_, _, C72_operator cfg .mult _ rfl l r hwf ctx xs ys hl hr, C72_operator cfg .mult _ rfl r l hwf' ctx ys xs hr hl, ?_⟩
    refine List.Perm.map _ ?_
    simp only [← List.map_eq_flatMap]
    refine (flatMap_swap _ _ _).trans (List.Perm.of_eq ?_)
    simp only [(C83_commutative _ _).2]

end

/-- `x+y` and `y+x`, where `x` has the values 0.1 and infinity and `y` the values 3 and NaN. -/
example [UTable] : ∃ us vs : List (Value Double),
    Finishes (fun n => quickEval Cfg.default n "x+y".toList
      (⟨[⟨"x".toList, [.scalar (FArith.ofDec 1 (-1)), .scalar (FArith.inf false)]⟩,
        ⟨"y".toList, [.scalar (FArith.ofInt 3), .scalar FArith.nan]⟩], []⟩ : Context Double)) (.ok us) ∧
    Finishes (fun n => quickEval Cfg.default n "y+x".toList
      (⟨[⟨"x".toList, [.scalar (FArith.ofDec 1 (-1)), .scalar (FArith.inf false)]⟩,
        ⟨"y".toList, [.scalar (FArith.ofInt 3), .scalar FArith.nan]⟩], []⟩ : Context Double)) (.ok vs) ∧ us.Perm vs :=
  C83_swap Cfg.default .add (Or.inl rfl) (.var "x".toList) (.var "y".toList)
    ⟨wf_name (n := "x") (by decide), wf_name (n := "y") (by decide), by decide, by decide, nofun⟩
    ⟨wf_name (n := "y") (by decide), wf_name (n := "x") (by decide), by decide, by decide, nofun⟩ _ [_, _] [_, _]
    ⟨by simp, 1, rfl⟩ ⟨by simp, 1, rfl⟩

/-- 0.1 is finite and not 0, and 0.1 < 3. -/
example : FArith.div (FArith.ofDec 1 (-1) : Double) (FArith.ofDec 1 (-1)) = FArith.ofInt 1 ∧
    FArith.lt (FArith.add (FArith.ofInt 3 : Double) (FArith.inf true)) (FArith.add (FArith.ofDec 1 (-1)) (FArith.inf true)) = false := by
  constructor
  · obtain ⟨x, hx, hx0⟩ : ∃ x, Binary64.val (FArith.ofDec 1 (-1) : Double) = some x ∧ x ≠ 0 :=
      ⟨3602879701896397 / 36028797018963968, by decide +kernel, by norm_num⟩
    exact (C83_cancel hx).2 hx0
  · exact C83_monotone _ _ _ (by decide +kernel)

end MUL
