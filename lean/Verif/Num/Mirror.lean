import Verif.Num.Real
import Verif.Num.Rat
import Verif.Props.Scalar
import Verif.Proofs.FloatSearch
import Verif.Proofs.Newton
import Verif.Num.Tens
/-!
# Opposite numbers

What arithmetic does with opposite numbers, up to the sign of zero: needed for C106. Laws for the exact reals, for exact fractions and for binary64.
-/

set_option linter.unusedSectionVars false
set_option linter.unusedSimpArgs false

namespace MUL
open Out FArith FElem Spec

namespace Ext
variable {K : Type} [Field K] [LinearOrder K] [FloorRing K]

/-- Opposite numbers; the sign of zero does not matter. -/
def Opp (a b : Ext K) : Prop := (∃ x, a.value = some x ∧ b.value = some (-x)) ∨ (∃ s, a = .inf s ∧ b = .inf (!s)) ∨ (a = .nan ∧ b = .nan)

omit [LinearOrder K] [FloorRing K] in
theorem Opp.symm {a b : Ext K} (h : Opp a b) : Opp b a := by
  rcases h with ⟨x, h1, h2⟩ | ⟨s, rfl, rfl⟩ | ⟨rfl, rfl⟩
  · exact Or.inl ⟨-x, h2, by simpa using h1⟩
  · exact Or.inr (Or.inl ⟨!s, rfl, by simp⟩)
  · exact Or.inr (Or.inr ⟨rfl, rfl⟩)

omit [LinearOrder K] [FloorRing K] in
theorem value_cases (a : Ext K) : (∃ x, a.value = some x) ∨ (∃ s, a = .inf s) ∨ a = .nan := by
  cases a <;> simp [value]

omit [FloorRing K] in
theorem add_inf {a : Ext K} {x : K} (h : a.value = some x) (s : Bool) : add a (.inf s) = .inf s ∧ add (.inf s) a = .inf s := by
  cases a with
  | fin y => exact ⟨rfl, rfl⟩
  | negZero => exact ⟨rfl, rfl⟩
  | inf t => cases h
  | nan => cases h

omit [LinearOrder K] [FloorRing K] in
theorem add_nan' (a : Ext K) : add a .nan = .nan ∧ add .nan a = .nan := by
  cases a <;> exact ⟨rfl, rfl⟩

omit [FloorRing K] in
theorem Opp.add {a a' b b' : Ext K} (h : Opp a a') (h' : Opp b b') : Opp (add a b) (add a' b') := by
  rcases h with ⟨x, h1, h2⟩ | ⟨s, rfl, rfl⟩ | ⟨rfl, rfl⟩
  · rcases h' with ⟨y, h3, h4⟩ | ⟨t, rfl, rfl⟩ | ⟨rfl, rfl⟩
    · exact Or.inl ⟨x + y, add_value h1 h3, by rw [add_value h2 h4]; congr 1; ring⟩
    · rw [(add_inf h1 _).1, (add_inf h2 _).1]; exact Or.inr (Or.inl ⟨t, rfl, rfl⟩)
    · rw [(add_nan' _).1, (add_nan' _).1]; exact Or.inr (Or.inr ⟨rfl, rfl⟩)
  · rcases h' with ⟨y, h3, h4⟩ | ⟨t, rfl, rfl⟩ | ⟨rfl, rfl⟩
    · rw [(add_inf h3 _).2, (add_inf h4 _).2]; exact Or.inr (Or.inl ⟨s, rfl, rfl⟩)
    · cases s <;> cases t <;> simp [Ext.add, Opp]
    · rw [(add_nan' _).1, (add_nan' _).1]; exact Or.inr (Or.inr ⟨rfl, rfl⟩)
  · rw [(add_nan' _).2, (add_nan' _).2]; exact Or.inr (Or.inr ⟨rfl, rfl⟩)

omit [FloorRing K] in
theorem add_swap (a b : Ext K) : Ext.add a b = Ext.add b a := by
  cases a <;> cases b <;> simp [Ext.add, value, _root_.add_comm]
  split <;> split <;> simp_all

variable [IsStrictOrderedRing K]

omit [FloorRing K] in
theorem mul_neg_one_opp (a : Ext K) : Opp a (mul a (.fin (-1))) := by
  cases a with
  | fin x => exact Or.inl ⟨x, rfl, by simp [mul, value_fin, value_negZero]⟩
  | negZero => exact Or.inl ⟨0, rfl, by simp [mul, value_fin, value_negZero]⟩
  | inf s => exact Or.inr (Or.inl ⟨s, rfl, by simp [mul, value_fin, signNeg]⟩)
  | nan => exact Or.inr (Or.inr ⟨rfl, rfl⟩)

omit [FloorRing K] in
theorem neg_one_mul_opp (a : Ext K) : Opp a (mul (.fin (-1)) a) := by
  cases a with
  | fin x => exact Or.inl ⟨x, rfl, by simp [mul, value_fin, value_negZero]⟩
  | negZero => exact Or.inl ⟨0, rfl, by simp [mul, value_fin, value_negZero]⟩
  | inf s => exact Or.inr (Or.inl ⟨s, rfl, by simp [mul, value_fin, signNeg]⟩)
  | nan => exact Or.inr (Or.inr ⟨rfl, rfl⟩)

/-- Opposite non-zero numbers have opposite signs. -/
theorem Opp.sign {a b : Ext K} (h : Opp a b) (ha : a.value ≠ some 0) (hn : a ≠ .nan) : b.signNeg = !a.signNeg := by
  rcases h with ⟨x, h1, h2⟩ | ⟨s, rfl, rfl⟩ | ⟨rfl, rfl⟩
  · have hx : x ≠ 0 := by rintro rfl; exact ha h1
    cases a <;> cases b <;> simp_all [value, signNeg]
    · rcases lt_or_gt_of_ne hx with h | h
      · simp [h, h.le]
      · simp [h, h.le]
  · rfl
  · exact absurd rfl hn

theorem div_value {a b : Ext K} {x y : K} (ha : a.value = some x) (hb : b.value = some y) :
    div a b = if y = 0 then (if x = 0 then .nan else .inf (a.signNeg ^^ b.signNeg)) else mk (x / y) (a.signNeg ^^ b.signNeg) := by
  cases a <;> cases b <;> simp_all [value_fin, value_negZero, value_inf, value_nan, div]

theorem div_inf {a : Ext K} {x : K} (ha : a.value = some x) (s : Bool) :
    div a (.inf s) = mk 0 (a.signNeg ^^ s) ∧ div (.inf s) a = .inf (s ^^ a.signNeg) := by
  cases a <;> simp_all [value_fin, value_negZero, value_inf, value_nan, div]

theorem Opp.div_left {a a' : Ext K} (h : Opp a a') (c : Ext K) : Opp (div a c) (div a' c) := by
  rcases h with ⟨x, h1, h2⟩ | ⟨s, rfl, rfl⟩ | ⟨rfl, rfl⟩
  · rcases value_cases c with ⟨y, hy⟩ | ⟨t, rfl⟩ | rfl
    · rw [div_value h1 hy, div_value h2 hy]
      by_cases h0 : y = 0
      · by_cases hx : x = 0
        · simp [h0, hx, Opp]
        · have hs := Opp.sign (Or.inl ⟨x, h1, h2⟩) (by rw [h1]; simpa using hx) (by rintro rfl; cases h1)
          simp only [h0, hx, ↓reduceIte, neg_eq_zero, hs]
          exact Or.inr (Or.inl ⟨_, rfl, by simp⟩)
      · simp only [h0, ↓reduceIte]
        exact Or.inl ⟨x / y, value_mk _ _, by rw [value_mk, neg_div]⟩
    · rw [(div_inf h1 t).1, (div_inf h2 t).1]
      exact Or.inl ⟨0, value_mk _ _, by rw [value_mk, neg_zero]⟩
    · have : ∀ b : Ext K, div b .nan = .nan := fun b => by cases b <;> rfl
      rw [this, this]
      exact Or.inr (Or.inr ⟨rfl, rfl⟩)
  · rcases value_cases c with ⟨y, hy⟩ | ⟨t, rfl⟩ | rfl
    · rw [(div_inf hy _).2, (div_inf hy _).2]
      exact Or.inr (Or.inl ⟨_, rfl, by simp⟩)
    · exact Or.inr (Or.inr ⟨rfl, rfl⟩)
    · exact Or.inr (Or.inr ⟨rfl, rfl⟩)
  · exact Or.inr (Or.inr ⟨rfl, rfl⟩)

/-- The quotient of the opposites is the quotient, unless both are not finite. -/
theorem Opp.div {a a' d d' : Ext K} (h : Opp a a') (h' : Opp d d') (ha : a.value ≠ some 0) :
    div a d = div a' d' ∨ (div a d).value = none ∧ (div a' d').value = none := by
  rcases h with ⟨x, h1, h2⟩ | ⟨s, rfl, rfl⟩ | ⟨rfl, rfl⟩
  · have hx : x ≠ 0 := by rintro rfl; exact ha h1
    have hs := Opp.sign (Or.inl ⟨x, h1, h2⟩) ha (by rintro rfl; cases h1)
    rcases h' with ⟨y, h3, h4⟩ | ⟨t, rfl, rfl⟩ | ⟨rfl, rfl⟩
    · rw [div_value h1 h3, div_value h2 h4]
      by_cases h0 : y = 0
      · right
        simp [h0, hx, value_inf]
      · left
        have ht := Opp.sign (Or.inl ⟨y, h3, h4⟩) (by rw [h3]; simpa using h0) (by rintro rfl; cases h3)
        simp only [h0, neg_eq_zero, ↓reduceIte, hs, ht, neg_div_neg_eq]
        simp
    · left
      rw [(div_inf h1 _).1, (div_inf h2 _).1, hs]
      simp
    · right
      have : ∀ b : Ext K, Ext.div b .nan = .nan := fun b => by cases b <;> rfl
      rw [this, this]
      exact ⟨rfl, rfl⟩
  · right
    rcases h' with ⟨y, h3, h4⟩ | ⟨t, rfl, rfl⟩ | ⟨rfl, rfl⟩
    · rw [(div_inf h3 _).2, (div_inf h4 _).2]
      exact ⟨rfl, rfl⟩
    · exact ⟨rfl, rfl⟩
    · exact ⟨rfl, rfl⟩
  · exact Or.inl rfl

theorem Opp.square {a a' : Ext K} (h : Opp a a') : powi a 2 = powi a' 2 := by
  rcases h with ⟨x, h1, h2⟩ | ⟨s, rfl, rfl⟩ | ⟨rfl, rfl⟩
  · have : ∀ (b : Ext K) (y : K), b.value = some y → powi b 2 = .fin (y ^ 2) := by
      intro b y hb
      cases b with
      | fin z =>
        obtain rfl : z = y := by simpa [value_fin] using hb
        simp only [powi, value_fin]
        norm_num [mk]
      | negZero =>
        obtain rfl : 0 = y := by simpa [value_negZero] using hb
        simp [powi, value_negZero, mk]
      | inf s => cases hb
      | nan => cases hb
    rw [this a x h1, this a' (-x) h2, neg_sq]
  · cases s <;> simp [powi]
  · rfl

theorem Opp.mul_self {a a' : Ext K} (h : Opp a a') : Ext.mul a a = Ext.mul a' a' := by
  rcases h with ⟨x, h1, h2⟩ | ⟨s, rfl, rfl⟩ | ⟨rfl, rfl⟩
  · have : ∀ (b : Ext K) (y : K), b.value = some y → Ext.mul b b = .fin (y * y) := by
      intro b y hb
      cases b with
      | fin z =>
        obtain rfl : z = y := by simpa [value_fin] using hb
        simp [Ext.mul, value_fin, mk]
      | negZero =>
        obtain rfl : 0 = y := by simpa [value_negZero] using hb
        simp [Ext.mul, value_negZero, mk]
      | inf s => cases hb
      | nan => cases hb
    rw [this a x h1, this a' (-x) h2, neg_mul_neg]
  · cases s <;> simp [Ext.mul, value_inf, signNeg]
  · rfl

/-- Not finite. -/
theorem bad_of_none {a : Ext K} (h : a.value = none) : isNaN a = true ∨ isInf a = true := by
  cases a <;> simp_all [value_fin, value_negZero, isNaN, isInf]

end Ext

/-- Arithmetic with opposite numbers. -/
class Mirror (F : Type) [FNum F] where
  Opp : F → F → Prop
  /-- `a-b` and `b-a` are opposite -/
  diff_swap : ∀ a b : F, Opp (add a (mul b (ofInt (-1)))) (add b (mul a (ofInt (-1))))
  /-- the difference of opposites is opposite -/
  diff_opp : ∀ {a a' b b' : F}, Opp a a' → Opp b b' → Opp (add a (mul b (ofInt (-1)))) (add a' (mul b' (ofInt (-1))))
  div_opp : ∀ {a a' : F} (c : F), Opp a a' → Opp (div a c) (div a' c)
  square : ∀ {a a' : F}, Opp a a' → powi a 2 = powi a' 2
  /-- the step of Newton's method is the same, or there is none -/
  step : ∀ {cfg : Cfg} {a a' d d' : F}, cfg.prec ≤ 22 → Opp a a' → Opp d d' → normSmall cfg [a] = false → ∀ old : F,
    add (div (mul (ofInt (-1)) a) d) old = add (div (mul (ofInt (-1)) a') d') old ∨
    (isNaN (add (div (mul (ofInt (-1)) a) d) old) = true ∨ isInf (add (div (mul (ofInt (-1)) a) d) old) = true) ∧
    (isNaN (add (div (mul (ofInt (-1)) a') d') old) = true ∨ isInf (add (div (mul (ofInt (-1)) a') d') old) = true)

section
variable {K : Type} [Field K] [LinearOrder K] [FloorRing K] [IsStrictOrderedRing K]

theorem ext_diff_swap (a b : Ext K) : Ext.Opp (Ext.add a (Ext.mul b (.fin (-1)))) (Ext.add b (Ext.mul a (.fin (-1)))) := by
  rw [Ext.add_swap b]
  exact (Ext.mul_neg_one_opp a).add (Ext.mul_neg_one_opp b).symm

theorem Ext.Opp.chain {a a' n n' : Ext K} (h : Ext.Opp a a') (h1 : Ext.Opp a n) (h2 : Ext.Opp a' n') : Ext.Opp n n' := by
  rcases h with ⟨x, e1, e2⟩ | ⟨s, rfl, rfl⟩ | ⟨rfl, rfl⟩
  · rcases h1 with ⟨y, e3, e4⟩ | ⟨s, rfl, rfl⟩ | ⟨rfl, rfl⟩
    · rcases h2 with ⟨z, e5, e6⟩ | ⟨s, rfl, rfl⟩ | ⟨rfl, rfl⟩
      · rw [e1] at e3
        rw [e2] at e5
        cases e3
        cases e5
        exact Or.inl ⟨-x, e4, e6⟩
      · cases e2
      · cases e2
    · cases e1
    · cases e1
  · rcases h1 with ⟨y, e3, e4⟩ | ⟨t, e3, rfl⟩ | ⟨e3, rfl⟩
    · cases e3
    · rcases h2 with ⟨z, e5, e6⟩ | ⟨u, e5, rfl⟩ | ⟨e5, rfl⟩
      · cases e5
      · cases e3
        cases e5
        exact Or.inr (Or.inl ⟨_, rfl, rfl⟩)
      · cases e5
    · cases e3
  · rcases h1 with ⟨y, e3, e4⟩ | ⟨t, e3, rfl⟩ | ⟨e3, rfl⟩
    · cases e3
    · cases e3
    · rcases h2 with ⟨z, e5, e6⟩ | ⟨u, e5, rfl⟩ | ⟨e5, rfl⟩
      · cases e5
      · cases e5
      · exact Or.inr (Or.inr ⟨rfl, rfl⟩)

theorem Ext.Opp.nonzero {a b : Ext K} (h : Ext.Opp a b) (ha : a.value ≠ some 0) : b.value ≠ some 0 := by
  rcases h with ⟨x, h1, h2⟩ | ⟨s, rfl, rfl⟩ | ⟨rfl, rfl⟩
  · rw [h2]
    intro h0
    apply ha
    rw [h1]
    simpa using h0
  · nofun
  · nofun

theorem ext_step {a a' d d' : Ext K} (h : Ext.Opp a a') (h' : Ext.Opp d d') (ha : a.value ≠ some 0) :
    Ext.div (Ext.mul (.fin (-1)) a) d = Ext.div (Ext.mul (.fin (-1)) a') d' ∨
    (Ext.div (Ext.mul (.fin (-1)) a) d).value = none ∧ (Ext.div (Ext.mul (.fin (-1)) a') d').value = none :=
  Ext.Opp.div (h.chain (Ext.neg_one_mul_opp a) (Ext.neg_one_mul_opp a')) h' ((Ext.neg_one_mul_opp a).nonzero ha)

/-- Exact arithmetic: it is only needed that zero counts as small. -/
@[instance_reducible] def Mirror.ofExact [FNum (Ext K)] (hI : (FNum.toFArith : FArith (Ext K)) = Ext.instFArith)
    (hz : ∀ (cfg : Cfg) (a : Ext K), a.value = some 0 → normSmall cfg [a] = true) : Mirror (Ext K) where
  Opp := Ext.Opp
  diff_swap a b := by
    rw [hI]
    show Ext.Opp (Ext.add a (Ext.mul b (.fin ((-1 : Int) : K)))) (Ext.add b (Ext.mul a (.fin ((-1 : Int) : K))))
    push_cast
    exact ext_diff_swap a b
  diff_opp {a a' b b'} h h' := by
    rw [hI]
    show Ext.Opp (Ext.add a (Ext.mul b (.fin ((-1 : Int) : K)))) (Ext.add a' (Ext.mul b' (.fin ((-1 : Int) : K))))
    push_cast
    exact h.add (h'.chain (Ext.mul_neg_one_opp b) (Ext.mul_neg_one_opp b'))
  div_opp c h := by rw [hI]; exact h.div_left c
  square h := by rw [hI]; exact h.square
  step {cfg a a' d d'} _ h h' hs old := by
    have ha : a.value ≠ some 0 := fun h0 => by rw [hz cfg a h0] at hs; cases hs
    rw [hI]
    show Ext.add (Ext.div (Ext.mul (.fin ((-1 : Int) : K)) a) d) old = Ext.add (Ext.div (Ext.mul (.fin ((-1 : Int) : K)) a') d') old ∨ _
    rcases ext_step h h' ha with h0 | ⟨h1, h2⟩
    · left
      push_cast
      rw [h0]
    · right
      constructor
      · refine Ext.bad_of_none (Ext.add_value_none (Or.inl ?_))
        show (Ext.div (Ext.mul (.fin ((-1 : Int) : K)) a) d).value = none
        push_cast
        exact h1
      · refine Ext.bad_of_none (Ext.add_value_none (Or.inl ?_))
        show (Ext.div (Ext.mul (.fin ((-1 : Int) : K)) a') d').value = none
        push_cast
        exact h2

end

noncomputable instance : Mirror (Ext ℝ) := Mirror.ofExact rfl fun cfg a h => by
  have := normSmall_one (cfg := cfg) (r := a) (y := 0) h
  rw [this, abs_zero]
  exact decide_eq_true (zpow_pos (by norm_num) _)

instance : Mirror Q := Mirror.ofExact rfl fun cfg a h => by
  have h1 : (powi a 2 : Q) = .fin 0 := by
    cases a with
    | fin x =>
      obtain rfl : x = 0 := by simpa [Ext.value] using h
      decide +kernel
    | negZero => decide +kernel
    | inf s => cases h
    | nan => cases h
  have h2 : norm [a] = (.fin 0 : Q) := by
    unfold norm
    simp only [List.foldl_cons, List.foldl_nil, h1]
    decide +kernel
  unfold normSmall
  rw [h2]
  have h3 : (powi (ofInt 10) (-(cfg.prec : Int)) : Q) = .fin (10 ^ (-(cfg.prec : Int))) := by
    show Ext.powi (.fin ((10 : Int) : ℚ)) _ = _
    unfold Ext.powi
    simp only [Ext.value_fin]
    push_cast
    simp [Ext.mk]
  have h4 : (0 : ℚ) < 10 ^ (-(cfg.prec : Int)) := zpow_pos (by norm_num) _
  dsimp only
  rw [h3]
  show (Ext.lt (Ext.neg (.fin _)) (.fin 0) && Ext.lt (.fin 0) (.fin _)) = true
  generalize (10 : ℚ) ^ (-(cfg.prec : Int)) = p at h4
  simp [Ext.lt, Ext.neg, Ext.mk, Ext.value, h4.ne', h4]

/-! ## binary64 -/

theorem lastBit_neg (x : ℚ) : F64.ilog2 (-x) = F64.ilog2 x := by
  unfold F64.ilog2
  simp

theorem roundQ_value_opp (x : ℚ) : Ext.Opp (F64.roundQ x) (F64.roundQ (-x)) := by
  unfold F64.roundQ
  by_cases hx : x = 0
  · simp [hx, Ext.Opp, Ext.value]
  · simp only [hx, neg_eq_zero, ↓reduceIte, lastBit_neg, neg_div, roundEven_neg, Int.cast_neg, neg_mul]
    generalize (F64.roundEven (x / F64.pow2 (max (F64.ilog2 x - 52) (-1074))) : ℚ) * F64.pow2 (max (F64.ilog2 x - 52) (-1074)) = r
    by_cases hr : r = 0
    · simp only [hr, neg_zero, ↓reduceIte]
      exact Or.inl ⟨0, by split <;> rfl, by split <;> simp [Ext.value]⟩
    · simp only [hr, neg_eq_zero, ↓reduceIte, abs_neg]
      split
      · refine Or.inr (Or.inl ⟨_, rfl, ?_⟩)
        rcases lt_or_gt_of_ne hx with h | h
        · simp [h, h.le]
        · simp [h, h.le]
      · exact Or.inl ⟨r, rfl, rfl⟩

theorem rnd_value_opp {a b : Ext ℚ} (h : Ext.Opp a b) : Ext.Opp (F64.rnd a).ext (F64.rnd b).ext := by
  rcases h with ⟨x, h1, h2⟩ | ⟨s, rfl, rfl⟩ | ⟨rfl, rfl⟩
  · have key : ∀ (c : Ext ℚ) (y : ℚ), c.value = some y → (F64.rnd c).ext = F64.roundQ y ∨ y = 0 ∧ (F64.rnd c).ext.value = some 0 := by
      intro c y hc
      cases c with
      | fin z =>
        obtain rfl : z = y := by simpa [Ext.value] using hc
        exact Or.inl rfl
      | negZero =>
        obtain rfl : 0 = y := by simpa [Ext.value] using hc
        exact Or.inr ⟨rfl, rfl⟩
      | inf s => cases hc
      | nan => cases hc
    have z0 : (F64.roundQ 0).value = some 0 := rfl
    rcases key a x h1 with e1 | ⟨e1, e1'⟩
    · rcases key b (-x) h2 with e2 | ⟨e2, e2'⟩
      · rw [e1, e2]; exact roundQ_value_opp x
      · obtain rfl : x = 0 := by simpa using e2
        exact Or.inl ⟨0, by rw [e1]; rfl, by rw [e2', neg_zero]⟩
    · subst e1
      refine Or.inl ⟨0, e1', ?_⟩
      rcases key b (-0) h2 with e2 | ⟨e2, e2'⟩
      · rw [e2, neg_zero]; rfl
      · rw [e2', neg_zero]
  · exact Or.inr (Or.inl ⟨s, rfl, rfl⟩)
  · exact Or.inr (Or.inr ⟨rfl, rfl⟩)

theorem neg_value_opp (a : Ext ℚ) : Ext.Opp a (Ext.neg a) := by
  cases a with
  | fin x => exact Or.inl ⟨x, rfl, by unfold Ext.neg; simp [Ext.value_mk]⟩
  | negZero => exact Or.inl ⟨0, rfl, by simp [Ext.neg, Ext.value]⟩
  | inf s => exact Or.inr (Or.inl ⟨s, rfl, rfl⟩)
  | nan => exact Or.inr (Or.inr ⟨rfl, rfl⟩)

/-- binary64 arithmetic, with `x.powi(2)` computed as `x*x`. -/
@[instance_reducible] def Mirror.ofBinary64 {F : Type} [FNum F] [Binary64 F] {u : ℝ} [Libm F u] (hu : u ≤ 1 / 2 ^ 20)
    (hsq : ∀ a : F, powi a 2 = mul a a) : Mirror F where
  Opp a b := Ext.Opp (Binary64.bits a).ext (Binary64.bits b).ext
  diff_swap a b := by
    rw [(C72_negated b).2, (C72_negated a).2, Binary64.bits_add, Binary64.bits_add, Binary64.bits_neg, Binary64.bits_neg]
    refine rnd_value_opp ?_
    rw [Ext.add_swap (Binary64.bits b).ext]
    exact (neg_value_opp _).add (neg_value_opp _).symm
  diff_opp {a a' b b'} h h' := by
    rw [(C72_negated b).2, (C72_negated b').2, Binary64.bits_add, Binary64.bits_add, Binary64.bits_neg, Binary64.bits_neg]
    exact rnd_value_opp (h.add (h'.chain (neg_value_opp _) (neg_value_opp _)))
  div_opp c h := by
    rw [Binary64.bits_div, Binary64.bits_div]
    exact rnd_value_opp (h.div_left _)
  square {a a'} h := by
    apply Binary64.bits_inj
    rw [hsq, hsq, Binary64.bits_mul, Binary64.bits_mul]
    show F64.rnd (Ext.mul _ _) = F64.rnd (Ext.mul _ _)
    rw [h.mul_self]
  step {cfg a a' d d'} hp h h' hs old := by
    have ha : (Binary64.bits a).ext.value ≠ some 0 := by
      intro h0
      have hz : normSmall cfg [a] = true := by
        refine small_of_le (u := u) hu hp (q := 0) h0 ?_
        simp only [Rat.cast_zero, abs_zero]
        have := zpow_pos (show (0 : ℝ) < 10 by norm_num) (-(cfg.prec : Int))
        linarith
      rw [hz] at hs
      cases hs
    rw [(C72_negated a).1, (C72_negated a').1]
    have hd := Ext.Opp.div (h.chain (neg_value_opp _) (neg_value_opp _)) h' ((neg_value_opp _).nonzero ha)
    rcases hd with e | ⟨e1, e2⟩
    · left
      have : div (neg a) d = div (neg a') d' := by
        apply Binary64.bits_inj
        rw [Binary64.bits_div, Binary64.bits_div, Binary64.bits_neg, Binary64.bits_neg]
        show F64.rnd (Ext.div (Ext.neg _) _) = F64.rnd (Ext.div (Ext.neg _) _)
        rw [e]
      rw [this]
    · right
      have key : ∀ x y : F, (Ext.div (Ext.neg (Binary64.bits x).ext) (Binary64.bits y).ext).value = none →
          isNaN (add (div (neg x) y) old) = true ∨ isInf (add (div (neg x) y) old) = true := by
        intro x y hxy
        rw [Binary64.bits_isNaN, Binary64.bits_isInf, Binary64.bits_add, Binary64.bits_div, Binary64.bits_neg]
        show isNaN (F64.rnd (Ext.add (F64.rnd (Ext.div (Ext.neg (Binary64.bits x).ext) (Binary64.bits y).ext)).ext (Binary64.bits old).ext)).ext = true ∨
          isInf (F64.rnd (Ext.add (F64.rnd (Ext.div (Ext.neg (Binary64.bits x).ext) (Binary64.bits y).ext)).ext (Binary64.bits old).ext)).ext = true
        have hn : ∀ c : Ext ℚ, c.value = none → (F64.rnd c).ext.value = none := by
          intro c hc
          cases c <;> simp_all [F64.rnd, Ext.value]
        exact Ext.bad_of_none (hn _ (Ext.add_value_none (Or.inl (hn _ hxy))))
      exact ⟨key a d e1, key a' d' e2⟩

theorem one_mul_ext (e : Ext ℚ) : Ext.mul (.fin 1) e = e := by
  cases e with
  | fin x =>
    by_cases h : x = 0
    · subst h; decide +kernel
    · simp [Ext.mul, Ext.mk, Ext.value, h]
  | negZero => decide +kernel
  | inf s => cases s <;> decide +kernel
  | nan => rfl

theorem double_square (a : Double) : powi a 2 = mul a a := by
  apply Binary64.bits_inj
  rw [Binary64.bits_mul]
  show F64.powi a.bits 2 = F64.rnd (Ext.mul a.bits.ext a.bits.ext)
  have h1 : F64.powi a.bits 2 = F64.rnd (Ext.mul (.fin 1) (F64.rnd (Ext.mul a.bits.ext a.bits.ext)).ext) := by
    unfold F64.powi
    simp [F64.powiLoop]
  rw [h1, one_mul_ext]
  have hrep := Double.rep_rnd (Ext.mul a.bits.ext a.bits.ext)
  generalize F64.rnd (Ext.mul a.bits.ext a.bits.ext) = e at hrep
  obtain ⟨e⟩ := e
  cases e with
  | fin x => exact F64.rnd_representable (hrep x rfl)
  | negZero => rfl
  | inf s => rfl
  | nan => rfl

noncomputable instance : Mirror Double := Mirror.ofBinary64 (u := 1 / 2 ^ 53) (by norm_num) double_square

end MUL
