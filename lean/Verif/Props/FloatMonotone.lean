import Verif.Props.FloatLaws
/-!
# C83: operations that keep or turn the order
-/

namespace MUL
open FArith

namespace Ext

@[simp] theorem lt_mk_left (x : ℚ) (s : Bool) (c : Ext ℚ) : Ext.lt (Ext.mk x s) c = Ext.lt (.fin x) c := by
  unfold Ext.mk
  split
  · rename_i h
    rw [h.1]
    cases c <;> simp [Ext.lt, Ext.value]
  · rfl

@[simp] theorem lt_mk_right (x : ℚ) (s : Bool) (c : Ext ℚ) : Ext.lt c (Ext.mk x s) = Ext.lt c (.fin x) := by
  unfold Ext.mk
  split
  · rename_i h
    rw [h.1]
    cases c <;> simp [Ext.lt, Ext.value]
  · rfl

theorem neg_anti (a b : Ext ℚ) : Ext.lt (Ext.neg a) (Ext.neg b) = Ext.lt b a := by
  rcases a with x | _ | (_ | _) | _ <;> rcases b with y | _ | (_ | _) | _ <;> simp [Ext.neg] <;> simp [Ext.lt, Ext.value]

theorem mul_mono_pos {a b c : Ext ℚ} (hc : Ext.lt (.fin 0) c = true) (h : Ext.lt (Ext.mul b c) (Ext.mul a c) = true) : Ext.lt b a = true := by
  rcases c with z | _ | (_ | _) | _
  case fin =>
    have hz : 0 < z := by simpa [Ext.lt, Ext.value] using hc
    have hz' : ¬ z < 0 := by linarith
    rcases a with x | _ | (_ | _) | _ <;> rcases b with y | _ | (_ | _) | _ <;>
      simp_all [Ext.mul, Ext.value, Ext.signNeg, hz.ne'] <;> simp_all [Ext.lt, Ext.value, mul_lt_mul_iff_left₀ hz] <;>
      first | linarith | (by_contra hn; have := mul_nonneg (not_lt.1 hn) hz.le; linarith)
  case inf.false =>
    rcases a with x | _ | (_ | _) | _ <;> rcases b with y | _ | (_ | _) | _ <;>
      simp only [Ext.mul, Ext.value, Ext.signNeg, Option.some.injEq] at h <;> (try split_ifs at h) <;>
      simp only [Ext.lt, Ext.value, Bool.false_eq_true, Bool.and_eq_true, Bool.not_eq_true', decide_eq_true_eq, reduceCtorEq] at h ⊢ <;>
      first | (obtain ⟨h1, h2⟩ := h; linarith) | tauto | (simp_all; done) | (simp at h; linarith [h.1, h.2])
  all_goals simp [Ext.lt, Ext.value] at hc

theorem div_mono_pos {a b c : Ext ℚ} (hc : Ext.lt (.fin 0) c = true) (h : Ext.lt (Ext.div b c) (Ext.div a c) = true) : Ext.lt b a = true := by
  rcases c with z | _ | (_ | _) | _
  case fin =>
    have hz : 0 < z := by simpa [Ext.lt, Ext.value] using hc
    have hz' : ¬ z < 0 := by linarith
    rcases a with x | _ | (_ | _) | _ <;> rcases b with y | _ | (_ | _) | _ <;>
      simp_all [Ext.div, Ext.value, Ext.signNeg, hz.ne'] <;> simp_all [Ext.lt, Ext.value, div_lt_div_iff_of_pos_right hz] <;>
      first | linarith | (by_contra hn; have := div_nonneg (not_lt.1 hn) hz.le; linarith)
  case inf.false =>
    rcases a with x | _ | (_ | _) | _ <;> rcases b with y | _ | (_ | _) | _ <;>
      simp_all [Ext.div, Ext.signNeg] <;> simp_all [Ext.lt, Ext.value]
  all_goals simp [Ext.lt, Ext.value] at hc

theorem lt_asymm' {a b : Ext ℚ} (h : Ext.lt a b = true) : Ext.lt b a = false := by
  rcases a with x | _ | (_ | _) | _ <;> rcases b with y | _ | (_ | _) | _ <;> simp_all [Ext.lt, Ext.value] <;> linarith

end Ext

variable {F : Type} [FNum F] [Binary64 F]

/-- **C83.** Let `a < b`. Subtracting the same number, multiplying and dividing by the same positive number never turns the order around;
subtracting from the same number never keeps it; `-b < -a`. Infinities and NaN included. -/
theorem C83_order (a b c : F) (h : FArith.lt a b = true) :
    FArith.lt (FArith.sub b c) (FArith.sub a c) = false ∧ FArith.lt (FArith.sub c a) (FArith.sub c b) = false ∧
    FArith.lt (FArith.neg b) (FArith.neg a) = true ∧
    (FArith.lt (FArith.ofInt 0) c = true →
      FArith.lt (FArith.mul b c) (FArith.mul a c) = false ∧ FArith.lt (FArith.mul c b) (FArith.mul c a) = false ∧
      FArith.lt (FArith.div b c) (FArith.div a c) = false) := by
  have hab : Ext.lt (Binary64.bits a).ext (Binary64.bits b).ext = true := by rw [Binary64.bits_lt] at h; exact h
  have hba := Ext.lt_asymm' hab
  have h0 : Binary64.bits (FArith.ofInt 0 : F) = ⟨.fin 0⟩ := by simpa using bits_whole (F := F) 0 (by norm_num)
  have no : ∀ {x : Bool}, (x = true → Ext.lt (Binary64.bits b).ext (Binary64.bits a).ext = true) → x = false := by
    intro x hx
    cases x with
    | false => rfl
    | true => rw [hx rfl] at hba; cases hba
  have hmul : FArith.lt (FArith.ofInt 0) c = true → FArith.lt (FArith.mul b c) (FArith.mul a c) = false := by
    intro hc
    rw [Binary64.bits_lt, h0] at hc
    refine no fun hx => Ext.mul_mono_pos hc ?_
    rw [Binary64.bits_lt, Binary64.bits_mul, Binary64.bits_mul] at hx
    exact F64.rnd_mono hx
  refine ⟨no fun hx => ?_, no fun hx => ?_, ?_, fun hc => ⟨hmul hc, ?_, no fun hx => ?_⟩⟩
  · rw [Binary64.bits_lt, Binary64.bits_sub, Binary64.bits_sub] at hx
    exact Ext.add_mono (F64.rnd_mono hx)
  · rw [Binary64.bits_lt, Binary64.bits_sub, Binary64.bits_sub] at hx
    have := F64.rnd_mono hx
    rw [show Ext.sub _ _ = Ext.add _ _ from rfl, show Ext.sub _ _ = Ext.add _ _ from rfl, Ext.add_comm', Ext.add_comm' _ (Ext.neg _)] at this
    have := Ext.add_mono this
    rwa [Ext.neg_anti] at this
  · rw [Binary64.bits_lt, Binary64.bits_neg, Binary64.bits_neg]
    show Ext.lt (Ext.neg _) (Ext.neg _) = true
    rw [Ext.neg_anti]
    exact hab
  · rw [(C83_commutative c b).2, (C83_commutative c a).2]
    exact hmul hc
  · rw [Binary64.bits_lt, h0] at hc
    rw [Binary64.bits_lt, Binary64.bits_div, Binary64.bits_div] at hx
    exact Ext.div_mono_pos hc (F64.rnd_mono hx)

/-- `1 < 2`, with the numbers of `f64`. -/
example (c : Double) := C83_order (FArith.ofInt 1 : Double) (FArith.ofInt 2) c (by
  rw [Binary64.bits_lt, show Binary64.bits (FArith.ofInt 1 : Double) = ⟨.fin 1⟩ by simpa using bits_whole (F := Double) 1 (by norm_num),
    show Binary64.bits (FArith.ofInt 2 : Double) = ⟨.fin 2⟩ by simpa using bits_whole (F := Double) 2 (by norm_num)]
  decide +kernel)

end MUL
