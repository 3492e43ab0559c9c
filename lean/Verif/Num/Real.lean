import Verif.Num.Ext
import Mathlib.Analysis.SpecialFunctions.Pow.Real
import Mathlib.Analysis.SpecialFunctions.Trigonometric.Inverse
import Mathlib.Analysis.SpecialFunctions.Trigonometric.Arctan
/-!
# Exact elementary functions

The laws used by theorems about `sqrt`, `sin`, ...: on finite arguments inside its domain each of them is the real
function. `Ext ℝ` satisfies them.
-/

namespace MUL

/-- Exact arithmetic on real numbers with exact elementary functions. -/
class ExactReal (F : Type) [FArith F] [FElem F] extends Exact F ℝ where
  val_sqrt : ∀ {a x}, val a = some x → 0 ≤ x → val (FElem.sqrt a) = some (Real.sqrt x)
  sqrt_neg : ∀ {a x}, val a = some x → x < 0 → FArith.isNaN (FElem.sqrt a) = true
  sqrt_none : ∀ {a}, val a = none → val (FElem.sqrt a) = none
  val_sin : ∀ a, val (FElem.sin a) = (val a).map Real.sin
  val_cos : ∀ a, val (FElem.cos a) = (val a).map Real.cos
  val_tan : ∀ {a x}, val a = some x → Real.cos x ≠ 0 → val (FElem.tan a) = some (Real.tan x)
  val_asin : ∀ {a x}, val a = some x → -1 ≤ x → x ≤ 1 → val (FElem.asin a) = some (Real.arcsin x)
  val_acos : ∀ {a x}, val a = some x → -1 ≤ x → x ≤ 1 → val (FElem.acos a) = some (Real.arccos x)
  asin_nan : ∀ {a x}, val a = some x → x < -1 ∨ 1 < x → FArith.isNaN (FElem.asin a) = true
  acos_nan : ∀ {a x}, val a = some x → x < -1 ∨ 1 < x → FArith.isNaN (FElem.acos a) = true
  val_atan : ∀ {a x}, val a = some x → val (FElem.atan a) = some (Real.arctan x)
  val_ln : ∀ {a x}, val a = some x → 0 < x → val (FElem.ln a) = some (Real.log x)
  ln_zero : ∀ {a}, val a = some 0 → FArith.isInf (FElem.ln a) = true
  ln_neg : ∀ {a x}, val a = some x → x < 0 → FArith.isNaN (FElem.ln a) = true
  /-- positive base, or zero to a positive power -/
  val_powf : ∀ {a b x y}, val a = some x → val b = some y → 0 < x ∨ (x = 0 ∧ 0 < y) → val (FElem.powf a b) = some (x ^ y)
  /-- integer exponents -/
  val_powf_int : ∀ {a b x} {n : Int}, val a = some x → val b = some (n : ℝ) → (0 ≤ n ∨ x ≠ 0) →
    val (FElem.powf a b) = some (x ^ n)
  /-- negative base, exponent not an integer -/
  powf_neg : ∀ {a b x y}, val a = some x → val b = some y → x < 0 → (∀ n : Int, y ≠ n) →
    FArith.isNaN (FElem.powf a b) = true
  /-- zero to a negative power -/
  powf_zero : ∀ {a b y}, val a = some 0 → val b = some y → y < 0 → val (FElem.powf a b) = none
  val_pi : val FElem.pi = some Real.pi
  val_e : val FElem.e = some (Real.exp 1)

open Classical in
noncomputable instance : FElem (Ext ℝ) where
  powf a b := match a.value, b.value with
    | some x, some y =>
      if h : ∃ n : Int, y = n then FArith.powi a h.choose
      else if x < 0 then .nan
      else if x = 0 ∧ y < 0 then .inf false
      else .fin (x ^ y)
    | _, _ => .nan
  sqrt a := match a with
    | .fin x => if x < 0 then .nan else .fin (Real.sqrt x)
    | .negZero => .negZero
    | .inf false => .inf false
    | _ => .nan
  sin a := match a.value with
    | some x => .fin (Real.sin x)
    | none => .nan
  cos a := match a.value with
    | some x => .fin (Real.cos x)
    | none => .nan
  tan a := match a.value with
    | some x => .fin (Real.tan x)
    | none => .nan
  asin a := match a.value with
    | some x => if -1 ≤ x ∧ x ≤ 1 then .fin (Real.arcsin x) else .nan
    | none => .nan
  acos a := match a.value with
    | some x => if -1 ≤ x ∧ x ≤ 1 then .fin (Real.arccos x) else .nan
    | none => .nan
  atan a := match a with
    | .inf b => .fin (if b then -(Real.pi / 2) else Real.pi / 2)
    | a => match a.value with
      | some x => .fin (Real.arctan x)
      | none => .nan
  ln a := match a.value with
    | some x => if x < 0 then .nan else if x = 0 then .inf true else .fin (Real.log x)
    | none => match a with
      | .inf false => .inf false
      | _ => .nan
  pi := .fin Real.pi
  e := .fin (Real.exp 1)

/-- Real numbers cannot be printed; the text is left empty. -/
instance : FText (Ext ℝ) where
  display _ := []
  displayExp _ := []

noncomputable instance : FNum (Ext ℝ) where

theorem ext_some_iff {a : Ext ℝ} {x : ℝ} : Exact.val a = some x ↔ a = .fin x ∨ (a = .negZero ∧ x = 0) := by
  cases a with
  | fin y => simp [Exact.val, Ext.value]
  | negZero => simp [Exact.val, Ext.value, eq_comm]
  | inf b => simp [Exact.val, Ext.value]
  | nan => simp [Exact.val, Ext.value]

theorem ext_value (a : Ext ℝ) : Exact.val a = a.value := rfl

noncomputable instance : ExactReal (Ext ℝ) where
  val_sqrt := by
    intro a x ha hx
    rcases ext_some_iff.1 ha with rfl | ⟨rfl, rfl⟩
    · simp only [FElem.sqrt, if_neg (not_lt.2 hx)]
      rfl
    · simp only [FElem.sqrt, Real.sqrt_zero]
      rfl
  sqrt_neg := by
    intro a x ha hx
    rcases ext_some_iff.1 ha with rfl | ⟨rfl, rfl⟩
    · simp only [FElem.sqrt, if_pos hx]
      rfl
    · simp at hx
  sqrt_none := by
    intro a ha
    cases a with
    | fin y => cases ha
    | negZero => cases ha
    | inf b => cases b <;> rfl
    | nan => rfl
  val_sin := by
    intro a
    cases a <;> rfl
  val_cos := by
    intro a
    cases a <;> rfl
  val_tan := by
    intro a x ha _
    rw [ext_value] at ha
    simp only [FElem.tan, ha]
    rfl
  val_asin := by
    intro a x ha h1 h2
    rw [ext_value] at ha
    simp only [FElem.asin, ha, if_pos (And.intro h1 h2)]
    rfl
  val_acos := by
    intro a x ha h1 h2
    rw [ext_value] at ha
    simp only [FElem.acos, ha, if_pos (And.intro h1 h2)]
    rfl
  asin_nan := by
    intro a x ha h
    rw [ext_value] at ha
    have : ¬ (-1 ≤ x ∧ x ≤ 1) := by
      rintro ⟨h1, h2⟩
      rcases h with h | h <;> linarith
    simp only [FElem.asin, ha, if_neg this]
    rfl
  acos_nan := by
    intro a x ha h
    rw [ext_value] at ha
    have : ¬ (-1 ≤ x ∧ x ≤ 1) := by
      rintro ⟨h1, h2⟩
      rcases h with h | h <;> linarith
    simp only [FElem.acos, ha, if_neg this]
    rfl
  val_atan := by
    intro a x ha
    rcases ext_some_iff.1 ha with rfl | ⟨rfl, rfl⟩ <;> rfl
  val_ln := by
    intro a x ha hx
    rw [ext_value] at ha
    simp only [FElem.ln, ha, if_neg (not_lt.2 hx.le), if_neg hx.ne']
    rfl
  ln_zero := by
    intro a ha
    rw [ext_value] at ha
    simp only [FElem.ln, ha, lt_irrefl, if_false, if_true]
    rfl
  ln_neg := by
    intro a x ha hx
    rw [ext_value] at ha
    simp only [FElem.ln, ha, if_pos hx]
    rfl
  val_powf := by
    intro a b x y ha hb h
    rw [ext_value] at hb
    have ha' := ha
    rw [ext_value] at ha'
    simp only [FElem.powf, ha', hb]
    have hx : ¬ x < 0 := by rcases h with h | h; exact not_lt.2 h.le; exact not_lt.2 h.1.ge
    split
    · rename_i hn
      rw [Exact.val_powi ha, ← Real.rpow_intCast, ← hn.choose_spec]
      rcases h with h | h
      · exact Or.inr h.ne'
      · left
        have := h.2
        rw [hn.choose_spec] at this
        exact_mod_cast this.le
    · rw [if_neg]
      · rfl
      · rintro ⟨h1, h2⟩
        rcases h with h | h
        · exact h.ne' h1
        · exact absurd h.2 (not_lt.2 h2.le)
  val_powf_int := by
    intro a b x n ha hb h
    rw [ext_value] at hb
    have ha' := ha
    rw [ext_value] at ha'
    simp only [FElem.powf, ha', hb]
    have hn : ∃ m : Int, (n : ℝ) = m := ⟨n, rfl⟩
    rw [dif_pos hn]
    have : hn.choose = n := by exact_mod_cast hn.choose_spec.symm
    rw [this, Exact.val_powi ha h]
  powf_neg := by
    intro a b x y ha hb hx hy
    rw [ext_value] at ha hb
    simp only [FElem.powf, ha, hb]
    rw [dif_neg (by rintro ⟨n, hn⟩; exact hy n hn), if_pos hx]
    rfl
  powf_zero := by
    intro a b y ha hb hy
    have ha' := ext_some_iff.1 ha
    rw [ext_value] at ha hb
    simp only [FElem.powf, ha, hb]
    split
    · rename_i h
      have hneg : h.choose < 0 := by
        have := h.choose_spec
        rw [this] at hy
        exact_mod_cast hy
      generalize h.choose = n at hneg
      rcases ha' with rfl | ⟨rfl, -⟩
      · simp only [FArith.powi, Ext.powi, Ext.value]
        rw [if_pos ⟨trivial, hneg⟩]
        rfl
      · simp only [FArith.powi, Ext.powi, Ext.value]
        rw [if_pos ⟨trivial, hneg⟩]
        rfl
    · rw [if_neg (by norm_num), if_pos ⟨trivial, hy⟩]
      rfl
  val_pi := rfl
  val_e := rfl

end MUL
