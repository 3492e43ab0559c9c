import Verif.Spec.Numbers
import Verif.Props.Arith
import Verif.Props.Latex
import Verif.Num.RatText
/-!
# C63: printed numbers
-/

set_option linter.unusedSectionVars false
set_option linter.unusedSimpArgs false

namespace MUL
open Spec Out FArith

section
variable {K : Type} [Field K] [LinearOrder K] [IsStrictOrderedRing K] [FloorRing K]

theorem digitsAre {s : Str} (hne : s ≠ []) (h : AllDigits s) : DigitsAre s (digitsVal s) := by
  induction s using List.reverseRecOn with
  | nil => exact absurd rfl hne
  | append_singleton s c ih =>
    rw [digitsVal_snoc]
    by_cases hs : s = []
    · subst hs
      simp only [List.nil_append]
      have := DigitsAre.one c (h c (by simp))
      simpa [digitsVal, digitOf] using this
    · exact .more s c _ (ih hs fun d hd => h d (by simp [hd])) (h c (by simp))

theorem unsigned_numeral {ip fp : Str} (hne : ip ≠ []) (h1 : AllDigits ip) (h2 : AllDigits fp) :
    Unsigned (numeral ip fp) ((digitsVal (ip ++ fp) : K) * 10 ^ (-(fp.length : Int))) := by
  unfold numeral
  split
  · rename_i h
    subst h
    simpa using Unsigned.whole (K := K) ip _ (digitsAre hne h1)
  · rename_i h
    have := Unsigned.fraction (K := K) ip fp _ _ (digitsAre hne h1) (digitsAre h h2)
    have hv : (digitsVal (ip ++ fp) : K) * 10 ^ (-(fp.length : Int)) = (digitsVal ip : K) + (digitsVal fp : K) / 10 ^ fp.length := by
      rw [digitsVal_append]
      push_cast
      rw [zpow_neg, zpow_natCast]
      have : (10 : K) ^ fp.length ≠ 0 := by positivity
      field_simp
    rw [hv]
    simpa using this

theorem whole_text (neg : Bool) {xs : Str} (hne : xs ≠ []) (h : AllDigits xs) :
    Whole ((if neg then ['-'] else []) ++ xs) (if neg then -(digitsVal xs : Int) else (digitsVal xs : Int)) := by
  cases neg
  · exact .pos _ _ (digitsAre hne h)
  · exact .neg _ _ (digitsAre hne h)

end

section
variable {K : Type} [Field K] [LinearOrder K] [IsStrictOrderedRing K] [FloorRing K]
variable {F : Type} [FNum F] [TextLaws F] [Exact F K]

/-- The text of a finite number other than zero. -/
theorem plain_display {a : F} {y : K} (ha : Exact.val a = some y) (h : Decimal a) (hy : y ≠ 0) :
    Plain (FText.display a) y := by
  obtain ⟨m, e, hfin, h⟩ := h
  obtain ⟨ip, fp, h1, h2, h3, h4, h5⟩ := TextLaws.display_decimal (F := F) m e hfin
  have hv : (m : K) * 10 ^ e = (digitsVal (ip ++ fp) : K) * 10 ^ (-(fp.length : Int)) := by
    have := congrArg (Exact.val (K := K)) h5
    rw [Exact.val_ofDec, Exact.val_ofDec] at this
    exact (Option.some.inj this).symm
  have hu := unsigned_numeral (K := K) h1 h2 h3
  rw [← hv, ← h4] at hu
  rcases h with rfl | rfl
  · rw [Exact.val_ofDec] at ha
    cases ha
    exact .pos _ _ hu
  · rw [Exact.val_neg, Exact.val_ofDec] at ha
    cases ha
    rw [TextLaws.display_neg]
    exact .neg _ _ hu (by simpa using hy)

theorem zero_display {a : F} (ha : Exact.val a = some (0 : K)) (h : Decimal a) :
    FText.display a = ['0'] ∨ FText.display a = ['-', '0'] := by
  obtain ⟨m, e, hfin, h⟩ := h
  have hz : Exact.val (ofDec m e : F) = some (0 : K) := by
    rcases h with rfl | rfl
    · exact ha
    · rw [Exact.val_neg, Exact.val_ofDec] at ha
      rw [Exact.val_ofDec]
      simp only [Option.map_some, Option.some.injEq, neg_eq_zero] at ha
      rw [ha]
  have hb : FArith.beq (ofDec m e : F) (ofInt 0) = true := by
    rw [Exact.beq_val hz (Exact.val_ofInt 0)]; simp
  have := TextLaws.display_zero (F := F) m e hb
  rcases h with rfl | rfl
  · exact Or.inl this
  · right; rw [TextLaws.display_neg, this]

/-- Rounding gives zero exactly for small numbers. -/
theorem rounds_to_zero (p : Nat) (x : K) : (roundAway (x * 10 ^ p) : K) / 10 ^ p = 0 ↔ |x| < 1 / (2 * 10 ^ p) := by
  have hp : (0 : K) < 10 ^ p := by positivity
  rw [div_eq_zero_iff, or_iff_left hp.ne', Int.cast_eq_zero, lt_div_iff₀ (by positivity)]
  have habs : |x| * (2 * 10 ^ p) = 2 * |x * 10 ^ p| := by rw [abs_mul, abs_of_pos hp]; ring
  rw [habs]
  generalize x * 10 ^ p = t
  unfold roundAway
  split
  · rename_i h
    rw [Int.floor_eq_zero_iff, abs_of_nonneg h, Set.mem_Ico]
    constructor
    · rintro ⟨-, h2⟩; linarith
    · intro h2; constructor <;> linarith
  · rename_i h
    rw [neg_eq_zero, Int.floor_eq_zero_iff, abs_of_neg (not_le.1 h), Set.mem_Ico]
    constructor
    · rintro ⟨-, h2⟩; linarith
    · intro h2; constructor <;> linarith

/-- **C63.** A number that does not round to zero is printed in decimal notation, and the text stands for a nearest
number with `PREC-2` decimals, in plain text and in LaTeX. -/
theorem C63_rounded (cfg : Cfg) (p : Nat) (hp : cfg.prec = p + 2) (a : F) (x : K) (ha : Exact.val a = some x)
    (hd : Decimal (Value.roundScalar a p)) (hx : 1 / (2 * 10 ^ p) ≤ |x|) :
    ∃ y : K, NearestDecimal p x y ∧ Plain ((Value.scalar a).asLatex cfg) y ∧ Plain ((AST.scalar a).asString cfg) y := by
  have hr := roundScalar_val p ha
  have hy : (roundAway (x * 10 ^ p) : K) / 10 ^ p ≠ 0 := by
    rw [ne_eq, rounds_to_zero]; exact not_lt.2 hx
  have hz : FArith.beq (Value.roundScalar a p) (ofInt 0) = false := by
    rw [Exact.beq_val hr (Exact.val_ofInt 0)]; simpa using hy
  have hc : ((cfg.prec : Nat) : Int) - 2 = (p : Int) := by rw [hp]; push_cast; ring
  refine ⟨_, nearest p x, ?_, ?_⟩
  all_goals
    simp only [Value.asLatex, AST.asString, roundAndFormat, hc, hz, Bool.false_and, Bool.false_eq_true, if_false]
    exact plain_display hr hd hy

/-- **C63** (zero): zero, with either sign, is printed as `0`. -/
theorem C63_zero (cfg : Cfg) (p : Nat) (hp : cfg.prec = p + 2) (a : F) (ha : Exact.val a = some (0 : K))
    (hd : Decimal (Value.roundScalar a p)) :
    (Value.scalar a).asLatex cfg = str! "0" ∧ (AST.scalar a).asString cfg = str! "0" := by
  have hr := roundScalar_val p ha
  rw [(rounds_to_zero p (0 : K)).2 (by rw [abs_zero]; positivity)] at hr
  have hz : FArith.beq (Value.roundScalar a p) (ofInt 0) = true := by
    rw [Exact.beq_val hr (Exact.val_ofInt 0)]; simp
  have hz' : FArith.beq a (ofInt 0) = true := by
    rw [Exact.beq_val ha (Exact.val_ofInt 0)]; simp
  have hc : ((cfg.prec : Nat) : Int) - 2 = (p : Int) := by rw [hp]; push_cast; ring
  simp only [Value.asLatex, AST.asString, roundAndFormat, hc, hz, hz', Bool.not_true, Bool.and_false, Bool.false_eq_true,
    if_false, Bool.true_and]
  rcases zero_display hr hd with h | h <;> rw [h] <;> decide

/-- **C63** (tiny numbers): a number other than zero that would round to zero is printed exactly, in scientific
notation. -/
theorem C63_tiny (cfg : Cfg) (p : Nat) (hp : cfg.prec = p + 2) (a : F) (x : K) (ha : Exact.val a = some x) (hd : Decimal a)
    (h0 : x ≠ 0) (hx : |x| < 1 / (2 * 10 ^ p)) :
    Scientific true ((Value.scalar a).asLatex cfg) x ∧ Scientific false ((AST.scalar a).asString cfg) x := by
  have hr := roundScalar_val p ha
  rw [(rounds_to_zero p x).2 hx] at hr
  have hz : FArith.beq (Value.roundScalar a p) (ofInt 0) = true := by
    rw [Exact.beq_val hr (Exact.val_ofInt 0)]; simp
  have hz' : FArith.beq a (ofInt 0) = false := by
    rw [Exact.beq_val ha (Exact.val_ofInt 0)]; simpa using h0
  have hc : ((cfg.prec : Nat) : Int) - 2 = (p : Int) := by rw [hp]; push_cast; ring
  simp only [Value.asLatex, AST.asString, roundAndFormat, hc, hz, hz', Bool.not_true, Bool.not_false, Bool.and_false, Bool.and_true,
    Bool.false_eq_true, if_false, if_true, Bool.true_and]
  -- the scientific text
  obtain ⟨s, ks, y, k, h1, h2, h3, h4, h5⟩ : ∃ s ks, ∃ (y : K) (k : Int), Plain s y ∧ Whole ks k ∧ x = y * 10 ^ k ∧
      (FText.displayExp a = '+' :: (s ++ 'e' :: ks) ∨ ∃ s', s = '-' :: s' ∧ FText.displayExp a = '-' :: (s' ++ 'e' :: ks)) ∧
      ∀ c ∈ s ++ ks, c ≠ 'e' := by
    obtain ⟨m, e, hfin, h⟩ := hd
    obtain ⟨ip, fp, xs, ng, g1, g2, g3, g4, g5, g6, g7⟩ := TextLaws.exp_decimal (F := F) m e hfin
    have hu := unsigned_numeral (K := K) g1 g3 g4
    have hw := whole_text ng g2 g5
    have hv : (m : K) * 10 ^ e = (digitsVal (ip ++ fp) : K) * 10 ^ (-(fp.length : Int)) *
        10 ^ (if ng then -(digitsVal xs : Int) else (digitsVal xs : Int)) := by
      have := congrArg (Exact.val (K := K)) g7
      rw [Exact.val_ofDec, Exact.val_ofDec] at this
      rw [← Option.some.inj this, sub_eq_add_neg, zpow_add₀ (by norm_num)]
      ring
    have hne : ∀ c : Char, c.isDigit = true → c ≠ 'e' := by rintro c hc rfl; revert hc; decide
    have hn : ∀ c ∈ numeral ip fp ++ ((if ng = true then ['-'] else []) ++ xs), c ≠ 'e' := by
      intro c hc
      simp only [List.mem_append] at hc
      rcases hc with hc | hc | hc
      · rcases numeral_chars g3 g4 c hc with h | rfl
        · exact hne c h
        · decide
      · split at hc
        · simp only [List.mem_singleton] at hc; subst hc; decide
        · cases hc
      · exact hne c (g5 c hc)
    rcases h with rfl | rfl
    · rw [Exact.val_ofDec] at ha
      cases ha
      refine ⟨_, _, _, _, .pos _ _ hu, hw, hv, Or.inl g6, hn⟩
    · rw [Exact.val_neg, Exact.val_ofDec] at ha
      cases ha
      have hm : (digitsVal (ip ++ fp) : K) * 10 ^ (-(fp.length : Int)) ≠ 0 := by
        intro h
        rw [h, zero_mul] at hv
        exact h0 (by simpa using hv)
      refine ⟨_, _, _, _, .neg _ _ hu hm, hw, ?_, ?_, ?_⟩
      · show -_ = _
        rw [hv, neg_mul]
      · refine Or.inr ⟨_, rfl, ?_⟩
        rw [TextLaws.exp_neg, g6]
        rfl
      · intro c hc
        simp only [List.cons_append, List.nil_append, List.mem_cons] at hc
        rcases hc with rfl | hc
        · decide
        · exact hn c hc
  suffices hm : Scientific true ((s ++ 'e' :: ks).takeWhile (· != 'e') ++ str! "\\cdot 10^{" ++
        (((s ++ 'e' :: ks).dropWhile (· != 'e')).drop 1).takeWhile (· != 'e') ++ ['}']) x ∧ Scientific false (s ++ 'e' :: ks) x by
    rcases h4 with h4 | ⟨s', rfl, h4⟩
    all_goals
      rw [h4]
      exact hm
  rw [h3]
  have ht : (s ++ 'e' :: ks).takeWhile (· != 'e') = s := by
    rw [List.takeWhile_append_of_pos (by intro c hc; simpa using h5 c (by simp [hc]))]
    simp
  have hd : (s ++ 'e' :: ks).dropWhile (· != 'e') = 'e' :: ks := by
    rw [List.dropWhile_append_of_pos (by intro c hc; simpa using h5 c (by simp [hc]))]
    simp
  have hk : ks.takeWhile (· != 'e') = ks := by
    have := List.takeWhile_append_of_pos (p := (· != 'e')) (l₁ := ks) (l₂ := []) (by intro c hc; simpa using h5 c (by simp [hc]))
    simpa using this
  constructor
  · rw [ht, hd, List.drop_one, List.tail_cons, hk]
    exact Scientific.mk (latex := true) s ks y k h1 h2
  · have := Scientific.mk (latex := false) s ks y k h1 h2
    simpa using this

end

section Examples

theorem decimal_of_val {p : Nat} {r : Q} {k : Int} (h : Exact.val r = some ((k : ℚ) / 10 ^ p)) : Decimal r := by
  have hd : ∀ n : Nat, (n : ℚ) * 10 ^ (-(p : Int)) = (n : ℚ) / 10 ^ p := fun n => by rw [zpow_neg, zpow_natCast, div_eq_mul_inv]
  rcases r with x | _ | b | _
  · have hx : x = (k : ℚ) / 10 ^ p := Option.some.inj h
    rcases le_or_gt 0 k with hk | hk
    · refine ⟨k.toNat, -(p : Int), rfl, Or.inl ?_⟩
      show Ext.fin x = Ext.fin _
      rw [hd, hx]
      congr 2
      exact_mod_cast (Int.toNat_of_nonneg hk).symm
    · refine ⟨(-k).toNat, -(p : Int), rfl, Or.inr ?_⟩
      have hc : (((-k).toNat : Nat) : ℚ) = -(k : ℚ) := by
        have := Int.toNat_of_nonneg (a := -k) (by omega)
        exact_mod_cast this
      have hz : (k : ℚ) / 10 ^ p ≠ 0 := div_ne_zero (by exact_mod_cast hk.ne) (by positivity)
      rw [neg_ofDec, hd, hc, if_neg, hx]
      · congr 1; ring
      · rw [neg_div]; simpa using hz
  · refine ⟨0, 0, rfl, Or.inr ?_⟩
    rw [neg_ofDec]; simp
  · cases h
  · cases h

/-- In exact rational arithmetic every rounded number is decimal, so the hypotheses of `C63_rounded` and `C63_zero`
hold for every finite number. -/
theorem decimal_rounded (p : Nat) (a : Q) (x : ℚ) (h : Exact.val a = some x) : Decimal (Value.roundScalar a p) :=
  decimal_of_val (roundScalar_val p h)

/-- And `C63_tiny` applies to `-1/4000000`. -/
example : Decimal (Ext.fin (-1/4000000) : Q) :=
  decimal_of_val (p := 8) (k := -25) (show some _ = some _ by norm_num)

example : Value.asLatex Cfg.default (.scalar (.fin (22/7)) : Value Q) = str! "3.142857" := by decide +kernel
example : Value.asLatex Cfg.default (.scalar (.fin (-1/2000000)) : Value Q) = str! "-0.000001" := by decide +kernel
example : Value.asLatex Cfg.default (.scalar (.fin (-1/4000000)) : Value Q) = str! "-2.5\\cdot 10^{-7}" := by decide +kernel
example : AST.asString Cfg.default (.scalar (.fin (-1/4000000)) : AST Q) = str! "-2.5e-7" := by decide +kernel
example : AST.asString Cfg.default (.scalar (.negZero) : AST Q) = str! "0" := by decide +kernel

end Examples

end MUL
