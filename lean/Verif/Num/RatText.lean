import Verif.Num.Rat
import Mathlib.Data.Rat.Lemmas
import Mathlib.Data.Nat.Prime.Basic
import Mathlib.Data.Nat.Factors
import Mathlib.Tactic.NormNum
/-!
# The text laws hold for `Q`
-/

namespace MUL

theorem digitChar_isDigit {d : Nat} (h : d < 10) : (Char.ofNat (48 + d)).isDigit = true := by
  have : ∀ d < 10, (Char.ofNat (48 + d)).isDigit = true := by decide
  exact this d h

theorem digitChar_val {d : Nat} (h : d < 10) : (Char.ofNat (48 + d)).toNat - '0'.toNat = d := by
  have : ∀ d < 10, (Char.ofNat (48 + d)).toNat - '0'.toNat = d := by decide
  exact this d h

theorem padDigits_digits (k n : Nat) : AllDigits (padDigits k n) := by
  induction k generalizing n with
  | zero => intro c hc; simp [padDigits] at hc
  | succ k ih =>
    intro c hc
    simp only [padDigits, List.mem_append, List.mem_singleton] at hc
    rcases hc with hc | rfl
    · exact ih _ c hc
    · exact digitChar_isDigit (Nat.mod_lt _ (by norm_num))

theorem padDigits_length (k n : Nat) : (padDigits k n).length = k := by
  induction k generalizing n with
  | zero => rfl
  | succ k ih => simp [padDigits, ih]

theorem digitsVal_snoc (s : Str) (c : Char) : digitsVal (s ++ [c]) = 10 * digitsVal s + (c.toNat - '0'.toNat) := by
  simp [digitsVal, List.foldl_append]

theorem digitsVal_append (s t : Str) : digitsVal (s ++ t) = digitsVal s * 10 ^ t.length + digitsVal t := by
  induction t using List.reverseRecOn with
  | nil => simp [digitsVal]
  | append_singleton t c ih =>
    rw [← List.append_assoc, digitsVal_snoc, ih, digitsVal_snoc, List.length_append]
    simp only [List.length_singleton, pow_succ]
    ring

theorem padDigits_val (k n : Nat) : digitsVal (padDigits k n) = n % 10 ^ k := by
  induction k generalizing n with
  | zero => simp [padDigits, digitsVal, Nat.mod_one]
  | succ k ih =>
    rw [padDigits, digitsVal_snoc, ih, digitChar_val (Nat.mod_lt _ (by norm_num)), pow_succ, Nat.mul_comm (10 ^ k) 10,
      Nat.mod_mul, Nat.add_comm]

theorem natDigits_digits (n : Nat) : AllDigits (natDigits n) := padDigits_digits _ _

theorem natDigits_val (n : Nat) : digitsVal (natDigits n) = n := by
  rw [natDigits, padDigits_val, Nat.mod_eq_of_lt]
  exact Nat.lt_pow_succ_log_self (by norm_num) n

theorem natDigits_length (n : Nat) : (natDigits n).length = Nat.log 10 n + 1 := padDigits_length _ _

theorem natDigits_ne (n : Nat) : natDigits n ≠ [] := by
  intro h
  have := natDigits_length n
  rw [h] at this
  simp at this

theorem dvd_ten_pow {d j : Nat} (h : d ∣ 10 ^ j) : d ∣ 10 ^ Nat.log 2 d := by
  induction d using Nat.strong_induction_on with
  | _ d ih =>
    rcases Nat.eq_zero_or_pos d with rfl | hd
    · rw [zero_dvd_iff] at h
      simp at h
    by_cases h1 : d = 1
    · rw [h1]
      exact one_dvd _
    · obtain ⟨p, hp, hpd⟩ := Nat.exists_prime_and_dvd h1
      obtain ⟨q, rfl⟩ := hpd
      have hq : q ∣ 10 ^ j := (Nat.dvd_mul_left q p).trans h
      have hp10 : p ∣ 10 := hp.dvd_of_dvd_pow ((Nat.dvd_mul_right p q).trans h)
      have hq0 : 0 < q := Nat.pos_of_mul_pos_left hd
      have h2 := hp.two_le
      have hlt : q < p * q := by nlinarith
      have := ih q hlt hq
      have h3 : p * q ∣ 10 * 10 ^ Nat.log 2 q := Nat.mul_dvd_mul hp10 this
      rw [← pow_succ'] at h3
      refine h3.trans (pow_dvd_pow _ ?_)
      rw [← Nat.log_mul_base (by norm_num) (by omega)]
      exact Nat.log_mono_right (by nlinarith)

theorem decimalsOf_some {d j : Nat} (h : d ∣ 10 ^ j) : ∃ k, decimalsOf d = some k ∧ d ∣ 10 ^ k := by
  have hd := dvd_ten_pow h
  rcases hk : decimalsOf d with _ | k
  · unfold decimalsOf at hk
    rw [List.find?_eq_none] at hk
    have := hk (Nat.log 2 d) (List.mem_range.2 (Nat.lt_succ_self _))
    simp only [decide_eq_true_eq] at this
    exact absurd (Nat.mod_eq_zero_of_dvd hd) this
  · refine ⟨k, rfl, ?_⟩
    have := List.find?_some hk
    simp only [decide_eq_true_eq] at this
    exact Nat.dvd_of_mod_eq_zero this

/-- The decimal numerator. -/
theorem decimal_num {x : ℚ} (hx : 0 ≤ x) {k : Nat} (hk : x.den ∣ 10 ^ k) :
    ((x.num.natAbs * (10 ^ k / x.den) : Nat) : ℚ) = x * 10 ^ k := by
  obtain ⟨q, hq⟩ := hk
  have hden : x.den ≠ 0 := x.den_nz
  have hn : ((x.num.natAbs : Nat) : ℚ) = x.num := by
    have : (0:Int) ≤ x.num := Rat.num_nonneg.2 hx
    rw [← Int.natAbs_of_nonneg this]
    simp
  rw [hq, Nat.mul_div_cancel_left _ (Nat.pos_of_ne_zero hden)]
  have hq' : (10 : ℚ) ^ k = (x.den : ℚ) * q := by exact_mod_cast hq
  rw [hq']
  push_cast
  rw [hn]
  have : x = x.num / x.den := (Rat.num_div_den x).symm
  have hd : (x.den : ℚ) ≠ 0 := by exact_mod_cast hden
  have h2 : x * x.den = x.num := by rw [Rat.mul_den_eq_num]
  rw [← mul_assoc, h2]

theorem ofDec_den (m : Nat) (e : Int) : ∃ j : Nat, ((m : ℚ) * 10 ^ e).den ∣ 10 ^ j := by
  rcases Int.le_total 0 e with h | h
  · obtain ⟨n, rfl⟩ := Int.eq_ofNat_of_zero_le h
    refine ⟨0, ?_⟩
    have : ((m : ℚ) * 10 ^ ((n : Nat) : Int)) = ((m * 10 ^ n : Nat) : ℚ) := by push_cast; rw [zpow_natCast]
    rw [this, Rat.den_natCast]
    exact one_dvd _
  · obtain ⟨n, hn⟩ := Int.eq_ofNat_of_zero_le (Int.neg_nonneg_of_nonpos h)
    refine ⟨n, ?_⟩
    have : ((m : ℚ) * 10 ^ e) = Rat.divInt (m : Int) ((10 ^ n : Nat) : Int) := by
      rw [Rat.divInt_eq_div]
      have he : e = -(n : Int) := by omega
      rw [he, zpow_neg, zpow_natCast]
      push_cast
      rw [div_eq_mul_inv]
    rw [this]
    have := Rat.den_dvd (m : Int) ((10 ^ n : Nat) : Int)
    exact_mod_cast this

theorem ofDec_nonneg (m : Nat) (e : Int) : (0 : ℚ) ≤ (m : ℚ) * 10 ^ e :=
  mul_nonneg (Nat.cast_nonneg m) (zpow_nonneg (by norm_num) e)

theorem numeral_chars {ip fp : Str} (h1 : AllDigits ip) (h2 : AllDigits fp) :
    ∀ c ∈ numeral ip fp, c.isDigit = true ∨ c = '.' := by
  intro c hc
  unfold numeral at hc
  rw [List.mem_append] at hc
  rcases hc with hc | hc
  · exact Or.inl (h1 c hc)
  · split at hc
    · simp at hc
    · rcases List.mem_cons.1 hc with rfl | hc
      · exact Or.inr rfl
      · exact Or.inl (h2 c hc)

theorem numeral_ne {ip fp : Str} (h : ip ≠ []) : numeral ip fp ≠ [] := by
  unfold numeral
  intro h2
  exact h (List.append_eq_nil_iff.1 h2).1

theorem AllDigits.take {s : Str} (h : AllDigits s) (n : Nat) : AllDigits (s.take n) :=
  fun c hc => h c (List.mem_of_mem_take hc)

theorem AllDigits.drop {s : Str} (h : AllDigits s) (n : Nat) : AllDigits (s.drop n) :=
  fun c hc => h c (List.mem_of_mem_drop hc)

theorem ratText_chars (x : ℚ) : ∀ c ∈ ratText x, c.isDigit = true ∨ c = '.' := by
  intro c hc
  unfold ratText at hc
  split at hc
  · exact numeral_chars (natDigits_digits _) (padDigits_digits _ _) c hc
  · simp only [List.mem_append, List.mem_singleton] at hc
    rcases hc with (hc | hc) | hc
    · exact Or.inl (natDigits_digits _ c hc)
    · exact Or.inr hc
    · exact Or.inl (natDigits_digits _ c hc)

theorem ratText_ne (x : ℚ) : ratText x ≠ [] := by
  unfold ratText
  split
  · exact numeral_ne (natDigits_ne _)
  · simp [natDigits_ne]

theorem ratExp_ne (x : ℚ) : ratExp x ≠ [] := by
  unfold ratExp
  split <;> simp

theorem ratExp_chars (x : ℚ) : ∀ c ∈ ratExp x, c.isDigit = true ∨ c = '.' ∨ c = 'e' ∨ c = '-' := by
  intro c hc
  unfold ratExp at hc
  split at hc
  · simp only [List.mem_append, List.mem_cons] at hc
    rcases hc with hc | hc | hc | hc
    · rcases numeral_chars ((natDigits_digits _).take 1) ((natDigits_digits _).drop 1) c hc with h | h
      · exact Or.inl h
      · exact Or.inr (Or.inl h)
    · exact Or.inr (Or.inr (Or.inl hc))
    · split at hc
      · simp only [List.mem_singleton] at hc
        exact Or.inr (Or.inr (Or.inr hc))
      · simp at hc
    · exact Or.inl (natDigits_digits _ c hc)
  · simp only [List.mem_singleton] at hc
    subst hc
    exact Or.inl (by decide)

theorem alnum_of_digit {c : Char} (h : c.isDigit = true) : c.isAlphanum = true := by
  simp [Char.isAlphanum, h]

theorem display_ofDec (m : Nat) (e : Int) : FText.display (FArith.ofDec m e : Q) = ratText ((m : ℚ) * 10 ^ e) := by
  show (if (m : ℚ) * 10 ^ e < 0 then _ else _) = _
  rw [if_neg (not_lt.2 (ofDec_nonneg m e))]

theorem displayExp_ofDec (m : Nat) (e : Int) :
    FText.displayExp (FArith.ofDec m e : Q) = '+' :: ratExp ((m : ℚ) * 10 ^ e) := by
  show (if (m : ℚ) * 10 ^ e < 0 then _ else _) = _
  rw [if_neg (not_lt.2 (ofDec_nonneg m e))]

theorem neg_ofDec (m : Nat) (e : Int) : (FArith.neg (FArith.ofDec m e) : Q) =
    if (m : ℚ) * 10 ^ e = 0 then .negZero else .fin (-((m : ℚ) * 10 ^ e)) := by
  show Ext.mk (-((m : ℚ) * 10 ^ e)) (decide ((m : ℚ) * 10 ^ e = 0)) = _
  unfold Ext.mk
  by_cases h : (m : ℚ) * 10 ^ e = 0
  · rw [h]; simp
  · rw [if_neg h, if_neg (by simp [h])]

theorem ratText_zero : ratText 0 = ['0'] := by decide +kernel

instance : TextLaws Q where
  display_chars := by
    intro a c hc
    have key : ∀ x : ℚ, ∀ c ∈ ratText x, c.isAlphanum = true ∨ c = '-' ∨ c = '.' := by
      intro x c hc
      rcases ratText_chars x c hc with h | h
      · exact Or.inl (alnum_of_digit h)
      · exact Or.inr (Or.inr h)
    rcases a with x | _ | b | _
    · change c ∈ (if x < 0 then '-' :: ratText (-x) else ratText x) at hc
      split at hc
      · rcases List.mem_cons.1 hc with rfl | hc
        · exact Or.inr (Or.inl rfl)
        · exact key _ c hc
      · exact key _ c hc
    · revert c; show ∀ c ∈ ['-', '0'], _; decide
    · cases b
      · revert c; show ∀ c ∈ ['i', 'n', 'f'], _; decide
      · revert c; show ∀ c ∈ ['-', 'i', 'n', 'f'], _; decide
    · revert c; show ∀ c ∈ ['N', 'a', 'N'], _; decide
  display_ne := by
    intro a
    rcases a with x | _ | b | _
    · show (if x < 0 then '-' :: ratText (-x) else ratText x) ≠ []
      split
      · simp
      · exact ratText_ne _
    · show ['-', '0'] ≠ []; decide
    · cases b
      · show ['i', 'n', 'f'] ≠ []; decide
      · show ['-', 'i', 'n', 'f'] ≠ []; decide
    · show ['N', 'a', 'N'] ≠ []; decide
  exp_chars := by
    intro a c hc
    have key : ∀ x : ℚ, ∀ c ∈ ratExp x, c.isAlphanum = true ∨ c = '-' ∨ c = '.' ∨ c = '+' := by
      intro x c hc
      rcases ratExp_chars x c hc with h | h | h | h
      · exact Or.inl (alnum_of_digit h)
      · exact Or.inr (Or.inr (Or.inl h))
      · subst h; exact Or.inl (by decide)
      · exact Or.inr (Or.inl h)
    rcases a with x | _ | b | _
    · change c ∈ (if x < 0 then '-' :: ratExp (-x) else '+' :: ratExp x) at hc
      split at hc
      · rcases List.mem_cons.1 hc with rfl | hc
        · exact Or.inr (Or.inl rfl)
        · exact key _ c hc
      · rcases List.mem_cons.1 hc with rfl | hc
        · exact Or.inr (Or.inr (Or.inr rfl))
        · exact key _ c hc
    · change c ∈ '-' :: ratExp 0 at hc
      rcases List.mem_cons.1 hc with rfl | hc
      · exact Or.inr (Or.inl rfl)
      · exact key _ c hc
    · cases b
      · revert c; show ∀ c ∈ ['+', 'i', 'n', 'f'], _; decide
      · revert c; show ∀ c ∈ ['-', 'i', 'n', 'f'], _; decide
    · revert c; show ∀ c ∈ ['N', 'a', 'N'], _; decide
  exp_ne := by
    intro a
    rcases a with x | _ | b | _
    · show (if x < 0 then '-' :: ratExp (-x) else '+' :: ratExp x).drop 1 ≠ []
      split <;> simpa using ratExp_ne _
    · show ('-' :: ratExp 0).drop 1 ≠ []
      simpa using ratExp_ne _
    · cases b
      · show ['+', 'i', 'n', 'f'].drop 1 ≠ []; decide
      · show ['-', 'i', 'n', 'f'].drop 1 ≠ []; decide
    · show ['N', 'a', 'N'].drop 1 ≠ []; decide
  display_decimal := by
    intro m e _
    obtain ⟨j, hj⟩ := ofDec_den m e
    obtain ⟨k, hk, hdvd⟩ := decimalsOf_some hj
    set x : ℚ := (m : ℚ) * 10 ^ e with hx
    set n := x.num.natAbs * (10 ^ k / x.den) with hn
    refine ⟨natDigits (n / 10 ^ k), padDigits k n, natDigits_ne _, natDigits_digits _, padDigits_digits _ _, ?_, ?_⟩
    · rw [display_ofDec, ← hx]
      unfold ratText
      rw [hk]
    · show Ext.fin _ = Ext.fin _
      rw [digitsVal_append, natDigits_val, padDigits_val, padDigits_length, ← hx]
      have h1 : n / 10 ^ k * 10 ^ k + n % 10 ^ k = n := by
        rw [Nat.mul_comm]
        exact Nat.div_add_mod n (10 ^ k)
      rw [h1, hn, decimal_num (ofDec_nonneg m e) hdvd, zpow_neg, zpow_natCast, mul_assoc, mul_inv_cancel₀ (by positivity),
        mul_one]
  display_zero := by
    intro m e h
    have : (m : ℚ) * 10 ^ e = 0 := by
      have h' : (some ((m : ℚ) * 10 ^ e) == some (((0 : Int) : ℚ))) = true := h
      simpa using h'
    rw [display_ofDec, this, ratText_zero]
  display_neg := by
    intro m e
    rw [display_ofDec, neg_ofDec]
    split
    · rename_i h
      rw [h, ratText_zero]
      rfl
    · rename_i h
      show (if -((m : ℚ) * 10 ^ e) < 0 then _ else _) = _
      rw [if_pos, neg_neg]
      have := lt_of_le_of_ne (ofDec_nonneg m e) (Ne.symm h)
      linarith
  neg_one_mul := by
    intro m e
    rw [neg_ofDec]
    show Ext.mk (((-1 : Int) : ℚ) * ((m : ℚ) * 10 ^ e)) (decide (((-1 : Int) : ℚ) < 0) ^^ decide ((m : ℚ) * 10 ^ e < 0)) = _
    have h0 : ¬ ((m : ℚ) * 10 ^ e < 0) := not_lt.2 (ofDec_nonneg m e)
    have h1 : (((-1 : Int) : ℚ) < 0) := by norm_num
    rw [decide_eq_true h1, decide_eq_false h0]
    unfold Ext.mk
    by_cases h : (m : ℚ) * 10 ^ e = 0
    · rw [h]; simp
    · rw [if_neg h, if_neg]
      · congr 1
        push_cast
        ring
      · rintro ⟨h2, _⟩
        rcases mul_eq_zero.1 h2 with h3 | h3
        · norm_num at h3
        · exact h h3
  exp_decimal := by
    intro m e _
    obtain ⟨j, hj⟩ := ofDec_den m e
    obtain ⟨k, hk, hdvd⟩ := decimalsOf_some hj
    set x : ℚ := (m : ℚ) * 10 ^ e with hx
    set n := x.num.natAbs * (10 ^ k / x.den) with hn
    refine ⟨(natDigits n).take 1, (natDigits n).drop 1, natDigits (((Nat.log 10 n : Nat) : Int) - k).natAbs,
      decide (((Nat.log 10 n : Nat) : Int) - k < 0), ?_, natDigits_ne _, (natDigits_digits _).take 1, (natDigits_digits _).drop 1,
      natDigits_digits _, ?_, ?_⟩
    · rcases h : natDigits n with _ | ⟨c, s⟩
      · exact absurd h (natDigits_ne n)
      · simp
    · rw [displayExp_ofDec, ← hx]
      unfold ratExp
      rw [hk]
      simp only [decide_eq_true_eq]
      rfl
    · show Ext.fin _ = Ext.fin _
      rw [List.take_append_drop, natDigits_val, natDigits_val, List.length_drop, natDigits_length]
      have he : (if decide (((Nat.log 10 n : Nat) : Int) - k < 0) = true then -(((((Nat.log 10 n : Nat) : Int) - k).natAbs : Nat) : Int)
          else (((((Nat.log 10 n : Nat) : Int) - k).natAbs : Nat) : Int)) - ((Nat.log 10 n + 1 - 1 : Nat) : Int) = -(k : Int) := by
        simp only [decide_eq_true_eq]
        split <;> omega
      rw [he, hn, decimal_num (ofDec_nonneg m e) hdvd, zpow_neg, zpow_natCast, mul_assoc, mul_inv_cancel₀ (by positivity),
        mul_one]
  exp_neg := by
    intro m e
    rw [displayExp_ofDec, neg_ofDec]
    split
    · rename_i h
      rw [h]
      rfl
    · rename_i h
      show (if -((m : ℚ) * 10 ^ e) < 0 then _ else _) = _
      rw [if_pos, neg_neg]
      · rfl
      have := lt_of_le_of_ne (ofDec_nonneg m e) (Ne.symm h)
      linarith

/-- The number `-5/4` is decimal. -/
example : Decimal (Ext.fin (-5/4) : Q) :=
  ⟨125, -2, rfl, Or.inr (by rw [neg_ofDec]; norm_num)⟩

end MUL
