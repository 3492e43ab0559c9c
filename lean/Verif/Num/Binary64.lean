import Verif.Num.F64Lemmas
/-!
# Number types whose basic arithmetic is IEEE-754 binary64

`Binary64 F` says that literals, `+ - * / %`, `-x`, `abs`, `round`, comparisons, classification and casts of `F` are those of binary64
(`Verif/Num/F64.lean`). `powi` and the elementary functions stay arbitrary. `Double` is an instance.
-/

namespace MUL
open Spec

class Binary64 (F : Type) [FArith F] where
  /-- the number that is stored -/
  bits : F → F64
  /-- and nothing else -/
  bits_inj : ∀ a b, bits a = bits b → a = b
  bits_ofInt : ∀ n, bits (FArith.ofInt n) = FArith.ofInt n
  bits_ofDec : ∀ m e, bits (FArith.ofDec m e) = FArith.ofDec m e
  bits_nan : bits FArith.nan = FArith.nan
  bits_inf : ∀ b, bits (FArith.inf b) = FArith.inf b
  bits_add : ∀ a b, bits (FArith.add a b) = FArith.add (bits a) (bits b)
  bits_sub : ∀ a b, bits (FArith.sub a b) = FArith.sub (bits a) (bits b)
  bits_mul : ∀ a b, bits (FArith.mul a b) = FArith.mul (bits a) (bits b)
  bits_div : ∀ a b, bits (FArith.div a b) = FArith.div (bits a) (bits b)
  bits_rem : ∀ a b, bits (FArith.rem a b) = FArith.rem (bits a) (bits b)
  bits_neg : ∀ a, bits (FArith.neg a) = FArith.neg (bits a)
  bits_abs : ∀ a, bits (FArith.abs a) = FArith.abs (bits a)
  bits_round : ∀ a, bits (FArith.round a) = FArith.round (bits a)
  bits_beq : ∀ a b, FArith.beq a b = FArith.beq (bits a) (bits b)
  bits_lt : ∀ a b, FArith.lt a b = FArith.lt (bits a) (bits b)
  bits_isNaN : ∀ a, FArith.isNaN a = FArith.isNaN (bits a)
  bits_isInf : ∀ a, FArith.isInf a = FArith.isInf (bits a)
  bits_isSignNeg : ∀ a, FArith.isSignNeg a = FArith.isSignNeg (bits a)
  bits_toUsize : ∀ a, FArith.toUsize a = FArith.toUsize (bits a)
  bits_toI32 : ∀ a, FArith.toI32 a = FArith.toI32 (bits a)
  /-- only binary64 numbers are stored -/
  representable : ∀ a x, (bits a).ext.value = some x → Representable x

namespace Binary64
variable {F : Type} [FArith F] [Binary64 F]

/-- The number; none for NaN and the infinities. -/
def val (a : F) : Option ℚ := (bits a).ext.value

/-- Below this there is no overflow. -/
def limit : ℚ := 2 ^ 1024 - 2 ^ 970

theorem val_rnd {a : Ext ℚ} {x : ℚ} (h : a.value = some x) (hx : |x| < limit) : (F64.rnd a).ext.value = some (F64.fl x) := by
  cases a with
  | fin y =>
    obtain rfl : y = x := by simpa [Ext.value] using h
    exact F64.roundQ_value (F64.fl_no_overflow hx)
  | negZero =>
    obtain rfl : 0 = x := by simpa [Ext.value] using h
    simp [F64.rnd, Ext.value, F64.fl_zero]
  | inf b => simp [Ext.value] at h
  | nan => simp [Ext.value] at h

theorem rep {a : F} {x : ℚ} (h : val a = some x) : Representable x := representable a x h

theorem val_ofInt (n : Int) (h : |(n : ℚ)| < limit) : val (FArith.ofInt n : F) = some (F64.fl n) := by
  unfold val
  rw [bits_ofInt]
  exact val_rnd (a := .fin (n : ℚ)) rfl h

theorem val_ofDec (m : Nat) (e : Int) (h : (m : ℚ) * 10 ^ e < limit) : val (FArith.ofDec m e : F) = some (F64.fl (m * 10 ^ e)) := by
  unfold val
  rw [bits_ofDec]
  have h2 : (if 0 ≤ e then ((m * 10 ^ e.toNat : Nat) : ℚ) else mkRat m (10 ^ (-e).toNat)) = (m : ℚ) * 10 ^ e := by
    split
    · rename_i he
      obtain ⟨n, rfl⟩ := Int.eq_ofNat_of_zero_le he
      simp
    · rename_i he
      obtain ⟨n, hn⟩ := Int.eq_ofNat_of_zero_le (a := -e) (by omega)
      obtain rfl : e = -(n : Int) := by omega
      rw [Rat.mkRat_eq_div]
      simp
      rfl
  refine val_rnd (a := .fin _) (by rw [Ext.value, h2]) ?_
  rw [abs_of_nonneg (mul_nonneg (by positivity) (zpow_nonneg (by norm_num) _))]
  exact h

theorem val_add {a b : F} {x y : ℚ} (ha : val a = some x) (hb : val b = some y) (h : |x + y| < limit) :
    val (FArith.add a b) = some (F64.fl (x + y)) := by
  unfold val
  rw [bits_add]
  exact val_rnd (Ext.add_value ha hb) h

theorem val_sub {a b : F} {x y : ℚ} (ha : val a = some x) (hb : val b = some y) (h : |x - y| < limit) :
    val (FArith.sub a b) = some (F64.fl (x - y)) := by
  unfold val
  rw [bits_sub]
  exact val_rnd (Exact.val_sub (F := Ext ℚ) ha hb) h

theorem val_mul {a b : F} {x y : ℚ} (ha : val a = some x) (hb : val b = some y) (h : |x * y| < limit) :
    val (FArith.mul a b) = some (F64.fl (x * y)) := by
  unfold val
  rw [bits_mul]
  exact val_rnd (Exact.val_mul (F := Ext ℚ) ha hb) h

theorem val_div {a b : F} {x y : ℚ} (ha : val a = some x) (hb : val b = some y) (hy : y ≠ 0) (h : |x / y| < limit) :
    val (FArith.div a b) = some (F64.fl (x / y)) := by
  unfold val
  rw [bits_div]
  exact val_rnd (Exact.val_div (F := Ext ℚ) ha hb hy) h

theorem val_neg (a : F) : val (FArith.neg a) = (val a).map (- ·) := by
  unfold val
  rw [bits_neg]
  exact Ext.neg_value _

theorem val_abs (a : F) : val (FArith.abs a) = (val a).map (|·|) := by
  unfold val
  rw [bits_abs]
  exact Exact.val_abs (F := Ext ℚ) _

theorem val_round (a : F) : val (FArith.round a) = (val a).map fun x => (roundAway x : ℚ) := by
  unfold val
  rw [bits_round]
  exact Exact.val_round (F := Ext ℚ) _

theorem beq_val {a b : F} {x y : ℚ} (ha : val a = some x) (hb : val b = some y) : FArith.beq a b = decide (x = y) := by
  rw [bits_beq]
  exact Exact.beq_val (F := Ext ℚ) ha hb

theorem lt_val {a b : F} {x y : ℚ} (ha : val a = some x) (hb : val b = some y) : FArith.lt a b = decide (x < y) := by
  rw [bits_lt]
  exact Exact.lt_val (F := Ext ℚ) ha hb

end Binary64

/-! ## The type `Double` -/

theorem representable_int {n : Int} (h : |n| ≤ 2 ^ 53) : Representable (n : ℚ) := by
  rcases h.lt_or_eq with h | h
  · exact ⟨n, 0, h, by norm_num, by norm_num, by simp⟩
  · rcases abs_eq (by norm_num : (0 : Int) ≤ 2 ^ 53) |>.1 h with h | h
    · exact ⟨2 ^ 52, 1, by norm_num, by norm_num, by norm_num, by rw [h]; norm_num⟩
    · exact ⟨-2 ^ 52, 1, by norm_num, by norm_num, by norm_num, by rw [h]; norm_num⟩

theorem representable_zero : Representable 0 := by simpa using representable_int (n := 0) (by norm_num)

theorem representable_neg {x : ℚ} (h : Representable x) : Representable (-x) := by
  obtain ⟨m, e, h1, h2, h3, rfl⟩ := h
  exact ⟨-m, e, by rwa [abs_neg], h2, h3, by push_cast; ring⟩

theorem representable_abs {x : ℚ} (h : Representable x) : Representable |x| := by
  rcases abs_choice x with h1 | h1 <;> rw [h1]
  · exact h
  · exact representable_neg h

theorem roundAwayQ_abs (x : ℚ) : |((roundAway x : Int) : ℚ) - x| ≤ 1 / 2 := by
  unfold roundAway
  split
  · have h1 := Int.floor_le (x + 1 / 2)
    have h2 := Int.lt_floor_add_one (x + 1 / 2)
    rw [abs_le]
    constructor <;> linarith
  · have h1 := Int.floor_le (-x + 1 / 2)
    have h2 := Int.lt_floor_add_one (-x + 1 / 2)
    push_cast
    rw [abs_le]
    constructor <;> linarith

theorem roundAwayQ_int (n : Int) : roundAway (n : ℚ) = n := by
  have h := roundAwayQ_abs (n : ℚ)
  have h2 : |((roundAway (n : ℚ) - n : Int) : ℚ)| < 1 := by push_cast; linarith
  have h3 : |(roundAway (n : ℚ) - n : Int)| < 1 := by exact_mod_cast h2
  have := Int.abs_lt_one_iff.1 h3
  omega

theorem representable_round {x : ℚ} (h : Representable x) : Representable ((roundAway x : Int) : ℚ) := by
  have h' := h
  obtain ⟨m, e, h1, h2, h3, hx⟩ := h
  rcases le_or_gt 0 e with he | he
  · obtain ⟨k, rfl⟩ := Int.eq_ofNat_of_zero_le he
    have hi : x = ((m * 2 ^ k : Int) : ℚ) := by rw [hx]; push_cast; simp
    rw [hi, roundAwayQ_int, ← hi]
    exact h'
  · apply representable_int
    have hlt : |x| < 2 ^ 53 := by
      rw [hx, abs_mul, abs_of_pos (zpow_pos (by norm_num) _ : (0 : ℚ) < 2 ^ e)]
      have h4 : (2 : ℚ) ^ e ≤ 1 := zpow_le_one_of_nonpos₀ (by norm_num) he.le
      have h5 : |(m : ℚ)| < 2 ^ 53 := by exact_mod_cast h1
      calc |(m : ℚ)| * 2 ^ e ≤ |(m : ℚ)| * 1 := mul_le_mul_of_nonneg_left h4 (abs_nonneg _)
        _ < 2 ^ 53 := by rwa [mul_one]
    have h6 := roundAwayQ_abs x
    have h7 : |((roundAway x : Int) : ℚ)| < 2 ^ 53 + 1 := by
      calc |((roundAway x : Int) : ℚ)| = |((roundAway x : Int) - x) + x| := by ring_nf
        _ ≤ |((roundAway x : Int) : ℚ) - x| + |x| := abs_add_le _ _
        _ < _ := by linarith
    have h8 : |roundAway x| < 2 ^ 53 + 1 := by exact_mod_cast h7
    omega

/-- Binary64 numbers. -/
structure Double where
  bits : F64
  rep : ∀ x, bits.ext.value = some x → Representable x

namespace Double

theorem rep_roundQ (x : ℚ) : ∀ y, (F64.roundQ x).value = some y → Representable y := by
  intro y hy
  have hval : y = F64.fl x ∧ |F64.fl x| < 2 ^ 1024 := by
    unfold F64.roundQ at hy
    unfold F64.fl F64.lastBit
    by_cases hx : x = 0
    · simp only [hx, ↓reduceIte, Ext.value, Option.some.injEq] at hy ⊢
      exact ⟨hy.symm, by rw [abs_zero]; positivity⟩
    · simp only [hx, ↓reduceIte] at hy ⊢
      split at hy
      · rename_i h0
        rw [h0]
        split at hy <;> simp only [Ext.value, Option.some.injEq] at hy <;> exact ⟨hy.symm, by rw [abs_zero]; positivity⟩
      · split at hy
        · simp [Ext.value] at hy
        · rename_i h1
          simp only [Ext.value, Option.some.injEq] at hy
          refine ⟨hy.symm, ?_⟩
          rw [not_le] at h1
          exact_mod_cast h1
  rw [hval.1]
  exact F64.representable_fl hval.2

theorem rep_rnd (a : Ext ℚ) : ∀ y, (F64.rnd a).ext.value = some y → Representable y := by
  intro y hy
  cases a with
  | fin x => exact rep_roundQ x y hy
  | negZero =>
    obtain rfl : 0 = y := by simpa [F64.rnd, Ext.value] using hy
    exact representable_zero
  | inf b => simp [F64.rnd, Ext.value] at hy
  | nan => simp [F64.rnd, Ext.value] at hy

theorem rep_powiLoop (fuel : Nat) (a r : Ext ℚ) (b : Nat) (h : ∀ y, r.value = some y → Representable y) :
    ∀ y, (F64.powiLoop fuel a r b).value = some y → Representable y := by
  induction fuel generalizing a r b with
  | zero => exact h
  | succ n ih =>
    intro y hy
    unfold F64.powiLoop at hy
    simp only at hy
    have h2 : ∀ y, (if b % 2 = 1 then (F64.rnd (Ext.mul r a)).ext else r).value = some y → Representable y := by
      intro y hy
      split at hy
      · exact rep_rnd _ y hy
      · exact h y hy
    split at hy
    · exact h2 y hy
    · exact ih _ _ _ h2 y hy

def mk' (a : Ext ℚ) : Double := ⟨F64.rnd a, rep_rnd a⟩

instance : FArith Double where
  ofInt n := mk' (.fin n)
  ofDec m e := ⟨FArith.ofDec m e, rep_rnd _⟩
  nan := ⟨FArith.nan, by intro x h; simp [FArith.nan, Ext.value] at h⟩
  inf b := ⟨FArith.inf b, by intro x h; simp [FArith.inf, Ext.value] at h⟩
  add a b := mk' (Ext.add a.bits.ext b.bits.ext)
  sub a b := mk' (Ext.sub a.bits.ext b.bits.ext)
  mul a b := mk' (Ext.mul a.bits.ext b.bits.ext)
  div a b := mk' (Ext.div a.bits.ext b.bits.ext)
  rem a b := mk' (Ext.rem a.bits.ext b.bits.ext)
  neg a := ⟨FArith.neg a.bits, by
    intro x h
    obtain ⟨y, hy, rfl⟩ := Option.map_eq_some_iff.1 ((Ext.neg_value a.bits.ext).symm.trans h)
    exact representable_neg (a.rep y hy)⟩
  abs a := ⟨FArith.abs a.bits, by
    intro x h
    obtain ⟨y, hy, rfl⟩ := Option.map_eq_some_iff.1 ((Exact.val_abs (F := Ext ℚ) a.bits.ext).symm.trans h)
    exact representable_abs (a.rep y hy)⟩
  round a := ⟨FArith.round a.bits, by
    intro x h
    obtain ⟨y, hy, rfl⟩ := Option.map_eq_some_iff.1 ((Exact.val_round (F := Ext ℚ) a.bits.ext).symm.trans h)
    exact representable_round (a.rep y hy)⟩
  powi a n := ⟨FArith.powi a.bits n, by
    intro x h
    have h1 : Representable 1 := by simpa using representable_int (n := 1) (by norm_num)
    simp only [FArith.powi, F64.powi] at h
    split at h
    · exact rep_rnd _ x h
    · exact rep_powiLoop _ _ _ _ (by
        intro y hy
        obtain rfl : 1 = y := by simpa [Ext.value] using hy
        exact h1) x h⟩
  beq a b := FArith.beq a.bits b.bits
  lt a b := FArith.lt a.bits b.bits
  isNaN a := FArith.isNaN a.bits
  isInf a := FArith.isInf a.bits
  isSignNeg a := FArith.isSignNeg a.bits
  toUsize a := FArith.toUsize a.bits
  toI32 a := FArith.toI32 a.bits

instance : Binary64 Double where
  bits_inj a b h := by cases a; cases b; simp only at h; subst h; rfl
  bits := Double.bits
  bits_ofInt _ := rfl
  bits_ofDec _ _ := rfl
  bits_nan := rfl
  bits_inf _ := rfl
  bits_add _ _ := rfl
  bits_sub _ _ := rfl
  bits_mul _ _ := rfl
  bits_div _ _ := rfl
  bits_rem _ _ := rfl
  bits_neg _ := rfl
  bits_abs _ := rfl
  bits_round _ := rfl
  bits_beq _ _ := rfl
  bits_lt _ _ := rfl
  bits_isNaN _ := rfl
  bits_isInf _ := rfl
  bits_isSignNeg _ := rfl
  bits_toUsize _ := rfl
  bits_toI32 _ := rfl
  representable a := a.rep

end Double
end MUL
