import Verif.Num.Exact
import Mathlib.Tactic.Ring
import Mathlib.Tactic.FieldSimp
/-!
# A concrete number type with exact arithmetic

`Ext K`: an ordered field with negative zero, the two infinities and NaN.
-/

namespace MUL

inductive Ext (K : Type) where
  | fin (x : K)
  | negZero
  | inf (neg : Bool)
  | nan
  deriving DecidableEq, Repr

namespace Ext
variable {K : Type} [Field K] [LinearOrder K] [FloorRing K]

/-- The finite number, if it is one. -/
def value : Ext K → Option K
  | fin x => some x
  | negZero => some 0
  | inf _ => none
  | nan => none

/-- Sign bit (of NaN: positive). -/
def signNeg : Ext K → Bool
  | fin x => decide (x < 0)
  | negZero => true
  | inf b => b
  | nan => false

/-- Finite result with the sign to use if it is zero. -/
def mk (x : K) (neg : Bool) : Ext K := if x = 0 ∧ neg = true then negZero else fin x

def add : Ext K → Ext K → Ext K
  | nan, _ => nan
  | _, nan => nan
  | inf a, inf b => if a = b then inf a else nan
  | inf a, _ => inf a
  | _, inf b => inf b
  | negZero, negZero => negZero
  | a, b => match a.value, b.value with
    | some x, some y => fin (x + y)
    | _, _ => nan

def neg : Ext K → Ext K
  | fin x => mk (-x) (decide (x = 0))
  | negZero => fin 0
  | inf b => inf !b
  | nan => nan

def sub (a b : Ext K) : Ext K := add a (neg b)

def mul (a b : Ext K) : Ext K :=
  match a, b with
  | nan, _ => nan
  | _, nan => nan
  | inf s, b => if b.value = some 0 then nan else inf (s ^^ b.signNeg)
  | a, inf s => if a.value = some 0 then nan else inf (s ^^ a.signNeg)
  | a, b => match a.value, b.value with
    | some x, some y => mk (x * y) (a.signNeg ^^ b.signNeg)
    | _, _ => nan

def div (a b : Ext K) : Ext K :=
  match a, b with
  | nan, _ => nan
  | _, nan => nan
  | inf _, inf _ => nan
  | inf s, b => inf (s ^^ b.signNeg)
  | a, inf s => mk 0 (a.signNeg ^^ s)
  | a, b => match a.value, b.value with
    | some x, some y =>
      if y = 0 then (if x = 0 then nan else inf (a.signNeg ^^ b.signNeg))
      else mk (x / y) (a.signNeg ^^ b.signNeg)
    | _, _ => nan

def rem (a b : Ext K) : Ext K :=
  match a, b with
  | nan, _ => nan
  | _, nan => nan
  | inf _, _ => nan
  | a, inf _ => a
  | a, b => match a.value, b.value with
    | some x, some y => if y = 0 then nan else mk (x - truncate (x / y) * y) a.signNeg
    | _, _ => nan

def powi (a : Ext K) (n : Int) : Ext K :=
  match a with
  | nan => if n = 0 then fin 1 else nan
  | inf s => if n = 0 then fin 1 else if 0 < n then inf (s && n % 2 = 1) else mk 0 (s && n % 2 = 1)
  | a => match a.value with
    | some x => if x = 0 ∧ n < 0 then inf (a.signNeg && n % 2 = 1) else mk (x ^ n) (a.signNeg && n % 2 = 1)
    | none => nan

def beq : Ext K → Ext K → Bool
  | nan, _ => false
  | _, nan => false
  | inf a, inf b => a == b
  | inf _, _ => false
  | _, inf _ => false
  | a, b => a.value == b.value

def lt : Ext K → Ext K → Bool
  | nan, _ => false
  | _, nan => false
  | inf a, inf b => a && !b
  | inf a, _ => a
  | _, inf b => !b
  | a, b => match a.value, b.value with
    | some x, some y => decide (x < y)
    | _, _ => false

def toUsize (a : Ext K) : Nat :=
  match a with
  | inf b => if b then 0 else 2 ^ 64 - 1
  | nan => 0
  | a => match a.value with
    | some x => if 0 ≤ x then min (⌊x⌋.toNat) (2 ^ 64 - 1) else 0
    | none => 0

def toI32 (a : Ext K) : Int :=
  match a with
  | inf b => if b then -2 ^ 31 else 2 ^ 31 - 1
  | nan => 0
  | a => match a.value with
    | some x => max (-2 ^ 31) (min (truncate x) (2 ^ 31 - 1))
    | none => 0

instance instFArith : FArith (Ext K) where
  ofInt n := fin n
  ofDec m e := fin ((m : K) * 10 ^ e)
  nan := nan
  inf := inf
  add := add
  sub := sub
  mul := mul
  div := div
  rem := rem
  neg := neg
  abs a := match a with
    | fin x => fin |x|
    | negZero => fin 0
    | inf _ => inf false
    | nan => nan
  round a := match a with
    | fin x => mk (roundAway x) (decide (x < 0))
    | a => a
  powi := powi
  beq := beq
  lt := lt
  isNaN a := match a with | nan => true | _ => false
  isInf a := match a with | inf _ => true | _ => false
  isSignNeg := signNeg
  toUsize := toUsize
  toI32 := toI32

variable [IsStrictOrderedRing K]

omit [IsStrictOrderedRing K] [FloorRing K] in
@[simp] theorem value_mk (x : K) (b : Bool) : (mk x b).value = some x := by
  unfold mk
  split
  · rename_i h; simp [value, h.1]
  · rfl

omit [IsStrictOrderedRing K] [LinearOrder K] [FloorRing K] in
theorem value_fin (x : K) : (fin x).value = some x := rfl
omit [IsStrictOrderedRing K] [LinearOrder K] [FloorRing K] in
theorem value_negZero : (negZero : Ext K).value = some 0 := rfl
omit [IsStrictOrderedRing K] [LinearOrder K] [FloorRing K] in
theorem value_inf (b : Bool) : (inf b : Ext K).value = none := rfl
omit [IsStrictOrderedRing K] [LinearOrder K] [FloorRing K] in
theorem value_nan : (nan : Ext K).value = none := rfl

omit [IsStrictOrderedRing K] [FloorRing K] in
theorem value_add_mk (a : Ext K) (x : K) (b : Bool) : (add a (mk x b)).value = (add a (fin x)).value := by
  unfold mk
  split
  · rename_i h; cases a <;> simp [add, value_fin, value_negZero, value_inf, value_nan, h.1]
  · rfl

omit [IsStrictOrderedRing K] [FloorRing K] in
theorem add_value {a b : Ext K} {x y : K} (ha : a.value = some x) (hb : b.value = some y) : (add a b).value = some (x + y) := by
  cases a <;> cases b <;> simp_all [value_fin, value_negZero, value_inf, value_nan, add]

omit [IsStrictOrderedRing K] [FloorRing K] in
theorem add_value_none {a b : Ext K} (h : a.value = none ∨ b.value = none) : (add a b).value = none := by
  cases a <;> cases b <;> simp_all [value_fin, value_negZero, value_inf, value_nan, add]
  split <;> rfl

omit [IsStrictOrderedRing K] [FloorRing K] in
theorem neg_value (a : Ext K) : (neg a).value = a.value.map (- ·) := by
  cases a <;> simp [value_fin, value_negZero, value_inf, value_nan, neg]

instance instExact : Exact (Ext K) K where
  val := value
  val_ofInt _ := rfl
  val_ofDec _ _ := rfl
  val_nan := rfl
  val_inf _ := rfl
  val_add := add_value
  add_none := add_value_none
  val_sub := by
    intro a b x y ha hb
    rw [sub_eq_add_neg]
    exact add_value ha (by rw [neg_value, hb]; rfl)
  sub_none := by
    intro a b h
    exact add_value_none (h.imp id fun h => by rw [neg_value, h]; rfl)
  val_mul := by
    intro a b x y ha hb
    cases a <;> cases b <;> simp_all [value_fin, value_negZero, value_inf, value_nan, FArith.mul, mul]
  mul_none := by
    intro a b h
    cases a <;> cases b <;> simp_all [value_fin, value_negZero, value_inf, value_nan, FArith.mul, mul]
    all_goals (split <;> rfl)
  val_div := by
    intro a b x y ha hb hy
    cases a <;> cases b <;> simp_all [value_fin, value_negZero, value_inf, value_nan, FArith.div, div]
  div_none := by
    intro a b h
    cases a <;> cases b <;> simp_all [value_fin, value_negZero, value_inf, value_nan, FArith.div, div]
    all_goals first
      | (split <;> rfl)
      | skip
  val_div_inf := by
    intro a b x ha hb
    cases a <;> cases b <;> simp_all [value_fin, value_negZero, value_inf, value_nan, FArith.div, div, FArith.isInf]
  div_zero_inf := by
    intro a b x ha hx hb
    cases a <;> cases b <;> simp_all [value_fin, value_negZero, value_inf, value_nan, FArith.div, div, FArith.isInf]
  div_zero_nan := by
    intro a b ha hb
    cases a <;> cases b <;> simp_all [value_fin, value_negZero, value_inf, value_nan, FArith.div, div, FArith.isNaN]
  div_nan := by
    intro a b h
    cases a <;> cases b <;> simp_all [FArith.div, div, FArith.isNaN]
  val_rem := by
    intro a b x y ha hb hy
    cases a <;> cases b <;> simp_all [value_fin, value_negZero, value_inf, value_nan, FArith.rem, rem]
    all_goals first
      | (rename_i x'; simp [truncate])
      | skip
  rem_none := by
    intro a b h
    cases a <;> cases b <;> simp_all [value_fin, value_negZero, value_inf, value_nan, FArith.rem, rem]
  val_neg := by
    intro a
    cases a <;> simp [value_fin, value_negZero, value_inf, value_nan, FArith.neg, neg]
  val_abs := by
    intro a
    cases a <;> simp [value_fin, value_negZero, value_inf, value_nan, FArith.abs]
  val_round := by
    intro a
    cases a <;> simp [value_fin, value_negZero, value_inf, value_nan, FArith.round, roundAway]
    symm
    norm_num [Int.floor_eq_iff]
  val_powi := by
    intro a x n ha hn
    have hc : ¬ (x = 0 ∧ n < 0) := fun ⟨h1, h2⟩ => hn.elim (fun hn => absurd hn (by omega)) fun hn => hn h1
    cases a with
    | fin y =>
      simp only [value_fin, Option.some.injEq] at ha
      subst ha
      simp only [FArith.powi, powi, value_fin]
      rw [if_neg hc, value_mk]
    | negZero =>
      simp only [value_negZero, Option.some.injEq] at ha
      subst ha
      simp only [FArith.powi, powi, value_negZero]
      rw [if_neg (by simpa using hc), value_mk]
    | inf b => simp [value_inf] at ha
    | nan => simp [value_nan] at ha
  powi_none := by
    intro a n ha hn
    cases a <;> simp_all [value_fin, value_negZero, value_inf, value_nan, FArith.powi, powi]
    · rw [if_neg (by omega)]; rfl
    · rw [if_neg (by omega)]; rfl
  beq_val := by
    intro a b x y ha hb
    cases a <;> cases b <;> simp_all [value_fin, value_negZero, value_inf, value_nan, FArith.beq, beq] <;> rfl
  beq_none_left := by
    intro a b x ha hb
    cases a <;> cases b <;> simp_all [value_fin, value_negZero, value_inf, value_nan, FArith.beq, beq]
  beq_none_right := by
    intro a b x ha hb
    cases a <;> cases b <;> simp_all [value_fin, value_negZero, value_inf, value_nan, FArith.beq, beq]
  lt_val := by
    intro a b x y ha hb
    cases a <;> cases b <;> simp_all [value_fin, value_negZero, value_inf, value_nan, FArith.lt, lt]
  nan_beq := by
    intro a b h
    cases a <;> cases b <;> simp_all [FArith.beq, beq, FArith.isNaN]
  nan_lt := by
    intro a b h
    cases a <;> cases b <;> simp_all [FArith.lt, lt, FArith.isNaN]
  lt_none := by
    intro a b c y z ha hb hc
    cases a <;> cases b <;> cases c <;> simp_all [value_fin, value_negZero, value_inf, value_nan, FArith.lt, lt]
  finite_iff := by
    intro a
    cases a <;> rfl
  sign_neg := by
    intro a x ha hx
    cases a <;> simp_all [value_fin, value_negZero, value_inf, value_nan, FArith.isSignNeg, signNeg]
  sign_pos := by
    intro a x ha hx
    cases a <;> simp_all [value_fin, value_negZero, value_inf, value_nan, FArith.isSignNeg, signNeg]
    exact hx.le
  sign_ofInt := by
    intro n hn
    simp only [FArith.isSignNeg, signNeg, FArith.ofInt]
    simpa using hn
  val_toUsize := by
    intro a x ha hx
    cases a <;> simp_all [value_fin, value_negZero, value_inf, value_nan, FArith.toUsize, toUsize]
  val_toI32 := by
    intro a x ha
    cases a <;> simp_all [value_fin, value_negZero, value_inf, value_nan, FArith.toI32, toI32]

end Ext
end MUL
