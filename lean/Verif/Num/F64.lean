import Verif.Num.Rat
/-!
# IEEE-754 binary64

A computable model of `f64` for concrete witnesses: the exact operation of `Ext ℚ`, rounded to nearest, ties to
even, with 53 bits, gradual underflow and overflow to infinity. Exact: `+ - * /`, `%`, `round`, `abs`, comparisons,
casts, `sqrt`, decimal literals. `powi` is the loop of compiler-rt's `__powidf2` (what `f64::powi` compiles to on
x86-64 without constant folding). The other elementary functions are not modelled (NaN). Used in examples and
witnesses only.
-/

namespace MUL

/-- `f64`. -/
structure F64 where
  ext : Ext ℚ
  deriving DecidableEq, Repr

namespace F64

/-- Round to an integer, ties to even. -/
def roundEven (x : ℚ) : Int :=
  let f := x.floor
  let d := x - f
  if d < 1 / 2 then f else if 1 / 2 < d then f + 1 else if f % 2 = 0 then f else f + 1

/-- `2^e`. -/
def pow2 (e : Int) : ℚ := if 0 ≤ e then (2 ^ e.toNat : Nat) else mkRat 1 (2 ^ (-e).toNat)

/-- `⌊log2 |x|⌋` for `x ≠ 0`. -/
def ilog2 (x : ℚ) : Int :=
  let e : Int := (Nat.log2 x.num.natAbs : Int) - Nat.log2 x.den
  if pow2 e ≤ |x| then (if pow2 (e + 1) ≤ |x| then e + 1 else e) else e - 1

/-- The nearest binary64 number. -/
def roundQ (x : ℚ) : Ext ℚ :=
  if x = 0 then .fin 0
  else
    let q := max (ilog2 x - 52) (-1074)
    let r : ℚ := roundEven (x / pow2 q) * pow2 q
    if r = 0 then (if x < 0 then .negZero else .fin 0)
    else if (2 ^ 1024 : Nat) ≤ |r| then .inf (decide (x < 0))
    else .fin r

/-- Round the result of an exact operation. -/
def rnd (a : Ext ℚ) : F64 := ⟨match a with | .fin x => roundQ x | a => a⟩

/-- `__powidf2` -/
def powiLoop : Nat → Ext ℚ → Ext ℚ → Nat → Ext ℚ
  | 0, _, r, _ => r
  | fuel + 1, a, r, b =>
    let r := if b % 2 = 1 then (rnd (Ext.mul r a)).ext else r
    if b / 2 = 0 then r else powiLoop fuel (rnd (Ext.mul a a)).ext r (b / 2)

def powi (a : F64) (n : Int) : F64 :=
  let r := powiLoop 40 a.ext (.fin 1) n.natAbs
  if n < 0 then rnd (Ext.div (.fin 1) r) else ⟨r⟩

/-- Correctly rounded square root: enough bits of the integer square root plus a sticky bit. -/
def sqrtQ (x : ℚ) : Ext ℚ :=
  let k : Int := 60 - (ilog2 x) / 2
  let y : ℚ := x * pow2 (2 * k)
  let m := y.floor.toNat
  let s := Nat.sqrt m
  let sticky : Nat := if (s * s : ℚ) = y then 0 else 1
  roundQ ((2 * s + sticky : Nat) * pow2 (-k - 1))

def sqrt : Ext ℚ → Ext ℚ
  | .fin x => if x = 0 then .fin 0 else if x < 0 then .nan else sqrtQ x
  | .negZero => .negZero
  | .inf false => .inf false
  | _ => .nan

instance : FArith F64 where
  ofInt n := rnd (.fin n)
  ofDec m e := rnd (.fin (if 0 ≤ e then ((m * 10 ^ e.toNat : Nat) : ℚ) else mkRat m (10 ^ (-e).toNat)))
  nan := ⟨.nan⟩
  inf b := ⟨.inf b⟩
  add a b := rnd (Ext.add a.ext b.ext)
  sub a b := rnd (Ext.sub a.ext b.ext)
  mul a b := rnd (Ext.mul a.ext b.ext)
  div a b := rnd (Ext.div a.ext b.ext)
  rem a b := rnd (Ext.rem a.ext b.ext)
  neg a := ⟨Ext.neg a.ext⟩
  abs a := ⟨FArith.abs a.ext⟩
  round a := ⟨FArith.round a.ext⟩
  powi := powi
  beq a b := Ext.beq a.ext b.ext
  lt a b := Ext.lt a.ext b.ext
  isNaN a := FArith.isNaN a.ext
  isInf a := FArith.isInf a.ext
  isSignNeg a := Ext.signNeg a.ext
  toUsize a := Ext.toUsize a.ext
  toI32 a := Ext.toI32 a.ext

instance : FElem F64 where
  powf a b := match b.ext with
    | .fin y => if y.den = 1 then powi a y.num else ⟨.nan⟩
    | .negZero => ⟨.fin 1⟩
    | _ => ⟨.nan⟩
  sqrt a := ⟨sqrt a.ext⟩
  sin _ := ⟨.nan⟩
  cos _ := ⟨.nan⟩
  tan _ := ⟨.nan⟩
  asin _ := ⟨.nan⟩
  acos _ := ⟨.nan⟩
  atan _ := ⟨.nan⟩
  ln _ := ⟨.nan⟩
  pi := rnd (.fin (314159265358979323846 / 100000000000000000000))
  e := rnd (.fin (271828182845904523536 / 100000000000000000000))

instance : FText F64 where
  display a := FText.display a.ext
  displayExp a := FText.displayExp a.ext

instance : FNum F64 where

/-- The literal with the given decimal digits. -/
def lit (m : Nat) (e : Int) : F64 := FArith.ofDec m e

-- well-known facts about binary64
example : FArith.beq (FArith.add (lit 1 (-1)) (lit 2 (-1))) (lit 3 (-1)) = false := by decide +kernel
example : (lit 1 (-1)).ext = .fin (3602879701896397 / 36028797018963968) := by decide +kernel
example : FArith.add (lit 1 16) (lit 1 0) = lit 1 16 := by decide +kernel
example : lit 2 308 = FArith.inf false := by decide +kernel
example : lit 1 (-330) = FArith.ofInt 0 := by decide +kernel
example : (lit 5 (-324)).ext = .fin (pow2 (-1074)) := by decide +kernel
example : FElem.sqrt (FArith.ofInt 2 : F64) = ⟨.fin (6369051672525773 / 4503599627370496)⟩ := by decide +kernel
example : FElem.sqrt (FArith.ofInt 9 : F64) = FArith.ofInt 3 := by decide +kernel
example : FArith.powi (FArith.ofInt 10 : F64) (-8) = lit 1 (-8) := by decide +kernel

end F64
end MUL
