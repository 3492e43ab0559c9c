import Verif.Spec.Denote
import Verif.Spec.Binary64
/-!
# Specification for C67: error bounds of formulas in binary64 arithmetic

`Rounds cfg u φ cur ρ e o` derives from the bounds of the variables (`ρ`) a bound of the rounding error of the formula `e`, by the textbook
rules of rounding error analysis ("the computed number is the exact result of the rounded operands times `1 + δ`, `|δ| ≤ 2^-53`").
Elementary functions are assumed to have the relative accuracy `u`. It mentions nothing of the library.
-/

namespace MUL.Spec

/-- An exact real number and a bound of the distance of the number stored instead. -/
structure Approx where
  val : ℝ
  err : ℝ

/-- Representable reals. -/
def RepresentableR (x : ℝ) : Prop := ∃ q : ℚ, Representable q ∧ (q : ℝ) = x

/-- Numbers below this size (in absolute value) are not rounded to infinity. -/
noncomputable def overflow : ℝ := 2 ^ 1024 - 2 ^ 970

/-- The bound after a result of size at most `s` has been rounded. -/
noncomputable def roundErr (s : ℝ) : ℝ := max (s / 2 ^ 53) (1 / 2 ^ 1075)

/-- Sums. There is no underflow. If the operands are exact and the sum is representable, it is exact. -/
inductive SumR : Approx → Approx → Approx → Prop
  | rounded (x s y t : ℝ) : |x + y| + (s + t) < overflow → SumR ⟨x, s⟩ ⟨y, t⟩ ⟨x + y, s + t + (|x + y| + (s + t)) / 2 ^ 53⟩
  | exact (x y : ℝ) : RepresentableR (x + y) → SumR ⟨x, 0⟩ ⟨y, 0⟩ ⟨x + y, 0⟩

/-- The change of a product if its factors change by `s` and `t`. -/
def prodErr (x s y t : ℝ) : ℝ := |x| * t + s * |y| + s * t

/-- Products. -/
inductive ProdR : Approx → Approx → Approx → Prop
  | rounded (x s y t : ℝ) : |x * y| + prodErr x s y t < overflow →
      ProdR ⟨x, s⟩ ⟨y, t⟩ ⟨x * y, prodErr x s y t + roundErr (|x * y| + prodErr x s y t)⟩
  | exact (x y : ℝ) : RepresentableR (x * y) → ProdR ⟨x, 0⟩ ⟨y, 0⟩ ⟨x * y, 0⟩

/-- The change of a quotient if numerator and denominator change by `s` and `t`. -/
noncomputable def quotErr (x s y t : ℝ) : ℝ := (|x| * t + s * |y|) / (|y| * (|y| - t))

/-- Quotients. -/
inductive QuotR : Approx → Approx → Approx → Prop
  | rounded (x s y t : ℝ) : 0 ≤ t → t < |y| → |x / y| + quotErr x s y t < overflow →
      QuotR ⟨x, s⟩ ⟨y, t⟩ ⟨x / y, quotErr x s y t + roundErr (|x / y| + quotErr x s y t)⟩
  | exact (x y : ℝ) : y ≠ 0 → RepresentableR (x / y) → QuotR ⟨x, 0⟩ ⟨y, 0⟩ ⟨x / y, 0⟩

/-- Negation is exact. -/
def Approx.neg (a : Approx) : Approx := ⟨-a.val, a.err⟩

/-- Sums of products, added one after the other to `s`. -/
inductive DotR : List Approx → List Approx → Approx → Approx → Prop
  | nil (s : Approx) : DotR [] [] s s
  | cons {a b p s s' r : Approx} {as bs : List Approx} : ProdR a b p → SumR s p s' → DotR as bs s' r → DotR (a :: as) (b :: bs) s r

/-- Numbers, vectors and matrices (rows) with error bounds. -/
inductive ObjR where
  | scalar (a : Approx)
  | vector (l : List Approx)
  | matrix (rows : List (List Approx))

/-- Negation. -/
def ObjR.neg : ObjR → ObjR
  | .scalar a => .scalar a.neg
  | .vector l => .vector (l.map Approx.neg)
  | .matrix m => .matrix (m.map fun r => r.map Approx.neg)

/-- Column `j` of a matrix. -/
def columnR (m : List (List Approx)) (j : Nat) : List Approx := m.filterMap fun row => row[j]?

/-- All rows have `c` entries. -/
def RectR (c : Nat) (m : List (List Approx)) : Prop := ∀ row ∈ m, row.length = c

/-- Elementwise. -/
def Each (R : Approx → Approx → Approx → Prop) (l k o : List Approx) : Prop :=
  List.Forall₂ (fun p r => R p.1 p.2 r) (l.zip k) o ∧ l.length = k.length

/-- Sums of numbers, vectors and matrices. -/
inductive AddR : ObjR → ObjR → ObjR → Prop
  | scalar {a b c : Approx} : SumR a b c → AddR (.scalar a) (.scalar b) (.scalar c)
  | vector {l k o : List Approx} : Each SumR l k o → AddR (.vector l) (.vector k) (.vector o)
  | matrix {c : Nat} {l k o : List (List Approx)} : l ≠ [] → RectR c l → RectR c k → l.length = k.length →
      List.Forall₂ (fun p r => Each SumR p.1 p.2 r) (l.zip k) o → AddR (.matrix l) (.matrix k) (.matrix o)

/-- Products: of numbers, of a number and a vector or matrix (either order), dot product, matrix applied to a vector, matrix product. -/
inductive MulR : ObjR → ObjR → ObjR → Prop
  | scalar {a b c : Approx} : ProdR a b c → MulR (.scalar a) (.scalar b) (.scalar c)
  | scaleVector {t : Approx} {l o : List Approx} : List.Forall₂ (fun a r => ProdR a t r) l o → MulR (.scalar t) (.vector l) (.vector o)
  | vectorScale {t : Approx} {l o : List Approx} : List.Forall₂ (fun a r => ProdR a t r) l o → MulR (.vector l) (.scalar t) (.vector o)
  | scaleMatrix {c : Nat} {t : Approx} {l o : List (List Approx)} : RectR c l →
      List.Forall₂ (List.Forall₂ fun a r => ProdR a t r) l o → MulR (.scalar t) (.matrix l) (.matrix o)
  | matrixScale {c : Nat} {t : Approx} {l o : List (List Approx)} : RectR c l →
      List.Forall₂ (List.Forall₂ fun a r => ProdR a t r) l o → MulR (.matrix l) (.scalar t) (.matrix o)
  | dot {l k : List Approx} {r : Approx} : DotR l k ⟨0, 0⟩ r → MulR (.vector l) (.vector k) (.scalar r)
  | apply {m : List (List Approx)} {l o : List Approx} : m ≠ [] →
      List.Forall₂ (fun row r => DotR row l ⟨0, 0⟩ r) m o → MulR (.matrix m) (.vector l) (.vector o)
  | matrix {k c : Nat} {l m o : List (List Approx)} : l ≠ [] → m ≠ [] → RectR k l → m.length = k → RectR c m →
      List.Forall₂ (fun row r => List.Forall₂ (fun j d => DotR row (columnR m j) ⟨0, 0⟩ d) (List.range c) r) l o →
      MulR (.matrix l) (.matrix m) (.matrix o)

/-- Quotients of a number, vector or matrix by a number. For vectors and matrices the library multiplies by the reciprocal, which
rounds twice. -/
inductive DivR : ObjR → ObjR → ObjR → Prop
  | scalar {a b c : Approx} : QuotR a b c → DivR (.scalar a) (.scalar b) (.scalar c)
  | vector {l o : List Approx} {b r : Approx} : QuotR ⟨1, 0⟩ b r → List.Forall₂ (fun a c => ProdR a r c) l o →
      DivR (.vector l) (.scalar b) (.vector o)
  | matrix {c : Nat} {l o : List (List Approx)} {b r : Approx} : RectR c l → QuotR ⟨1, 0⟩ b r →
      List.Forall₂ (List.Forall₂ fun a c => ProdR a r c) l o → DivR (.matrix l) (.scalar b) (.matrix o)

/-- The error of an elementary function of relative accuracy `u`, for results of size at most `s`. -/
noncomputable def libErr (u s : ℝ) : ℝ := u * s + 1 / 2 ^ 1074

/-- The elementary functions with their domains. -/
inductive Elementary : SimpleOp → (ℝ → ℝ) → (ℝ → Prop) → Prop
  | sin : Elementary .sin Real.sin fun _ => True
  | cos : Elementary .cos Real.cos fun _ => True
  | tan : Elementary .tan Real.tan fun x => Real.cos x ≠ 0 ∧ |Real.tan x| < 2 ^ 1023
  | arcsin : Elementary .arcsin Real.arcsin fun x => -1 ≤ x ∧ x ≤ 1
  | arccos : Elementary .arccos Real.arccos fun x => -1 ≤ x ∧ x ≤ 1
  | arctan : Elementary .arctan Real.arctan fun _ => True
  | ln : Elementary .ln Real.log fun x => 0 < x

/-- Square roots are rounded correctly; `t` bounds the change of the root if the radicand changes by `s`. -/
inductive SqrtR : Approx → Approx → Prop
  | rounded (x s t : ℝ) : 0 ≤ s → (∀ z, |z - x| ≤ s → 0 ≤ z ∧ |Real.sqrt z - Real.sqrt x| ≤ t) →
      SqrtR ⟨x, s⟩ ⟨Real.sqrt x, t + roundErr (Real.sqrt x + t)⟩
  | exact (x : ℝ) : 0 ≤ x → RepresentableR (Real.sqrt x) → SqrtR ⟨x, 0⟩ ⟨Real.sqrt x, 0⟩

/-- Functions of one argument. `t` bounds the change of the exact result if the argument changes by `s`. -/
inductive FnR (u : ℝ) : SimpleOp → ObjR → ObjR → Prop
  | elementary {op : SimpleOp} {g : ℝ → ℝ} {D : ℝ → Prop} (x s t : ℝ) : Elementary op g D → 0 ≤ s → (∀ z, |z - x| ≤ s → D z ∧ |g z - g x| ≤ t) →
      FnR u op (.scalar ⟨x, s⟩) (.scalar ⟨g x, t + libErr u (|g x| + t)⟩)
  | abs (x s : ℝ) : FnR u .abs (.scalar ⟨x, s⟩) (.scalar ⟨|x|, s⟩)
  | sqrt {a r : Approx} : SqrtR a r → FnR u .sqrt (.scalar a) (.scalar r)
  | length {l : List Approx} {q r : Approx} : DotR l l ⟨0, 0⟩ q → SqrtR q r → FnR u .abs (.vector l) (.scalar r)

/-- Powers of numbers: with a whole exponent, or of a positive number. -/
inductive PowR (u : ℝ) : Approx → Approx → Approx → Prop
  | nat (x s t : ℝ) (n : Nat) : (∀ z, |z - x| ≤ s → |z ^ n - x ^ n| ≤ t) → |x ^ n| + t < 2 ^ 1023 →
      PowR u ⟨x, s⟩ ⟨n, 0⟩ ⟨x ^ n, t + libErr u (|x ^ n| + t)⟩
  | real (x s y w t : ℝ) : 0 ≤ s → 0 ≤ w → (∀ z v, |z - x| ≤ s → |v - y| ≤ w → 0 < z ∧ |z ^ v - x ^ y| ≤ t) → x ^ y + t < 2 ^ 1023 →
      PowR u ⟨x, s⟩ ⟨y, w⟩ ⟨x ^ y, t + libErr u (x ^ y + t)⟩

/-- A vector of at most three entries, filled up with zeros. -/
def padR (l : List Approx) (i : Nat) : Approx := l.getD i ⟨0, 0⟩

/-- One entry of a cross product. -/
def Cross1 (a b c d r : Approx) : Prop := ∃ p q, ProdR a b p ∧ ProdR c d q ∧ SumR p q.neg r

/-- The step of the derivative. -/
noncomputable def stepR (u : ℝ) (prec : Nat) : Approx := ⟨10 ^ (-(prec : Int)), libErr u (10 ^ (-(prec : Int)))⟩

/-- The binary operators. -/
inductive OpR (u : ℝ) : BinOp → ObjR → ObjR → ObjR → Prop
  | add {a b c : ObjR} : AddR a b c → OpR u .add a b c
  | sub {a b c : ObjR} : AddR a b.neg c → OpR u .sub a b c
  | mult {a b c : ObjR} : MulR a b c → OpR u .mult a b c
  | juxt {a b c : ObjR} : MulR a b c → OpR u .juxt a b c
  | div {a b c : ObjR} : DivR a b c → OpR u .div a b c
  | pow {a b c : Approx} : PowR u a b c → OpR u .pow (.scalar a) (.scalar b) (.scalar c)
  | cross {l k : List Approx} {x y z : Approx} : l.length = k.length → l.length ≤ 3 →
      Cross1 (padR l 1) (padR k 2) (padR l 2) (padR k 1) x → Cross1 (padR l 2) (padR k 0) (padR l 0) (padR k 2) y →
      Cross1 (padR l 0) (padR k 1) (padR l 1) (padR k 0) z → OpR u .cross (.vector l) (.vector k) (.vector [x, y, z])
  | get {l : List Approx} (i : Nat) (h : i < l.length) : 0 < i → l.length ≤ 2 ^ 53 →
      OpR u .get (.vector l) (.scalar ⟨i, 0⟩) (.scalar l[i])

/-- The bounds of the variables. -/
abbrev EnvR := Str → Option ObjR

/-- Parameters have the bounds of the arguments, all other names keep theirs. -/
def EnvR.bind (ρ : EnvR) (params : List Str) (args : List ObjR) : EnvR := fun n =>
  match (params.zip args).find? fun p => p.1 = n with
  | some p => some p.2
  | none => ρ n

/-- The object `o` with the error bounds of `o'`: same exact numbers, larger bounds. -/
inductive Weaker : ObjR → ObjR → Prop
  | scalar {x s t : ℝ} : s ≤ t → Weaker (.scalar ⟨x, s⟩) (.scalar ⟨x, t⟩)

/-- `x` has the bounds `o`, all other names keep theirs. -/
def EnvR.set (ρ : EnvR) (x : Str) (o : ObjR) : EnvR := fun n => if n = x then some o else ρ n

/-- Rounding error bounds of formulas, for elementary functions of relative accuracy `u`. `cur` is the function whose definition is
being read. -/
inductive Rounds (cfg : Cfg) (u : ℝ) (φ : Defs) : Str → EnvR → Ex → ObjR → Prop
  | num {cur : Str} {ρ : EnvR} (ip : Str) (fp : Option Str) : numeral ip fp < overflow →
      Rounds cfg u φ cur ρ (.num ip fp) (.scalar ⟨numeral ip fp, roundErr (numeral ip fp)⟩)
  | numExact {cur : Str} {ρ : EnvR} (ip : Str) (fp : Option Str) : RepresentableR (numeral ip fp) →
      Rounds cfg u φ cur ρ (.num ip fp) (.scalar ⟨numeral ip fp, 0⟩)
  | var {cur : Str} {ρ : EnvR} (x : Str) (o : ObjR) : ρ x = some o → Rounds cfg u φ cur ρ (.var x) o
  | paren {cur : Str} {ρ : EnvR} (e : Ex) (o : ObjR) : Rounds cfg u φ cur ρ e o → Rounds cfg u φ cur ρ (.paren e) o
  | neg {cur : Str} {ρ : EnvR} (e : Ex) (o : ObjR) : Rounds cfg u φ cur ρ e o → Rounds cfg u φ cur ρ (.neg e) o.neg
  | bin {cur : Str} {ρ : EnvR} (op : BinOp) (l r : Ex) (a b c : ObjR) : Rounds cfg u φ cur ρ l a → Rounds cfg u φ cur ρ r b →
      OpR u op a b c → Rounds cfg u φ cur ρ (.bin op l r) c
  | vec {cur : Str} {ρ : EnvR} (es : List Ex) (as : List Approx) (hlen : es.length = as.length) :
      (∀ i (h : i < es.length), Rounds cfg u φ cur ρ es[i] (.scalar (as[i]'(hlen ▸ h)))) → Rounds cfg u φ cur ρ (.vec es) (.vector as)
  | mat {cur : Str} {ρ : EnvR} {r c : Nat} (rows : List (List Ex)) (A : Fin (r + 1) → Fin (c + 1) → Approx)
      (hr : rows.length = r + 1) (hc : ∀ row ∈ rows, row.length = c + 1) :
      (∀ i j row e, rows[i.val]? = some row → row[j.val]? = some e → Rounds cfg u φ cur ρ e (.scalar (A i j))) →
      Rounds cfg u φ cur ρ (.mat rows) (.matrix (if cfg.rowMajor then List.ofFn fun i => List.ofFn fun j => A i j
        else List.ofFn fun j => List.ofFn fun i => A i j))
  | call {cur : Str} {ρ : EnvR} (f : Str) (args : List Ex) (params : List Str) (body : Ex) (os : List ObjR) (o : ObjR)
      (hlen : args.length = os.length) : φ f = some (params, body) → f ≠ cur → params.Nodup → args.length = params.length →
      (∀ i (h : i < args.length), Rounds cfg u φ cur ρ args[i] (os[i]'(hlen ▸ h))) →
      Rounds cfg u φ f (ρ.bind params os) body o → Rounds cfg u φ cur ρ (.call f args) o
  | fn {cur : Str} {ρ : EnvR} (name : Str) (op : SimpleOp) (e : Ex) (o r : ObjR) : Rounds cfg u φ cur ρ e o → FnR u op o r →
      Rounds cfg u φ cur ρ (.fn name op e) r
  /-- `root(a, b)` is computed as `a^(1/b)`. -/
  | root {cur : Str} {ρ : EnvR} (a b : Ex) (p q r s : Approx) : Rounds cfg u φ cur ρ a (.scalar p) → Rounds cfg u φ cur ρ b (.scalar q) →
      0 < p.val → QuotR ⟨1, 0⟩ q r → PowR u p r s → Rounds cfg u φ cur ρ (.root a b) (.scalar s)
  /-- The difference quotient. -/
  | deriv {cur : Str} {ρ : EnvR} (e : Ex) (x : Str) (a : Ex) (p ph f fh d q : Approx) : cfg.prec ≤ 22 →
      Rounds cfg u φ cur ρ a (.scalar p) → SumR p (stepR u cfg.prec) ph →
      Rounds cfg u φ [] (ρ.set x (.scalar p)) e (.scalar f) → Rounds cfg u φ [] (ρ.set x (.scalar ph)) e (.scalar fh) →
      SumR fh f.neg d → QuotR d (stepR u cfg.prec) q → Rounds cfg u φ cur ρ (.deriv e x a) (.scalar q)
  | weaken {cur : Str} {ρ : EnvR} (e : Ex) (o o' : ObjR) : Rounds cfg u φ cur ρ e o → Weaker o o' → Rounds cfg u φ cur ρ e o'

/-- The exact object of which `o` bounds the error. -/
inductive ExactOf : ObjR → Obj → Prop
  | scalar (a : Approx) : ExactOf (.scalar a) (.scalar a.val)
  | vector {n : Nat} (l : List Approx) (x : Fin n → ℝ) : l.length = n → (∀ (i : Fin n) (a : Approx), l[i.val]? = some a → a.val = x i) →
      ExactOf (.vector l) (.vector x)
  | matrix {r c : Nat} (m : List (List Approx)) (A : Matrix (Fin r) (Fin c) ℝ) : m.length = r → RectR c m →
      (∀ (i : Fin r) (j : Fin c) (row : List Approx) (a : Approx), m[i.val]? = some row → row[j.val]? = some a → a.val = A i j) →
      ExactOf (.matrix m) (.matrix A)

/-- The exact values of the variables. -/
def EnvExact (ρ : EnvR) (σ : Env) : Prop := ∀ n o, ρ n = some o → ∃ obj, σ n = some [obj] ∧ ExactOf o obj

end MUL.Spec
