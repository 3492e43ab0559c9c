import Verif.Spec.Grammar
import Verif.Spec.Calculus
import Verif.Spec.Combinatorics
import Verif.Spec.Newton
import Verif.Num.Real
import Mathlib.LinearAlgebra.CrossProduct
import Mathlib.Data.Nat.Digits.Defs
import Mathlib.LinearAlgebra.Matrix.NonsingularInverse
/-!
# Specification for C60: what a formula means

A textbook semantics of the expression language over the real numbers: `Denotes cfg φ cur ρ e os` says that, when the
variables stand for the objects `ρ` and the functions for the definitions `φ`, the formula `e` stands for the objects
`os`. It mentions nothing of the library's evaluator.
-/

namespace MUL.Spec

/-- Numbers, vectors and matrices. -/
inductive Obj where
  | scalar (x : ℝ)
  | vector {n : Nat} (x : Fin n → ℝ)
  | matrix {r c : Nat} (A : Matrix (Fin r) (Fin c) ℝ)

/-- A value of the library stands for an object. -/
def Means {F : Type} [FArith F] [Exact F ℝ] (v : Value F) : Obj → Prop
  | .scalar x => IsScalar v x
  | .vector x => IsVector v x
  | .matrix A => IsMatrix v A

/-- Built-in functions of one argument, inside their domains. `inv` needs all leading principal minors to be non-zero
(otherwise the library does not return finite numbers, C36). -/
inductive Fn1 : SimpleOp → Obj → Obj → Prop
  | sin (x : ℝ) : Fn1 .sin (.scalar x) (.scalar (Real.sin x))
  | cos (x : ℝ) : Fn1 .cos (.scalar x) (.scalar (Real.cos x))
  | tan (x : ℝ) : Real.cos x ≠ 0 → Fn1 .tan (.scalar x) (.scalar (Real.tan x))
  | arcsin (x : ℝ) : -1 ≤ x → x ≤ 1 → Fn1 .arcsin (.scalar x) (.scalar (Real.arcsin x))
  | arccos (x : ℝ) : -1 ≤ x → x ≤ 1 → Fn1 .arccos (.scalar x) (.scalar (Real.arccos x))
  | arctan (x : ℝ) : Fn1 .arctan (.scalar x) (.scalar (Real.arctan x))
  | abs (x : ℝ) : Fn1 .abs (.scalar x) (.scalar |x|)
  | length {n : Nat} (x : Fin n → ℝ) : Fn1 .abs (.vector x) (.scalar (Real.sqrt (∑ i, x i ^ 2)))
  | sqrt (x : ℝ) : 0 ≤ x → Fn1 .sqrt (.scalar x) (.scalar (Real.sqrt x))
  | ln (x : ℝ) : 0 < x → Fn1 .ln (.scalar x) (.scalar (Real.log x))
  | det {n : Nat} (A : Matrix (Fin (n + 1)) (Fin (n + 1)) ℝ) : Fn1 .det (.matrix A) (.scalar A.det)
  | inv {n : Nat} (A : Matrix (Fin (n + 1)) (Fin (n + 1)) ℝ) :
      (∀ k (hk : k ≤ n + 1), (A.submatrix (Fin.castLE hk) (Fin.castLE hk)).det ≠ 0) → Fn1 .inv (.matrix A) (.matrix A⁻¹)

/-- Negation. -/
inductive Neg1 : Obj → Obj → Prop
  | scalar (x : ℝ) : Neg1 (.scalar x) (.scalar (-x))
  | vector {n : Nat} (x : Fin n → ℝ) : Neg1 (.vector x) (.vector (-x))
  | matrix {r c : Nat} (A : Matrix (Fin r) (Fin c) ℝ) : Neg1 (.matrix A) (.matrix (-A))

/-- The `b`-th root of `a`. -/
inductive Root2 : Obj → Obj → Obj → Prop
  | pos (x y : ℝ) : 0 < x → y ≠ 0 → Root2 (.scalar x) (.scalar y) (.scalar (x ^ (1 / y)))
  | zero (y : ℝ) : 0 < y → Root2 (.scalar 0) (.scalar y) (.scalar 0)

/-- A vector of at most three entries, filled up with zeros. -/
def pad3 {n : Nat} (x : Fin n → ℝ) : Fin 3 → ℝ := fun i => if h : i.val < n then x ⟨i.val, h⟩ else 0

/-- Sums and differences. -/
inductive Sum2 : Obj → Obj → Obj → Obj → Prop
  | scalar (x y : ℝ) : Sum2 (.scalar x) (.scalar y) (.scalar (x + y)) (.scalar (x - y))
  | vector {n : Nat} (x y : Fin n → ℝ) : Sum2 (.vector x) (.vector y) (.vector (x + y)) (.vector (x - y))
  | matrix {r c : Nat} (A B : Matrix (Fin (r + 1)) (Fin c) ℝ) : Sum2 (.matrix A) (.matrix B) (.matrix (A + B)) (.matrix (A - B))

/-- Products: of numbers, of a number and a vector or matrix (either order), dot product, matrix applied to a vector,
matrix product. -/
inductive Prod2 : Obj → Obj → Obj → Prop
  | scalar (x y : ℝ) : Prod2 (.scalar x) (.scalar y) (.scalar (x * y))
  | scaleVector {n : Nat} (t : ℝ) (x : Fin n → ℝ) : Prod2 (.scalar t) (.vector x) (.vector (t • x))
  | vectorScale {n : Nat} (t : ℝ) (x : Fin n → ℝ) : Prod2 (.vector x) (.scalar t) (.vector (t • x))
  | scaleMatrix {r c : Nat} (t : ℝ) (A : Matrix (Fin r) (Fin c) ℝ) : Prod2 (.scalar t) (.matrix A) (.matrix (t • A))
  | matrixScale {r c : Nat} (t : ℝ) (A : Matrix (Fin r) (Fin c) ℝ) : Prod2 (.matrix A) (.scalar t) (.matrix (t • A))
  | dot {n : Nat} (x y : Fin n → ℝ) : Prod2 (.vector x) (.vector y) (.scalar (∑ i, x i * y i))
  | apply {n k : Nat} (A : Matrix (Fin (n + 1)) (Fin k) ℝ) (x : Fin k → ℝ) :
      Prod2 (.matrix A) (.vector x) (.vector (A.mulVec x))
  | matrix {n k m : Nat} (A : Matrix (Fin (n + 1)) (Fin (k + 1)) ℝ) (B : Matrix (Fin (k + 1)) (Fin m) ℝ) :
      Prod2 (.matrix A) (.matrix B) (.matrix (A * B))

/-- Quotients. That of two vectors is the sum of the quotients of their entries. -/
inductive Quot2 : Obj → Obj → Obj → Prop
  | scalar (x t : ℝ) : t ≠ 0 → Quot2 (.scalar x) (.scalar t) (.scalar (x / t))
  | vector {n : Nat} (x : Fin n → ℝ) (t : ℝ) : t ≠ 0 → Quot2 (.vector x) (.scalar t) (.vector fun i => x i / t)
  | matrix {r c : Nat} (A : Matrix (Fin r) (Fin c) ℝ) (t : ℝ) : t ≠ 0 →
      Quot2 (.matrix A) (.scalar t) (.matrix (Matrix.of fun i j => A i j / t))
  | vectors {n : Nat} (x y : Fin n → ℝ) : (∀ i, y i ≠ 0) → Quot2 (.vector x) (.vector y) (.scalar (∑ i, x i / y i))

/-- Powers. -/
inductive Pow2 : Obj → Obj → Obj → Prop
  | pos (x y : ℝ) : 0 < x → Pow2 (.scalar x) (.scalar y) (.scalar (x ^ y))
  | zero (y : ℝ) : 0 < y → Pow2 (.scalar 0) (.scalar y) (.scalar 0)
  | int (x : ℝ) (n : Int) : 0 ≤ n ∨ x ≠ 0 → Pow2 (.scalar x) (.scalar n) (.scalar (x ^ n))
  | matrix {n : Nat} (A : Matrix (Fin (n + 1)) (Fin (n + 1)) ℝ) (k : Nat) : k < 2 ^ 31 →
      Pow2 (.matrix A) (.scalar k) (.matrix (A ^ k))

/-- The binary operators. `&` (plus-minus) has two results. Entries of vectors are counted from 0; index 0 itself is
left out here because it depends on the sign of the zero (C38). -/
inductive Op2 : BinOp → Obj → Obj → List Obj → Prop
  | add {a b s d : Obj} : Sum2 a b s d → Op2 .add a b [s]
  | sub {a b s d : Obj} : Sum2 a b s d → Op2 .sub a b [d]
  | addSub {a b s d : Obj} : Sum2 a b s d → Op2 .addSub a b [s, d]
  | mult {a b p : Obj} : Prod2 a b p → Op2 .mult a b [p]
  | juxt {a b p : Obj} : Prod2 a b p → Op2 .juxt a b [p]
  | div {a b q : Obj} : Quot2 a b q → Op2 .div a b [q]
  | cross {n : Nat} (x y : Fin n → ℝ) : n ≤ 3 → Op2 .cross (.vector x) (.vector y) [.vector (crossProduct (pad3 x) (pad3 y))]
  | pow {a b p : Obj} : Pow2 a b p → Op2 .pow a b [p]
  | get {n : Nat} (x : Fin n → ℝ) (i : Fin n) : 0 < i.val → n < 2 ^ 64 → Op2 .get (.vector x) (.scalar (i.val : ℝ)) [.scalar (x i)]

/-- The value of a string of digits. -/
def digitsNumber (s : Str) : Nat := Nat.ofDigits 10 (s.reverse.map fun c => c.toNat - 48)

/-- The number a numeral stands for: the digits read as one number, divided by 10 for each digit after the point. -/
noncomputable def numeral (ip : Str) (fp : Option Str) : ℝ :=
  (digitsNumber (ip ++ fp.getD []) : ℝ) / 10 ^ (fp.getD []).length

/-- The objects the variables stand for. -/
abbrev Env := Str → Option (List Obj)

/-- `x` stands for `os`, all other names keep their meaning. -/
def Env.set (ρ : Env) (x : Str) (os : List Obj) : Env := fun n => if n = x then some os else ρ n

/-- Parameters stand for the arguments, all other names keep their meaning. -/
def Env.bind (ρ : Env) (params : List Str) (args : List Obj) : Env := fun n =>
  match (params.zip args).find? fun p => p.1 = n with
  | some p => some [p.2]
  | none => ρ n

/-- The functions: parameters and definition. -/
abbrev Defs := Str → Option (List Str × Ex)

/-- What a formula means. `cur` is the function whose definition is being read (empty outside of definitions and
inside of integrals and derivatives): it must not be used in its own definition. A formula may have several values;
the operations then combine all of them, the values of the left operand varying slowest. -/
inductive Denotes (cfg : Cfg) (φ : Defs) : Str → Env → Ex → List Obj → Prop
  | num {cur : Str} {ρ : Env} (ip : Str) (fp : Option Str) : Denotes cfg φ cur ρ (.num ip fp) [.scalar (numeral ip fp)]
  | var {cur : Str} {ρ : Env} (x : Str) (os : List Obj) : ρ x = some os → Denotes cfg φ cur ρ (.var x) os
  | paren {cur : Str} {ρ : Env} (e : Ex) (os : List Obj) : Denotes cfg φ cur ρ e os → Denotes cfg φ cur ρ (.paren e) os
  | fn {cur : Str} {ρ : Env} (name : Str) (op : SimpleOp) (e : Ex) (os rs : List Obj) : Denotes cfg φ cur ρ e os →
      List.Forall₂ (Fn1 op) os rs → Denotes cfg φ cur ρ (.fn name op e) rs
  | neg {cur : Str} {ρ : Env} (e : Ex) (os rs : List Obj) : Denotes cfg φ cur ρ e os →
      List.Forall₂ Neg1 os rs → Denotes cfg φ cur ρ (.neg e) rs
  | root {cur : Str} {ρ : Env} (a b : Ex) (os ps rs : List Obj) : Denotes cfg φ cur ρ a os → Denotes cfg φ cur ρ b ps →
      List.Forall₂ (fun p r => Root2 p.1 p.2 r) (pairs os ps) rs → Denotes cfg φ cur ρ (.root a b) rs
  | bin {cur : Str} {ρ : Env} (op : BinOp) (l r : Ex) (os ps : List Obj) (rss : List (List Obj)) :
      Denotes cfg φ cur ρ l os → Denotes cfg φ cur ρ r ps →
      List.Forall₂ (fun p rs => Op2 op p.1 p.2 rs) (pairs os ps) rss → Denotes cfg φ cur ρ (.bin op l r) rss.flatten
  | list {cur : Str} {ρ : Env} (es : List Ex) (oss : List (List Obj)) (hlen : es.length = oss.length) :
      (∀ i (h : i < es.length), Denotes cfg φ cur ρ es[i] (oss[i]'(hlen ▸ h))) → Denotes cfg φ cur ρ (.list es) oss.flatten
  | vec {cur : Str} {ρ : Env} (es : List Ex) (xss : List (List ℝ)) (hlen : es.length = xss.length) :
      (∀ i (h : i < es.length), Denotes cfg φ cur ρ es[i] ((xss[i]'(hlen ▸ h)).map .scalar)) →
      Denotes cfg φ cur ρ (.vec es) ((choices xss).map fun l => .vector fun i : Fin l.length => l[i])
  /-- The inner lists of a matrix literal are its rows or its columns, depending on the feature `row-major`. -/
  | mat {cur : Str} {ρ : Env} {r c : Nat} (rows : List (List Ex)) (A : Matrix (Fin (r + 1)) (Fin (c + 1)) ℝ)
      (hr : rows.length = r + 1) (hc : ∀ row ∈ rows, row.length = c + 1) :
      (∀ i j row e, rows[i.val]? = some row → row[j.val]? = some e → Denotes cfg φ cur ρ e [.scalar (A i j)]) →
      Denotes cfg φ cur ρ (.mat rows) [if cfg.rowMajor then .matrix A else .matrix A.transpose]
  | call {cur : Str} {ρ : Env} (f : Str) (args : List Ex) (params : List Str) (body : Ex) (oss : List (List Obj))
      (hlen : args.length = oss.length) (res : List Obj → List Obj) : φ f = some (params, body) → f ≠ cur → params.Nodup →
      args.length = params.length →
      (∀ i (h : i < args.length), Denotes cfg φ cur ρ args[i] (oss[i]'(hlen ▸ h))) →
      (∀ p ∈ choices oss, Denotes cfg φ f (ρ.bind params p) body (res p)) →
      Denotes cfg φ cur ρ (.call f args) ((choices oss).flatMap res)
  /-- The difference quotient with the step `10^-PREC`. -/
  | deriv {cur : Str} {ρ : Env} {m : Nat} (e : Ex) (x : Str) (a : Ex) (ts : List ℝ) (f : Fin m → ℝ → ℝ) :
      Denotes cfg φ cur ρ a (ts.map .scalar) →
      (∀ t ∈ ts, ∀ u, u = t ∨ u = t + 10 ^ (-(cfg.prec : Int)) →
        Denotes cfg φ [] (ρ.set x [.scalar u]) e (List.ofFn fun i => .scalar (f i u))) →
      Denotes cfg φ cur ρ (.deriv e x a) (ts.flatMap fun t => List.ofFn fun i =>
        .scalar ((f i (t + 10 ^ (-(cfg.prec : Int))) - f i t) / 10 ^ (-(cfg.prec : Int))))
  /-- The Riemann sum of `10^(PREC-3)` points (C41); the bounds may come in either order. -/
  | integ {cur : Str} {ρ : Env} {m : Nat} (e : Ex) (x : Str) (lo hi : Ex) (ls us : List ℝ) (f : Fin m → ℝ → ℝ) :
      Denotes cfg φ cur ρ lo (ls.map .scalar) → Denotes cfg φ cur ρ hi (us.map .scalar) →
      (∀ a ∈ ls, ∀ b ∈ us, a ≠ b → ∀ t, SamplePoint (10 ^ (cfg.prec - 3)) (min a b) (max a b) t →
        Denotes cfg φ [] (ρ.set x [.scalar t]) e (List.ofFn fun i => .scalar (f i t))) →
      Denotes cfg φ cur ρ (.integ e x lo hi) ((pairs ls us).flatMap fun p =>
        if p.1 = p.2 then [.scalar 0]
        else List.ofFn fun i => .scalar (riemann (10 ^ (cfg.prec - 3)) (f i) (min p.1 p.2) (max p.1 p.2)))

  /-- Solving an equation whose two sides are functions of the new name `x`, defined everywhere (C64). -/
  | solve {cur : Str} {ρ : Env} (l r : Ex) (x : Str) (f g : ℝ → ℝ) : ρ x = none →
      (∀ u, Denotes cfg φ [] (ρ.set x [.scalar u]) l [.scalar (f u)]) →
      (∀ u, Denotes cfg φ [] (ρ.set x [.scalar u]) r [.scalar (g u)]) →
      Denotes cfg φ cur ρ (.eqs [l] [r] [x])
        ((reported (cfg.prec - 2) (found (fun u => some (f u - g u)) (10 ^ (-(cfg.prec : Int))))).map .scalar)

/-- A context of the library in which the variables stand for `ρ` and the functions are defined by `φ`. -/
structure Models {F : Type} [FArith F] [Exact F ℝ] (cfg : Cfg) (ctx : Context F) (ρ : Env) (φ : Defs) : Prop where
  nodup : NoDupVars ctx
  vars : ∀ n os, ρ n = some os → ∃ vs, ctx.findVar n = some vs ∧ List.Forall₂ Means vs os
  absent : ∀ n, ρ n = none → ctx.findVar n = none
  funs : ∀ f params body, φ f = some (params, body) → ctx.findFun f = some ⟨f, body.tree cfg, params⟩

end MUL.Spec
