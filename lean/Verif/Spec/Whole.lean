import Verif.Spec.Denote
import Verif.Num.Binary64
/-!
# Specification for C68: formulas over whole numbers of at most 2^53
-/

namespace MUL.Spec

/-- The whole numbers that binary64 stores without gaps. -/
def Fits (n : Int) : Prop := |n| ≤ 2 ^ 53

/-- Whole numbers and vectors of whole numbers. -/
inductive Ints where
  | scalar (n : Int)
  | vector (l : List Int)

/-- `WholeEx ρ e n`: the formula `e` has the whole value `n`, and neither a literal nor a product, quotient or (partial) sum on the way is
larger than `2^53`. Variables stand for `ρ`. -/
inductive WholeEx (ρ : Str → Option Ints) : Ex → Ints → Prop
  | num (ip : Str) : Fits (digitsNumber ip) → WholeEx ρ (.num ip none) (.scalar (digitsNumber ip))
  | var (x : Str) (n : Ints) : ρ x = some n → WholeEx ρ (.var x) n
  | paren (e : Ex) (n : Ints) : WholeEx ρ e n → WholeEx ρ (.paren e) n
  | neg (e : Ex) (n : Int) : WholeEx ρ e (.scalar n) → WholeEx ρ (.neg e) (.scalar (-n))
  | abs (name : Str) (e : Ex) (n : Int) : WholeEx ρ e (.scalar n) → WholeEx ρ (.fn name .abs e) (.scalar |n|)
  | add (l r : Ex) (n m : Int) : WholeEx ρ l (.scalar n) → WholeEx ρ r (.scalar m) → Fits (n + m) → WholeEx ρ (.bin .add l r) (.scalar (n + m))
  | sub (l r : Ex) (n m : Int) : WholeEx ρ l (.scalar n) → WholeEx ρ r (.scalar m) → Fits (n - m) → WholeEx ρ (.bin .sub l r) (.scalar (n - m))
  | mult (l r : Ex) (n m : Int) : WholeEx ρ l (.scalar n) → WholeEx ρ r (.scalar m) → Fits (n * m) → WholeEx ρ (.bin .mult l r) (.scalar (n * m))
  | juxt (l r : Ex) (n m : Int) : WholeEx ρ l (.scalar n) → WholeEx ρ r (.scalar m) → Fits (n * m) → WholeEx ρ (.bin .juxt l r) (.scalar (n * m))
  /-- a quotient without remainder -/
  | div (l r : Ex) (n m : Int) : WholeEx ρ l (.scalar (n * m)) → WholeEx ρ r (.scalar m) → m ≠ 0 → Fits n →
      WholeEx ρ (.bin .div l r) (.scalar n)
  | vec (es : List Ex) (ns : List Int) (hlen : es.length = ns.length) :
      (∀ i (h : i < es.length), WholeEx ρ es[i] (.scalar (ns[i]'(hlen ▸ h)))) → WholeEx ρ (.vec es) (.vector ns)
  | addVec (l r : Ex) (n m : List Int) : WholeEx ρ l (.vector n) → WholeEx ρ r (.vector m) → n.length = m.length →
      (∀ k ∈ List.zipWith (· + ·) n m, Fits k) → WholeEx ρ (.bin .add l r) (.vector (List.zipWith (· + ·) n m))
  /-- the dot product: all products and all sums of the first products are small -/
  | dot (l r : Ex) (n m : List Int) : WholeEx ρ l (.vector n) → WholeEx ρ r (.vector m) → n.length = m.length →
      (∀ k ∈ List.zipWith (· * ·) n m, Fits k) → (∀ j, Fits ((List.zipWith (· * ·) n m).take j).sum) →
      WholeEx ρ (.bin .mult l r) (.scalar (List.zipWith (· * ·) n m).sum)

/-- The stored numbers are these whole numbers. -/
def Stores {F : Type} [FArith F] [Binary64 F] : Value F → Ints → Prop
  | .scalar a, .scalar n => Binary64.val a = some (n : ℚ)
  | .vector l, .vector k => List.Forall₂ (fun a (n : Int) => Binary64.val a = some (n : ℚ)) l k
  | _, _ => False

end MUL.Spec
