import Mathlib.LinearAlgebra.Matrix.Determinant.Basic
import Verif.Spec.Arith
import Verif.Spec.Eval
import Verif.Model.Eval
/-!
# Specification for C103: two ways to compute the same thing
-/

namespace MUL.Spec

/-- Evaluating the text gives exactly one value, `v`. -/
def Calculates {F : Type} [FNum F] [UTable] (cfg : Cfg) (ctx : Context F) (s : String) (v : Value F) : Prop :=
  Finishes (fun n => quickEval cfg n s.toList ctx) (.ok [v])

/-- The values have the same shape and, entry by entry, the same finite numbers. -/
inductive SameNumbers {F : Type} [FArith F] (K : Type) [Field K] [LinearOrder K] [IsStrictOrderedRing K] [FloorRing K] [Exact F K] : Value F → Value F → Prop
  | scalar {v w : Value F} (x : K) : IsScalar v x → IsScalar w x → SameNumbers K v w
  | vector {v w : Value F} {n : Nat} (x : Fin n → K) : IsVector v x → IsVector w x → SameNumbers K v w
  | matrix {v w : Value F} {r c : Nat} (A : Matrix (Fin r) (Fin c) K) : IsMatrix v A → IsMatrix w A → SameNumbers K v w

/-- Both texts give one value, and these are the same numbers. -/
def Agree {F : Type} [FNum F] [UTable] (K : Type) [Field K] [LinearOrder K] [IsStrictOrderedRing K] [FloorRing K] [Exact F K]
    (cfg : Cfg) (ctx : Context F) (s t : String) : Prop :=
  ∃ v w, Calculates cfg ctx s v ∧ Calculates cfg ctx t w ∧ SameNumbers K v w

/-- Both texts give one number, and the first one is at most the second. -/
def NotMore {F : Type} [FNum F] [UTable] (K : Type) [Field K] [LinearOrder K] [IsStrictOrderedRing K] [FloorRing K] [Exact F K]
    (cfg : Cfg) (ctx : Context F) (s t : String) : Prop :=
  ∃ v w, ∃ x y : K, Calculates cfg ctx s v ∧ Calculates cfg ctx t w ∧ IsScalar v x ∧ IsScalar w y ∧ x ≤ y

/-- Every leading principal minor is non-zero. -/
def LeadingMinors {K : Type} [Field K] {n : Nat} (A : Matrix (Fin n) (Fin n) K) : Prop :=
  ∀ k (hk : k ≤ n), (A.submatrix (Fin.castLE hk) (Fin.castLE hk)).det ≠ 0

end MUL.Spec
