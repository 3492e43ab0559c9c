import Verif.Spec.Eval
import Verif.Num.Exact
import Mathlib.Data.List.Forall2
import Mathlib.Data.Matrix.Mul
/-!
# Specifications for the equation solver (C45-C47)
-/

namespace MUL.Spec

variable {F : Type}

/-- The context in which the search variables have been set to the given numbers (by `add_var`, in order). -/
def setVars (ctx : Context F) (names : List Str) (l : List F) : Context F :=
  (names.zip l).foldl (fun c p => c.addVar ⟨p.1, [.scalar p.2]⟩) ctx

/-- How a solution is reported: a scalar for one search variable, otherwise a vector with one entry per search
variable. -/
def asSolution : List F → Value F
  | [s] => .scalar s
  | l => .vector l

/-- The difference of the two sides of an equation. -/
def residualExpr (e : AST F × AST F) : AST F := .simple .sub e.1 e.2

section
variable [FNum F]

/-- With the search variables set to `l`, the (first) values of the expressions are the numbers `rs`. -/
def Residuals (cfg : Cfg) (ctx : Context F) (names : List Str) (l : List F) (es : List (AST F)) (rs : List F) : Prop :=
  List.Forall₂ (fun e r => ∃ rest, Finishes (fun n => eval cfg n e (setVars ctx names l)) (.ok (.scalar r :: rest))) es rs

/-- The Euclidean length of the residuals. -/
def residualLength (rs : List F) : F :=
  FElem.sqrt (rs.foldl (fun s r => FArith.add s (FArith.powi r 2)) (FArith.ofInt 0))

/-- The Euclidean length of the residuals is less than `10^-PREC` (and greater than `-10^-PREC`). -/
def Negligible (cfg : Cfg) (rs : List F) : Prop :=
  FArith.lt (residualLength rs) (FArith.powi (FArith.ofInt 10) (-(cfg.prec : Int))) = true ∧
  FArith.lt (FArith.neg (FArith.powi (FArith.ofInt 10) (-(cfg.prec : Int)))) (residualLength rs) = true

/-- The numbers `l` solve the equations: with the search variables set to them, the equations (written as differences)
can be split into a group of as many as there are search variables, and the rest, such that the residuals of each group are
negligible. -/
def Solves (cfg : Cfg) (ctx : Context F) (eqs : List (AST F × AST F)) (names : List Str) (l : List F) : Prop :=
  ∃ searched checked rs rc, (searched ++ checked).Perm (eqs.map residualExpr) ∧ searched.length = names.length ∧
    Residuals cfg ctx names l searched rs ∧ Negligible cfg rs ∧
    Residuals cfg ctx names l checked rc ∧ (checked = [] ∨ Negligible cfg rc)

/-- Neither NaN nor infinite. -/
def IsFinite (a : F) : Prop := FArith.isNaN a = false ∧ FArith.isInf a = false

/-- The equations are linear in the search variables, with the matrix `A` and the right-hand side `b`: within some number of steps,
the difference of the two sides of the `i`-th equation evaluates to the `i`-th entry of `A x - b`, whatever finite numbers
`x` the search variables are set to. -/
def LinearEquations {K : Type} [Field K] [LinearOrder K] [IsStrictOrderedRing K] [FloorRing K] [Exact F K] (cfg : Cfg)
    (ctx : Context F) (eqs : List (AST F × AST F)) (names : List Str) {n : Nat} (A : Matrix (Fin n) (Fin n) K) (b : Fin n → K) :
    Prop :=
  ∃ m, ∀ (l : List F) (x : Fin n → K), l.map Exact.val = List.ofFn (fun i => some (x i)) →
    ∀ (i : Fin n) (e : AST F × AST F), eqs[i.1]? = some e →
      ∃ r, eval cfg m (residualExpr e) (setVars ctx names l) = .ok [.scalar r] ∧ Exact.val r = some (A.mulVec x i - b i)

end
end MUL.Spec
