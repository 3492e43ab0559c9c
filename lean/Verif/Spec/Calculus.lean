import Verif.Spec.Eval
import Verif.Spec.Arith
/-!
# Specifications for the calculus properties (C41-C44)
-/

namespace MUL.Spec

/-- The values `vs` are, in order, the mathematical objects `S 0, S 1, …` in the sense of `R`
(one of `IsScalar`, `IsVector`, `IsMatrix`). -/
def ListIs {F M : Type} (R : Value F → M → Prop) {m : Nat} (vs : List (Value F)) (S : Fin m → M) : Prop :=
  List.Forall₂ R vs (List.ofFn S)

/-- The context in which the variable `x` has been set to the number `p` (by `add_var`). -/
def setVar {F : Type} (ctx : Context F) (x : Str) (p : F) : Context F := ctx.addVar ⟨x, [.scalar p]⟩

section
variable {F : Type} [FNum F] {K : Type} [Field K] [LinearOrder K] [IsStrictOrderedRing K] [FloorRing K] [Exact F K]

/-- For the arguments in `S`, the expression `e` computes, as a function of the variable `x`, the `m` functions
`f 0, f 1, …`: whenever `x` is set to a finite number `t` in `S`, its values are `f 0 t, f 1 t, …`. -/
def ComputesOn (S : K → Prop) {M : Type} (R : Value F → M → Prop) (cfg : Cfg) (ctx : Context F) (x : Str) (e : AST F) {m : Nat}
    (f : Fin m → K → M) : Prop :=
  ∀ (p : F) (t : K), Exact.val p = some t → S t → ∃ vs : List (Value F),
    Finishes (fun n => eval cfg n e (setVar ctx x p)) (.ok vs) ∧ ListIs R vs (fun i => f i t)

/-- The same for all arguments. -/
def Computes {M : Type} (R : Value F → M → Prop) (cfg : Cfg) (ctx : Context F) (x : Str) (e : AST F) {m : Nat}
    (f : Fin m → K → M) : Prop :=
  ∀ (p : F) (t : K), Exact.val p = some t → ∃ vs : List (Value F),
    Finishes (fun n => eval cfg n e (setVar ctx x p)) (.ok vs) ∧ ListIs R vs (fun i => f i t)

end

/-- The difference quotient `(fxh - fx) / h`, with the operations of the library. -/
def diffQuotient {F : Type} [FNum F] (h : F) (fx fxh : Value F) : Out String (Value F) :=
  vSub fxh fx >>= fun d => vDiv d (.scalar h)

/-- The step `10^-PREC`. -/
def stepH (F : Type) [FNum F] (cfg : Cfg) : F := FArith.powi (FArith.ofInt 10) (-(cfg.prec : Int))

/-- The point at which the integrand is evaluated in step `i` of an integration from `lb` with the step `dx`. -/
def slicePoint {F : Type} [FArith F] (lb dx : F) (i : Nat) : F :=
  FArith.div (FArith.add (stepFrom lb dx i) (FArith.sub (stepFrom lb dx i) dx)) (FArith.ofInt 2)

/-- The step of an integration. -/
def sliceWidth {F : Type} [FNum F] (cfg : Cfg) (lb ub : F) : F :=
  FArith.div (FArith.sub ub lb) (FArith.powi (FArith.ofInt 10) ((cfg.prec : Int) - 3))

/-- `y 0 + y 1 + … + y n`, added from left to right. -/
def sumUp {F : Type} [FArith F] (y : Nat → F) : Nat → F
  | 0 => y 0
  | n + 1 => FArith.add (sumUp y n) (y (n + 1))

/-- The `N` points used: `a - dx/2`, `a + dx/2`, … with `dx = (b-a)/N`. -/
def SamplePoint {K : Type} [Field K] (N : Nat) (a b t : K) : Prop :=
  ∃ i : Nat, i < N ∧ t = a + ((i : K) - 1 / 2) * ((b - a) / N)

/-- The `N`-point sum `dx * (f (a - dx/2) + f (a + dx/2) + … )` with `dx = (b-a)/N`. -/
def riemann {K M : Type} [Field K] [AddCommMonoid M] [SMul K M] (N : Nat) (f : K → M) (a b : K) : M :=
  ((b - a) / N) • ((List.range N).map fun (i : Nat) => f (a + ((i : K) - 1 / 2) * ((b - a) / N))).sum

end MUL.Spec
