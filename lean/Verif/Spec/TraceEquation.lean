import Verif.Model.Eval
/-!
# C91: the points at which the search for a solution evaluates an equation, and the context of a call
-/

namespace MUL.Spec
open FArith FElem

section
variable {F : Type} [FNum F]

/-- A difference of sides counts as zero: its absolute value, computed as the root of its square, is below `10^-PREC`. -/
def nearZero (cfg : Cfg) (y : F) : Bool :=
  let h : F := powi (ofInt 10) (-(cfg.prec : Int))
  let d := sqrt (add (ofInt 0) (powi y 2))
  lt (neg h) d && lt d h

/-- The points at which the difference `y` of the sides is evaluated in a search of at most the given number of steps from `a`, in order: `a`
itself, and if the difference is not zero there, `a + 10^-PREC` and the points of the search from the next point, if that is a finite number. -/
def visited (cfg : Cfg) (y : F → F) : Nat → F → List F
  | 0, _ => []
  | k + 1, a =>
    let h : F := powi (ofInt 10) (-(cfg.prec : Int))
    let slope := div (add (y (add a h)) (mul (y a) (ofInt (-1)))) h
    let next := add (div (mul (ofInt (-1)) (y a)) slope) a
    if nearZero cfg (y a) then [a]
    else a :: add a h :: (if isInf next || isNaN next then [] else visited cfg y k next)

end

/-- The context a call works in: the parameters with the values of the arguments, and the variables of the caller with other names. -/
def insideCall {F : Type} (ctx : Context F) (params : List Str) (args : List (Value F)) : Context F :=
  ⟨(params.zip args).map (fun p => ⟨p.1, [p.2]⟩) ++ ctx.vars.filter (fun v => v.name ∉ params), ctx.funs⟩

end MUL.Spec
