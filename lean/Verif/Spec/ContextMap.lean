import Verif.Model.Basetypes
/-!
# Specification for C01, C02: contexts are two independent finite maps
-/

namespace MUL.Spec

/-- A call of one of the four mutating methods of `Context`. -/
inductive CtxOp (F : Type) where
  | addVar (v : Variable F)
  | removeVar (n : Str)
  | addFun (f : Function F)
  | removeFun (n : Str)

/-- The call performed on the modelled context. -/
def CtxOp.apply {F : Type} (c : Context F) : CtxOp F → Context F
  | .addVar v => c.addVar v
  | .removeVar n => c.removeVar n
  | .addFun f => c.addFun f
  | .removeFun n => c.removeFun n

/-- A history of calls, oldest first. -/
def runOps {F : Type} (c : Context F) (ops : List (CtxOp F)) : Context F := ops.foldl CtxOp.apply c

/-- Abstract semantics: what the variable map (a plain function) is after one call. -/
def varsAfter {F : Type} (m : Str → Option (List (Value F))) : CtxOp F → (Str → Option (List (Value F)))
  | .addVar v => fun n => if n = v.name then some v.values else m n
  | .removeVar k => fun n => if n = k then none else m n
  | .addFun _ => m
  | .removeFun _ => m

/-- Abstract semantics: what the function map is after one call. -/
def funsAfter {F : Type} (m : Str → Option (Function F)) : CtxOp F → (Str → Option (Function F))
  | .addFun f => fun n => if n = f.name then some f else m n
  | .removeFun k => fun n => if n = k then none else m n
  | .addVar _ => m
  | .removeVar _ => m

/-- No name is stored twice. -/
def NoDupNames {F : Type} (c : Context F) : Prop :=
  (c.vars.map (·.name)).Nodup ∧ (c.funs.map (·.name)).Nodup

end MUL.Spec
