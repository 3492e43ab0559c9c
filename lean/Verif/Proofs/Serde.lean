import Verif.Model.Serde
import Verif.Spec.Equality
/-!
# Reading what was written
-/

namespace MUL
open Spec
variable {F : Type} (nf : NumFormat F)

/-! ## The reader on tagged documents -/

theorem ofData_scalar (b : Data F) : AST.ofData nf (.tagged (str! "Scalar") b) = (nf.get b).map .scalar := by
  rw [AST.ofData.eq_def]; rfl

theorem ofData_vector (l : List (Data F)) : AST.ofData nf (.tagged (str! "Vector") (.seq l)) = (astsOfData nf l).map .vector := by
  rw [AST.ofData.eq_def]; rfl

theorem ofData_matrix (l : List (Data F)) : AST.ofData nf (.tagged (str! "Matrix") (.seq l)) = (rowsOfData nf l).map .matrix := by
  rw [AST.ofData.eq_def]; rfl

theorem ofData_list (l : List (Data F)) : AST.ofData nf (.tagged (str! "List") (.seq l)) = (astsOfData nf l).map .list := by
  rw [AST.ofData.eq_def]; rfl

theorem ofData_variable (x : Str) : AST.ofData nf (.tagged (str! "Variable") (.str x)) = some (.variable x) := by
  rw [AST.ofData.eq_def]; rfl

theorem ofData_function (f : Str) (l : List (Data F)) :
    AST.ofData nf (.tagged (str! "Function") (.map [(str! "name", .str f), (str! "inputs", .seq l)])) = (astsOfData nf l).map (.function f) := by
  rw [AST.ofData.eq_def]
  show (match some f, astsOfData nf l with
        | some n, some l => some (AST.function n l)
        | _, _ => none) = _
  cases astsOfData nf l <;> rfl

theorem ofData_operation (b : Data F) : AST.ofData nf (.tagged (str! "Operation") b) = operationOfData nf b := by
  rw [AST.ofData.eq_def]; rfl

theorem tag_inj (o : SimpleOp) : SimpleOp.ofData (o.toData : Data F) = some o := by
  cases o <;> rfl

theorem operation_simple (o : SimpleOp) (l r : Data F) :
    operationOfData nf (.tagged (str! "SimpleOperation") (.map [(str! "op_type", o.toData), (str! "left", l), (str! "right", r)])) =
      (AST.ofData nf l).bind fun l => (AST.ofData nf r).map (.simple o l) := by
  rw [operationOfData.eq_def]
  show (match SimpleOp.ofData (o.toData : Data F), AST.ofData nf l, AST.ofData nf r with
        | some o, some l, some r => some (AST.simple o l r)
        | _, _, _ => none) = _
  rw [tag_inj]
  cases AST.ofData nf l <;> cases AST.ofData nf r <;> rfl

theorem operation_advanced (b : Data F) : operationOfData nf (.tagged (str! "AdvancedOperation") b) = advancedOfData nf b := by
  rw [operationOfData.eq_def]; rfl

theorem advanced_integral (e l u : Data F) (x : Str) :
    advancedOfData nf (.tagged (str! "Integral")
      (.map [(str! "expr", e), (str! "in_terms_of", .str x), (str! "lower_bound", l), (str! "upper_bound", u)])) =
      (AST.ofData nf e).bind fun e => (AST.ofData nf l).bind fun l => (AST.ofData nf u).map (.integral e x l) := by
  rw [advancedOfData.eq_def]
  show (match AST.ofData nf e, some x, AST.ofData nf l, AST.ofData nf u with
        | some e, some x, some l, some u => some (AST.integral e x l u)
        | _, _, _, _ => none) = _
  cases AST.ofData nf e <;> cases AST.ofData nf l <;> cases AST.ofData nf u <;> rfl

theorem advanced_derivative (e a : Data F) (x : Str) :
    advancedOfData nf (.tagged (str! "Derivative") (.map [(str! "expr", e), (str! "in_terms_of", .str x), (str! "at", a)])) =
      (AST.ofData nf e).bind fun e => (AST.ofData nf a).map (.derivative e x) := by
  rw [advancedOfData.eq_def]
  show (match AST.ofData nf e, some x, AST.ofData nf a with
        | some e, some x, some a => some (AST.derivative e x a)
        | _, _, _ => none) = _
  cases AST.ofData nf e <;> cases AST.ofData nf a <;> rfl

theorem getSeq_map {T U : Type} (f : Data F → Option T) (g : U → Data F) (l : List U) :
    Data.getSeq f (.seq (l.map g)) = l.mapM fun a => f (g a) := by
  show (l.map g).mapM f = _
  induction l with
  | nil => rfl
  | cons a l ih => simp [List.mapM_cons, ih]

theorem mapM_id {T : Type} (l : List T) : (l.mapM fun a => some a) = some l := by
  induction l with
  | nil => rfl
  | cons a l ih => simp [List.mapM_cons, ih]

theorem getStrs (l : List Str) : Data.getSeq Data.getStr (Data.strs l : Data F) = some l := by
  unfold Data.strs
  rw [getSeq_map]
  exact mapM_id l

theorem advanced_equation (es : List (Data F)) (ns : List Str) :
    advancedOfData nf (.tagged (str! "Equation") (.map [(str! "equations", .seq es), (str! "search_vars", .strs ns)])) =
      (eqsOfData nf es).map (.equation · ns) := by
  rw [advancedOfData.eq_def]
  show (match eqsOfData nf es, Data.getSeq Data.getStr (Data.strs ns : Data F) with
        | some es, some ns => some (AST.equation es ns)
        | _, _ => none) = _
  rw [getStrs]
  cases eqsOfData nf es <;> rfl

end MUL
