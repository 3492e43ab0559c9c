import Verif.Model.Print
import Verif.Model.Lit
/-!
# The derived `Serialize` and `Deserialize` (feature `serde`)  (src/basetypes.rs 28, 61, 90, 202, 557, 636, 876, 933, 947, 960, src/latex.rs 52)

The code is generated by `serde_derive` with its default settings: structs become maps from field names, enums are externally tagged,
`Box` and newtype structs are transparent. What is modelled is the generated code together with a self-describing format (such as
JSON): a tree of numbers, strings, lists and maps. How the format writes and reads a number is a parameter (`put`, `get`), since formats
differ there (JSON has no NaN and no infinities). Not modelled: the text of a format, its limits (`serde_json` refuses more than 128
levels), and the error values; `none` stands for an error.
-/

namespace MUL

/-- A document of a self-describing format. -/
inductive Data (F : Type) where
  | num (a : F)
  | str (s : Str)
  | null
  | seq (l : List (Data F))
  | map (m : List (Str × Data F))

/-- How a format writes and reads a number of type `f64`. -/
structure NumFormat (F : Type) where
  put : F → Data F
  get : Data F → Option F

variable {F : Type}

/-- JSON has neither NaN nor infinities: `serde_json` writes `null` for them and does not read `null` as a number. Other numbers come back
as they were (feature `float_roundtrip`). -/
def jsonNumbers [FArith F] : NumFormat F where
  put a := if FArith.isNaN a || FArith.isInf a then .null else .num a
  get
    | .num a => some a
    | _ => none

namespace Data

/-- A list of `String`s. -/
def strs (l : List Str) : Data F := .seq (l.map .str)

/-- Reading a `String`. -/
def getStr : Data F → Option Str
  | .str s => some s
  | _ => none

/-- Reading a `Vec<T>`. -/
def getSeq {T : Type} (f : Data F → Option T) : Data F → Option (List T)
  | .seq l => l.mapM f
  | _ => none

/-- Reading an `Option<String>`. -/
def getOptStr : Data F → Option (Option Str)
  | .null => some none
  | .str s => some (some s)
  | _ => none

/-- The generated `visit_map` of a struct looks for each field; unknown keys are skipped, a key that occurs twice and a missing key are
errors, but a missing field of type `Option<_>` is `None` (`opt`). -/
def field (m : List (Str × Data F)) (k : Str) (opt : Bool) : Option (Data F) :=
  match m.filter fun p => p.1 == k with
  | [] => if opt then some .null else none
  | [p] => some p.2
  | _ => none

/-- The fields of a struct or a struct variant: from a map (`visit_map`) or from a list in the order of declaration (`visit_seq`). -/
def fields (ks : List (Str × Bool)) : Data F → Option (List (Data F))
  | .map m => ks.mapM fun k => field m k.1 k.2
  | .seq l => if l.length = ks.length then some l else none
  | _ => none

/-- The name and the content of an enum: `"Name"` for variants without content, else a map with one entry. -/
def variant : Data F → Option (Str × Option (Data F))
  | .str k => some (k, none)
  | .map [(k, d)] => some (k, some d)
  | _ => none

/-- A newtype variant or a struct variant. -/
def tagged (k : Str) (d : Data F) : Data F := .map [(k, d)]

end Data

/-- The names of the variants of `SimpleOpType`  (src/basetypes.rs 877-926). -/
def SimpleOp.tag : SimpleOp → Str
  | .add => str! "Add" | .sub => str! "Sub" | .addSub => str! "AddSub" | .neg => str! "Neg" | .mult => str! "Mult" | .div => str! "Div"
  | .cross => str! "Cross" | .hiddenMult => str! "HiddenMult" | .pow => str! "Pow" | .get => str! "Get" | .sin => str! "Sin"
  | .cos => str! "Cos" | .tan => str! "Tan" | .abs => str! "Abs" | .sqrt => str! "Sqrt" | .root => str! "Root" | .ln => str! "Ln"
  | .arcsin => str! "Arcsin" | .arccos => str! "Arccos" | .arctan => str! "Arctan" | .det => str! "Det" | .inv => str! "Inv"
  | .parenths => str! "Parenths"

/-- All variants of `SimpleOpType`  (src/basetypes.rs 877-926). -/
def SimpleOp.all : List SimpleOp :=
  [.add, .sub, .addSub, .neg, .mult, .div, .cross, .hiddenMult, .pow, .get, .sin, .cos, .tan, .abs, .sqrt, .root, .ln, .arcsin, .arccos,
   .arctan, .det, .inv, .parenths]

/-- `Serialize for SimpleOpType`  (src/basetypes.rs 876). -/
def SimpleOp.toData (o : SimpleOp) : Data F := .str o.tag

/-- `Deserialize for SimpleOpType`  (src/basetypes.rs 876): `"Add"`, or `{"Add": null}`. -/
def SimpleOp.ofData (d : Data F) : Option SimpleOp :=
  match Data.variant d with
  | some (k, none) => SimpleOp.all.find? fun o => o.tag == k
  | some (k, some .null) => SimpleOp.all.find? fun o => o.tag == k
  | _ => none

section
variable (nf : NumFormat F)

/-- `Serialize for Value`  (src/basetypes.rs 202). -/
def Value.toData : Value F → Data F
  | .matrix m => .tagged (str! "Matrix") (.seq (m.map fun r => .seq (r.map nf.put)))
  | .vector v => .tagged (str! "Vector") (.seq (v.map nf.put))
  | .scalar a => .tagged (str! "Scalar") (nf.put a)

/-- `Deserialize for Value`  (src/basetypes.rs 202). -/
def Value.ofData (d : Data F) : Option (Value F) :=
  match Data.variant d with
  | some (k, some b) =>
    if k = str! "Matrix" then (Data.getSeq (Data.getSeq nf.get) b).map .matrix
    else if k = str! "Vector" then (Data.getSeq nf.get b).map .vector
    else if k = str! "Scalar" then (nf.get b).map .scalar
    else none
  | _ => none

/-- `Serialize for Values`: a newtype struct is written as its content  (src/basetypes.rs 557). -/
def valuesToData (vs : List (Value F)) : Data F := .seq (vs.map (Value.toData nf))

/-- `Deserialize for Values`  (src/basetypes.rs 557). -/
def valuesOfData (d : Data F) : Option (List (Value F)) := Data.getSeq (Value.ofData nf) d

mutual
/-- `Serialize for AST`, with those of `Operation` and `AdvancedOperation`  (src/basetypes.rs 636, 947, 960). -/
def AST.toData : AST F → Data F
  | .scalar a => .tagged (str! "Scalar") (nf.put a)
  | .vector v => .tagged (str! "Vector") (.seq (astsToData v))
  | .matrix m => .tagged (str! "Matrix") (.seq (rowsToData m))
  | .list v => .tagged (str! "List") (.seq (astsToData v))
  | .variable x => .tagged (str! "Variable") (.str x)
  | .function f v => .tagged (str! "Function") (.map [(str! "name", .str f), (str! "inputs", .seq (astsToData v))])
  | .simple o l r => .tagged (str! "Operation") (.tagged (str! "SimpleOperation")
      (.map [(str! "op_type", o.toData), (str! "left", l.toData), (str! "right", r.toData)]))
  | .integral e x l u => .tagged (str! "Operation") (.tagged (str! "AdvancedOperation") (.tagged (str! "Integral")
      (.map [(str! "expr", e.toData), (str! "in_terms_of", .str x), (str! "lower_bound", l.toData), (str! "upper_bound", u.toData)])))
  | .derivative e x a => .tagged (str! "Operation") (.tagged (str! "AdvancedOperation") (.tagged (str! "Derivative")
      (.map [(str! "expr", e.toData), (str! "in_terms_of", .str x), (str! "at", a.toData)])))
  | .equation es ns => .tagged (str! "Operation") (.tagged (str! "AdvancedOperation") (.tagged (str! "Equation")
      (.map [(str! "equations", .seq (eqsToData es)), (str! "search_vars", .strs ns)])))

/-- The entries of a `Vec<AST>`. -/
def astsToData : List (AST F) → List (Data F)
  | [] => []
  | t :: v => t.toData :: astsToData v

/-- The entries of a `Vec<Vec<AST>>`. -/
def rowsToData : List (List (AST F)) → List (Data F)
  | [] => []
  | r :: m => .seq (astsToData r) :: rowsToData m

/-- The entries of a `Vec<(AST, AST)>`: a tuple is a list. -/
def eqsToData : List (AST F × AST F) → List (Data F)
  | [] => []
  | (l, r) :: es => .seq [l.toData, r.toData] :: eqsToData es
end

/-- The content of a variant is smaller than the document (for the termination of the reader). -/
theorem Data.variant_size {d b : Data F} {k : Str} (h : Data.variant d = some (k, some b)) : sizeOf b < sizeOf d := by
  unfold Data.variant at h
  split at h
  · simp at h
  · simp only [Option.some.injEq, Prod.mk.injEq] at h
    obtain ⟨rfl, rfl⟩ := h
    simp
    omega
  · simp at h

/-- A field is smaller than its map. -/
theorem Data.field_size {m : List (Str × Data F)} {k : Str} {o : Bool} {b : Data F} (h : Data.field m k o = some b) :
    sizeOf b < sizeOf (Data.map m) := by
  unfold Data.field at h
  split at h
  · split at h
    · simp at h
      subst h
      simp
      have : 0 < sizeOf m := by cases m <;> simp <;> omega
      omega
    · simp at h
  · next p hp =>
    simp only [Option.some.injEq] at h
    subst h
    have hm : p ∈ m := (List.mem_filter.1 (hp ▸ List.mem_singleton.2 rfl : p ∈ m.filter fun p => p.1 == k)).1
    have := List.sizeOf_lt_of_mem hm
    obtain ⟨a, b⟩ := p
    simp at this ⊢
    omega
  · simp at h

theorem Data.mapM_some {α β : Type} {f : α → Option β} {l : List α} {bs : List β} (h : l.mapM f = some bs) : ∀ b ∈ bs, ∃ a ∈ l, f a = some b := by
  induction l generalizing bs with
  | nil => simp at h; subst h; simp
  | cons a l ih =>
    simp only [List.mapM_cons, Option.pure_def, Option.bind_eq_bind, Option.bind_eq_some_iff, Option.some.injEq] at h
    obtain ⟨b, hb, bs', hbs, rfl⟩ := h
    intro c hc
    rcases List.mem_cons.1 hc with rfl | hc
    · exact ⟨a, by simp, hb⟩
    · obtain ⟨a', ha, h'⟩ := ih hbs c hc
      exact ⟨a', by simp [ha], h'⟩

/-- The fields are smaller than the document. -/
theorem Data.fields_size {ks : List (Str × Bool)} {d : Data F} {l : List (Data F)} (h : Data.fields ks d = some l) :
    ∀ b ∈ l, sizeOf b < sizeOf d := by
  intro b hb
  unfold Data.fields at h
  split at h
  · obtain ⟨k, _, hk⟩ := Data.mapM_some h b hb
    exact Data.field_size hk
  · split at h
    · simp only [Option.some.injEq] at h
      subst h
      have := List.sizeOf_lt_of_mem hb
      simp
      omega
    · simp at h
  · simp at h

mutual
/-- `Deserialize for AST`  (src/basetypes.rs 636). -/
def AST.ofData (d : Data F) : Option (AST F) :=
  match hv : Data.variant d with
  | some (k, some b) =>
    have := Data.variant_size hv
    if k = str! "Scalar" then (nf.get b).map .scalar
    else if k = str! "Vector" then match b with
      | .seq l => (astsOfData l).map .vector
      | _ => none
    else if k = str! "Matrix" then match b with
      | .seq l => (rowsOfData l).map .matrix
      | _ => none
    else if k = str! "List" then match b with
      | .seq l => (astsOfData l).map .list
      | _ => none
    else if k = str! "Variable" then (Data.getStr b).map .variable
    else if k = str! "Function" then match hf : Data.fields [(str! "name", false), (str! "inputs", false)] b with
      | some [n, .seq l] =>
        have := Data.fields_size hf (.seq l) (by simp)
        match Data.getStr n, astsOfData l with
        | some n, some l => some (.function n l)
        | _, _ => none
      | _ => none
    else if k = str! "Operation" then operationOfData b
    else none
  | _ => none
termination_by sizeOf d
decreasing_by all_goals (try simp at *); all_goals omega

/-- `Deserialize for Operation`  (src/basetypes.rs 947). -/
def operationOfData (d : Data F) : Option (AST F) :=
  match hv : Data.variant d with
  | some (k, some b) =>
    have := Data.variant_size hv
    if k = str! "SimpleOperation" then
      match hf : Data.fields [(str! "op_type", false), (str! "left", false), (str! "right", false)] b with
      | some [o, l, r] =>
        have := Data.fields_size hf l (by simp)
        have := Data.fields_size hf r (by simp)
        match SimpleOp.ofData o, AST.ofData l, AST.ofData r with
        | some o, some l, some r => some (.simple o l r)
        | _, _, _ => none
      | _ => none
    else if k = str! "AdvancedOperation" then advancedOfData b
    else none
  | _ => none
termination_by sizeOf d
decreasing_by all_goals omega

/-- `Deserialize for AdvancedOperation`  (src/basetypes.rs 960). -/
def advancedOfData (d : Data F) : Option (AST F) :=
  match hv : Data.variant d with
  | some (k, some b) =>
    have := Data.variant_size hv
    if k = str! "Integral" then
      match hf : Data.fields [(str! "expr", false), (str! "in_terms_of", false), (str! "lower_bound", false), (str! "upper_bound", false)] b with
      | some [e, x, l, u] =>
        have := Data.fields_size hf e (by simp)
        have := Data.fields_size hf l (by simp)
        have := Data.fields_size hf u (by simp)
        match AST.ofData e, Data.getStr x, AST.ofData l, AST.ofData u with
        | some e, some x, some l, some u => some (.integral e x l u)
        | _, _, _, _ => none
      | _ => none
    else if k = str! "Derivative" then
      match hf : Data.fields [(str! "expr", false), (str! "in_terms_of", false), (str! "at", false)] b with
      | some [e, x, a] =>
        have := Data.fields_size hf e (by simp)
        have := Data.fields_size hf a (by simp)
        match AST.ofData e, Data.getStr x, AST.ofData a with
        | some e, some x, some a => some (.derivative e x a)
        | _, _, _ => none
      | _ => none
    else if k = str! "Equation" then
      match hf : Data.fields [(str! "equations", false), (str! "search_vars", false)] b with
      | some [.seq es, ns] =>
        have := Data.fields_size hf (.seq es) (by simp)
        match eqsOfData es, Data.getSeq Data.getStr ns with
        | some es, some ns => some (.equation es ns)
        | _, _ => none
      | _ => none
    else none
  | _ => none
termination_by sizeOf d
decreasing_by all_goals (try simp at *); all_goals omega

/-- The entries of a `Vec<AST>`. -/
def astsOfData : List (Data F) → Option (List (AST F))
  | [] => some []
  | d :: l => match AST.ofData d, astsOfData l with
    | some t, some v => some (t :: v)
    | _, _ => none
termination_by l => sizeOf l

/-- The entries of a `Vec<Vec<AST>>`. -/
def rowsOfData : List (Data F) → Option (List (List (AST F)))
  | [] => some []
  | .seq r :: l => match astsOfData r, rowsOfData l with
    | some r, some m => some (r :: m)
    | _, _ => none
  | _ :: _ => none
termination_by l => sizeOf l

/-- The entries of a `Vec<(AST, AST)>`: a tuple is a list of exactly two entries. -/
def eqsOfData : List (Data F) → Option (List (AST F × AST F))
  | [] => some []
  | .seq [l, r] :: ds => match AST.ofData l, AST.ofData r, eqsOfData ds with
    | some l, some r, some es => some ((l, r) :: es)
    | _, _, _ => none
  | _ :: _ => none
termination_by l => sizeOf l
end

/-- `Serialize for Variable`  (src/basetypes.rs 28). -/
def Variable.toData (x : Variable F) : Data F := .map [(str! "name", .str x.name), (str! "values", valuesToData nf x.values)]

/-- `Deserialize for Variable`  (src/basetypes.rs 28). -/
def Variable.ofData (d : Data F) : Option (Variable F) :=
  match Data.fields [(str! "name", false), (str! "values", false)] d with
  | some [n, vs] => match Data.getStr n, valuesOfData nf vs with
    | some n, some vs => some ⟨n, vs⟩
    | _, _ => none
  | _ => none

/-- `Serialize for Function`  (src/basetypes.rs 61). -/
def Function.toData (f : Function F) : Data F :=
  .map [(str! "name", .str f.name), (str! "ast", f.ast.toData nf), (str! "inputs", .strs f.inputs)]

/-- `Deserialize for Function`  (src/basetypes.rs 61). -/
def Function.ofData (d : Data F) : Option (Function F) :=
  match Data.fields [(str! "name", false), (str! "ast", false), (str! "inputs", false)] d with
  | some [n, t, xs] => match Data.getStr n, AST.ofData nf t, Data.getSeq Data.getStr xs with
    | some n, some t, some xs => some ⟨n, t, xs⟩
    | _, _, _ => none
  | _ => none

/-- `Serialize for Context`  (src/basetypes.rs 90). -/
def Context.toData (c : Context F) : Data F :=
  .map [(str! "vars", .seq (c.vars.map (Variable.toData nf))), (str! "funs", .seq (c.funs.map (Function.toData nf)))]

/-- `Deserialize for Context`  (src/basetypes.rs 90). -/
def Context.ofData (d : Data F) : Option (Context F) :=
  match Data.fields [(str! "vars", false), (str! "funs", false)] d with
  | some [vs, fs] => match Data.getSeq (Variable.ofData nf) vs, Data.getSeq (Function.ofData nf) fs with
    | some vs, some fs => some ⟨vs, fs⟩
    | _, _ => none
  | _ => none

/-- `Serialize for Step`  (src/latex.rs 52). -/
def Step.toData : Step F → Data F
  | .calculation t vs x => .tagged (str! "Calc") (.map [(str! "term", t.toData nf), (str! "result", valuesToData nf vs),
      (str! "variable_save", match x with | none => .null | some x => .str x)])
  | .declaration t xs n => .tagged (str! "Fun") (.map [(str! "term", t.toData nf), (str! "inputs", .strs xs), (str! "name", .str n)])

/-- `Deserialize for Step`  (src/latex.rs 52). -/
def Step.ofData (d : Data F) : Option (Step F) :=
  match Data.variant d with
  | some (k, some b) =>
    if k = str! "Calc" then match Data.fields [(str! "term", false), (str! "result", false), (str! "variable_save", true)] b with
      | some [t, vs, x] => match AST.ofData nf t, valuesOfData nf vs, Data.getOptStr x with
        | some t, some vs, some x => some (.calculation t vs x)
        | _, _, _ => none
      | _ => none
    else if k = str! "Fun" then match Data.fields [(str! "term", false), (str! "inputs", false), (str! "name", false)] b with
      | some [t, xs, n] => match AST.ofData nf t, Data.getSeq Data.getStr xs, Data.getStr n with
        | some t, some xs, some n => some (.declaration t xs n)
        | _, _, _ => none
      | _ => none
    else none
  | _ => none

end
end MUL
