import Verif.Model.Values
import Verif.Props.EvalCtx
/-!
# C21, C22: contexts, functions and trees made by hand
-/

set_option linter.unusedSectionVars false

namespace MUL
open Out Spec

variable {F : Type} [FNum F]

/-- C21: `Context::new(vars, funs)` and `AST::from_variable_name`: the tree made from a name evaluates to the values of the first variable
with this name. -/
theorem C21_constructed (cfg : Cfg) (before after : List (Variable F)) (funs : List (Function F)) (name : Str) (vs : List (Value F))
    (h : ∀ u ∈ before, u.name ≠ name) :
    Finishes (fun n => eval cfg n (AST.fromVariableName name) (Context.new (before ++ Variable.newFromValues name vs :: after) funs)) (.ok vs) :=
  C21_variable cfg before after funs ⟨name, vs⟩ [] h

/-- C22: calling a function made by `Function::new(name, body, params)` in a context made by `Context::new(vars, funs)`, with one value for
each argument: the body is evaluated in a context where the parameters are bound to these values, in order. Of several functions with the
same name the first one counts. -/
theorem C22_constructed (cfg : Cfg) (vars : List (Variable F)) (before after : List (Function F)) (name : Str) (body : AST F)
    (params : List Str) (hb : ∀ g ∈ before, g.name ≠ name) (hp : params.Nodup) (hname : name ≠ []) (hrec : ¬ DirectCall name body)
    (hrec' : ¬ DirectCall [] body) (args : List (AST F)) (vals : List (Value F)) (hlen : args.length = params.length)
    (hargs : List.Forall₂ (fun a v => Finishes (fun n => eval cfg n a (Context.new vars (before ++ Function.new name body params :: after)))
      (.ok [v])) args vals)
    (inner : Context F) (hin : BindsParams (Context.new vars (before ++ Function.new name body params :: after)) params vals inner)
    (res : List (Value F)) (hbody : Finishes (fun n => eval cfg n body inner) (.ok res)) :
    Finishes (fun n => eval cfg n (.function name args) (Context.new vars (before ++ Function.new name body params :: after))) (.ok res) := by
  have hi : (Function.new name body params).inputs = params := by simp [Function.new]
  have hf : (Context.new vars (before ++ Function.new name body params :: after)).findFun (Function.new name body params).name
      = some (Function.new name body params) := by
    unfold Context.new Context.findFun
    rw [List.find?_append]
    have : before.find? (fun g => g.name == (Function.new name body params).name) = none := by
      rw [List.find?_eq_none]
      intro g hg
      have := hb g hg
      simpa [Function.new] using this
    rw [this]
    simp
  have hch : choices (vals.map fun v => [v]) = [vals] := by
    clear hargs hin
    induction vals with
    | nil => rfl
    | cons v vs ih => simp [choices, ih]
  have := C22_call cfg _ (Function.new name body params) args (vals.map fun v => [v]) hf (by rw [hi]; exact hp) (by rw [hi]; exact hlen) hname hrec hrec'
    (List.forall₂_map_right_iff.2 hargs) (fun _ => inner) (fun _ => res)
    (by rw [hch, hi]; intro p hp; rw [List.mem_singleton.1 hp]; exact hin)
    (fun _ _ => hbody)
  rw [hch, List.flatMap_cons, List.flatMap_nil, List.append_nil] at this
  exact this

/-- `f(x,y)=x-y` (made by hand) called as `f(5,y)` where `y` is 2. -/
example (cfg : Cfg) (five two : F) :
    Finishes (fun n => eval cfg n (.function ['f'] [.scalar five, AST.fromVariableName ['y']])
      (Context.new [Variable.new ['y'] (.scalar two)] [Function.new ['f'] (.simple .sub (.variable ['x']) (.variable ['y'])) [['x'], ['y']]]))
      (.ok [.scalar (FArith.add five (FArith.mul two (FArith.ofInt (-1))))]) := by
  refine C22_constructed cfg _ [] [] ['f'] _ [['x'], ['y']] (by simp) (by decide) (by decide) (by rintro ⟨⟩ <;> rename_i h <;> cases h)
    (by rintro ⟨⟩ <;> rename_i h <;> cases h) _ [.scalar five, .scalar two] rfl ?_
    ⟨[⟨['x'], [.scalar five]⟩, ⟨['y'], [.scalar two]⟩], [Function.new ['f'] (.simple .sub (.variable ['x']) (.variable ['y'])) [['x'], ['y']]]⟩ ?_ _
    ⟨by simp, 2, rfl⟩
  · exact .cons ⟨by simp, 1, rfl⟩ (.cons ⟨by simp, 1, rfl⟩ .nil)
  · refine ⟨by simp [NoDupVars], fun i h _ => ?_, fun n hn => ?_, fun _ => rfl⟩
    · match i, h with
      | 0, _ => rfl
      | 1, _ => rfl
    · simp only [List.mem_cons, List.not_mem_nil, or_false, not_or] at hn
      simp [Context.findVar, Context.new, Variable.new, Ne.symm hn.1, Ne.symm hn.2]

end MUL
