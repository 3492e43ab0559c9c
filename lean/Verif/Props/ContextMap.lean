import Verif.Spec.ContextMap
import Verif.Model.Eval
/-!
# C01, C02: contexts behave like maps
-/

namespace MUL
open Spec

variable {F : Type}

theorem findVar_addVar (c : Context F) (v : Variable F) (n : Str) :
    (c.addVar v).findVar n = if n = v.name then some v.values else c.findVar n := by
  unfold Context.addVar Context.findVar
  simp only [List.find?_append]
  by_cases h : n = v.name
  · subst h
    have : (c.vars.filter fun w => w.name != v.name).find? (fun w => w.name == v.name) = none := by
      simp [List.find?_eq_none]
    rw [this]
    simp
  · have h' : ¬ v.name = n := fun e => h e.symm
    rw [List.find?_filter]
    simp only [h, if_false]
    have : (fun a : Variable F => decide ((a.name != v.name) = true ∧ (a.name == n) = true)) = fun a => a.name == n := by
      funext a
      by_cases ha : a.name = n
      · simp [ha, h]
      · simp [ha]
    rw [this]
    simp [h']

theorem findVar_removeVar (c : Context F) (k n : Str) :
    (c.removeVar k).findVar n = if n = k then none else c.findVar n := by
  unfold Context.removeVar Context.findVar
  simp only [List.find?_filter]
  by_cases h : n = k
  · subst h
    have : (fun a : Variable F => decide ((a.name != n) = true ∧ (a.name == n) = true)) = fun a => false := by
      funext a
      by_cases ha : a.name = n <;> simp [ha]
    rw [this]
    simp
  · have : (fun a : Variable F => decide ((a.name != k) = true ∧ (a.name == n) = true)) = fun a => a.name == n := by
      funext a
      by_cases ha : a.name = n
      · simp [ha, h]
      · simp [ha]
    rw [this]
    simp [h]

theorem findFun_addFun (c : Context F) (f : Function F) (n : Str) :
    (c.addFun f).findFun n = if n = f.name then some f else c.findFun n := by
  unfold Context.addFun Context.findFun
  simp only [List.find?_append]
  by_cases h : n = f.name
  · subst h
    have : (c.funs.filter fun w => w.name != f.name).find? (fun w => w.name == f.name) = none := by
      simp [List.find?_eq_none]
    rw [this]
    simp
  · have h' : ¬ f.name = n := fun e => h e.symm
    rw [List.find?_filter]
    simp only [h, if_false]
    have : (fun a : Function F => decide ((a.name != f.name) = true ∧ (a.name == n) = true)) = fun a => a.name == n := by
      funext a
      by_cases ha : a.name = n
      · simp [ha, h]
      · simp [ha]
    rw [this]
    simp [h']

theorem findFun_removeFun (c : Context F) (k n : Str) :
    (c.removeFun k).findFun n = if n = k then none else c.findFun n := by
  unfold Context.removeFun Context.findFun
  simp only [List.find?_filter]
  by_cases h : n = k
  · subst h
    have : (fun a : Function F => decide ((a.name != n) = true ∧ (a.name == n) = true)) = fun a => false := by
      funext a
      by_cases ha : a.name = n <;> simp [ha]
    rw [this]
    simp
  · have : (fun a : Function F => decide ((a.name != k) = true ∧ (a.name == n) = true)) = fun a => a.name == n := by
      funext a
      by_cases ha : a.name = n
      · simp [ha, h]
      · simp [ha]
    rw [this]
    simp [h]

theorem findVar_apply (c : Context F) (o : CtxOp F) :
    (o.apply c).findVar = varsAfter c.findVar o := by
  funext n
  cases o with
  | addVar v => exact findVar_addVar c v n
  | removeVar k => exact findVar_removeVar c k n
  | addFun f => rfl
  | removeFun k => rfl

theorem findFun_apply (c : Context F) (o : CtxOp F) :
    (o.apply c).findFun = funsAfter c.findFun o := by
  funext n
  cases o with
  | addVar v => rfl
  | removeVar k => rfl
  | addFun f => exact findFun_addFun c f n
  | removeFun k => exact findFun_removeFun c k n

/-- **C01.** After any history of context calls, looking up a variable gives what the abstract map
gives, for every name and every initial context. -/
theorem C01_var_map (c : Context F) (ops : List (CtxOp F)) (n : Str) :
    (runOps c ops).findVar n = (ops.foldl varsAfter c.findVar) n := by
  unfold runOps
  induction ops generalizing c with
  | nil => rfl
  | cons o ops ih => simp only [List.foldl_cons]; rw [ih, findVar_apply]

/-- **C02.** The same for functions. -/
theorem C02_fun_map (c : Context F) (ops : List (CtxOp F)) (n : Str) :
    (runOps c ops).findFun n = (ops.foldl funsAfter c.findFun) n := by
  unfold runOps
  induction ops generalizing c with
  | nil => rfl
  | cons o ops ih => simp only [List.foldl_cons]; rw [ih, findFun_apply]

/-- **C01** (observable form): evaluating the variable `n` after any history of context calls yields
exactly what was last stored under `n`, and `NoVariable(n)` if there is nothing. -/
theorem C01_eval_var [FNum F] (cfg : Cfg) (k : Nat) (c : Context F) (ops : List (CtxOp F)) (n : Str) :
    eval cfg (k + 1) (.variable n) (runOps c ops) =
      match (ops.foldl varsAfter c.findVar) n with
      | some vs => .ok vs
      | none => .err (.noVariable n) := by
  rw [← C01_var_map]
  rfl

/-- **C01** (last write wins): whatever the history before, after `add_var(v)` followed by calls that
do not touch the name of `v`, evaluating it yields the values of `v`. -/
theorem C01_last_write [FNum F] (cfg : Cfg) (k : Nat) (c : Context F) (before after : List (CtxOp F))
    (v : Variable F)
    (h : ∀ o ∈ after, (∀ w, o = .addVar w → w.name ≠ v.name) ∧ o ≠ .removeVar v.name) :
    eval cfg (k + 1) (.variable v.name) (runOps c (before ++ .addVar v :: after)) = .ok v.values := by
  rw [C01_eval_var]
  have key : ∀ (after : List (CtxOp F)) (m : Str → Option (List (Value F))), m v.name = some v.values →
      (∀ o ∈ after, (∀ w, o = .addVar w → w.name ≠ v.name) ∧ o ≠ .removeVar v.name) →
      (after.foldl varsAfter m) v.name = some v.values := by
    intro after
    induction after with
    | nil => intro m hm _; exact hm
    | cons o after ih =>
      intro m hm ho
      refine ih _ ?_ fun o' h' => ho o' (by simp [h'])
      have h0 := ho o (by simp)
      cases o with
      | addVar w =>
        have := h0.1 w rfl
        simp [varsAfter, hm, this.symm]
      | removeVar k =>
        have : v.name ≠ k := fun e => h0.2 (by rw [e])
        simp [varsAfter, hm, this]
      | addFun f => exact hm
      | removeFun k => exact hm
  rw [List.foldl_append, List.foldl_cons, key after _ (by simp [varsAfter]) h]

/-- **C01** (removal): after `remove_var(n)` and calls that do not add it again, evaluating `n` fails. -/
theorem C01_removed [FNum F] (cfg : Cfg) (k : Nat) (c : Context F) (before after : List (CtxOp F))
    (n : Str) (h : ∀ o ∈ after, ∀ w, o = .addVar w → w.name ≠ n) :
    eval cfg (k + 1) (.variable n) (runOps c (before ++ .removeVar n :: after)) = .err (.noVariable n) := by
  rw [C01_eval_var]
  have key : ∀ (after : List (CtxOp F)) (m : Str → Option (List (Value F))), m n = none →
      (∀ o ∈ after, ∀ w, o = .addVar w → w.name ≠ n) → (after.foldl varsAfter m) n = none := by
    intro after
    induction after with
    | nil => intro m hm _; exact hm
    | cons o after ih =>
      intro m hm ho
      refine ih _ ?_ fun o' h' => ho o' (by simp [h'])
      have h0 := ho o (by simp)
      cases o with
      | addVar w =>
        have := h0 w rfl
        simp [varsAfter, hm, this.symm]
      | removeVar k => simp [varsAfter, hm]
      | addFun f => exact hm
      | removeFun k => exact hm
  rw [List.foldl_append, List.foldl_cons, key after _ (by simp [varsAfter]) h]

theorem nodup_filter_append {α β : Type} [BEq β] [LawfulBEq β] (l : List α) (g : α → β) (a : α)
    (h : (l.map g).Nodup) : (((l.filter fun w => g w != g a) ++ [a]).map g).Nodup := by
  rw [List.map_append, List.nodup_append]
  refine ⟨h.sublist (List.filter_sublist.map _), by simp, ?_⟩
  intro x hx y hy
  simp at hy
  subst hy
  simp only [List.mem_map, List.mem_filter] at hx
  obtain ⟨w, ⟨_, hw⟩, rfl⟩ := hx
  simpa using hw

/-- **C01, C02** (no duplicates): a context that stores no name twice never comes to store one twice. -/
theorem C01_nodup (c : Context F) (ops : List (CtxOp F)) (h : NoDupNames c) :
    NoDupNames (runOps c ops) := by
  unfold runOps
  induction ops generalizing c with
  | nil => exact h
  | cons o ops ih =>
    refine ih _ ?_
    cases o with
    | addVar v => exact ⟨nodup_filter_append c.vars (·.name) v h.1, h.2⟩
    | addFun f => exact ⟨h.1, nodup_filter_append c.funs (·.name) f h.2⟩
    | removeVar n => exact ⟨h.1.sublist (List.filter_sublist.map _), h.2⟩
    | removeFun n => exact ⟨h.1, h.2.sublist (List.filter_sublist.map _)⟩

/-- **C02** (independence): variable calls leave the stored functions as they are, function calls the
variables. -/
theorem C02_independent (c : Context F) (ops : List (CtxOp F)) :
    (∀ (_ : ∀ o ∈ ops, ∃ v, o = .addVar v ∨ ∃ n, o = .removeVar n), (runOps c ops).funs = c.funs) ∧
    (∀ (_ : ∀ o ∈ ops, ∃ f, o = .addFun f ∨ ∃ n, o = .removeFun n), (runOps c ops).vars = c.vars) := by
  constructor
  · induction ops generalizing c with
    | nil => intro _; rfl
    | cons o ops ih =>
      intro h
      have h1 : (runOps (o.apply c) ops).funs = (o.apply c).funs := ih _ fun o ho => h o (by simp [ho])
      obtain ⟨v, rfl | ⟨n, rfl⟩⟩ := h o (by simp)
      · exact h1
      · exact h1
  · induction ops generalizing c with
    | nil => intro _; rfl
    | cons o ops ih =>
      intro h
      have h1 : (runOps (o.apply c) ops).vars = (o.apply c).vars := ih _ fun o ho => h o (by simp [ho])
      obtain ⟨v, rfl | ⟨n, rfl⟩⟩ := h o (by simp)
      · exact h1
      · exact h1

/-- **C01, C02** (construction): a context made from lists of variables and functions knows exactly the given ones;
of several with one name the first counts. A context made from variables alone has no function, one made from functions
alone no variable, the empty one neither. -/
theorem C01_from_lists (before after : List (Variable F)) (v : Variable F) (hv : ∀ w ∈ before, w.name ≠ v.name)
    (fbefore fafter : List (Function F)) (f : Function F) (hf : ∀ g ∈ fbefore, g.name ≠ f.name) (n : Str) :
    (Context.fromVars (before ++ v :: after)).findVar v.name = some v.values ∧
    (Context.fromFuns (fbefore ++ f :: fafter)).findFun f.name = some f ∧
    (∀ vs : List (Variable F), (∀ w ∈ vs, w.name ≠ n) → (Context.fromVars vs).findVar n = none) ∧
    (∀ fs : List (Function F), (∀ g ∈ fs, g.name ≠ n) → (Context.fromFuns fs).findFun n = none) ∧
    (∀ vs : List (Variable F), (Context.fromVars vs).findFun n = none) ∧
    (∀ fs : List (Function F), (Context.fromFuns fs).findVar n = none) ∧
    (Context.empty : Context F).findVar n = none ∧ (Context.empty : Context F).findFun n = none := by
  refine ⟨?_, ?_, ?_, ?_, fun _ => rfl, fun _ => rfl, rfl, rfl⟩
  · simp only [Context.findVar, Context.fromVars]
    rw [List.find?_append, List.find?_eq_none.2 (by simpa using hv), List.find?_cons_of_pos (by simp)]
    rfl
  · simp only [Context.findFun, Context.fromFuns]
    rw [List.find?_append, List.find?_eq_none.2 (by simpa using hf), List.find?_cons_of_pos (by simp)]
    rfl
  · intro vs h
    simp only [Context.findVar, Context.fromVars]
    rw [List.find?_eq_none.2 (by simpa using h)]
    rfl
  · intro fs h
    simp only [Context.findFun, Context.fromFuns]
    exact List.find?_eq_none.2 (by simpa using h)

/-- Two variables of one name and a second function of a list. -/
example (a b : F) (f g : Function F) (hf : f.name = ['f']) (hg : g.name = ['g']) :
    (Context.fromVars [⟨['x'], [.scalar a]⟩, ⟨['x'], [.scalar b]⟩]).findVar ['x'] = some [.scalar a] ∧
    (Context.fromFuns [f, g]).findFun ['g'] = some g := by
  have h := C01_from_lists [] [⟨['x'], [.scalar b]⟩] ⟨['x'], [.scalar a]⟩ (by simp) [f] [] g (by simp [hf, hg]) []
  exact ⟨h.1, hg ▸ h.2.1⟩

/-- The predefined context satisfies the hypothesis of `C01_nodup`. -/
example [FElem F] : NoDupNames (Context.default : Context F) := by
  simp [NoDupNames, Context.default]

/-- A history that meets the hypothesis of `C01_last_write`: `x` is overwritten, then `y` added and
removed. -/
example [FNum F] (a b : F) : eval .default 1 (.variable ['x'])
    (runOps .default [.addVar ⟨['x'], [.scalar a]⟩, .addVar ⟨['x'], [.scalar b]⟩,
      .addVar ⟨['y'], [.scalar a]⟩, .removeVar ['y']]) = .ok [.scalar b] :=
  C01_last_write .default 0 .default [.addVar ⟨['x'], [.scalar a]⟩] [.addVar ⟨['y'], [.scalar a]⟩, .removeVar ['y']]
    ⟨['x'], [.scalar b]⟩ (by
      intro o ho
      simp at ho
      rcases ho with rfl | rfl
      · refine ⟨fun w hw => ?_, by simp⟩
        cases hw; simp
      · exact ⟨fun w hw => (by cases hw), by simp⟩)

end MUL
