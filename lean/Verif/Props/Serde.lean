import Verif.Proofs.Serde
import Verif.Props.Equality
/-!
# C86: what is serialized is read back
-/

set_option linter.unusedSectionVars false

namespace MUL
open Spec Out

section
variable {F : Type} (nf : NumFormat F)

theorem opt_bind_some {α β : Type} {o : Option α} {f : α → Option β} {b : β} : o.bind f = some b ↔ ∃ a, o = some a ∧ f a = some b :=
  Option.bind_eq_some_iff

theorem asts_iff {R : AST F → AST F → Prop} (v : List (AST F)) (ih : ∀ a ∈ v, ∀ u, AST.ofData nf (a.toData nf) = some u ↔ R a u) (w : List (AST F)) :
    astsOfData nf (astsToData nf v) = some w ↔ List.Forall₂ R v w := by
  induction v generalizing w with
  | nil => cases w <;> simp [astsToData, astsOfData]
  | cons a v iv =>
    rw [astsToData, astsOfData]
    have h1 := ih a (by simp)
    have h2 := iv fun b hb => ih b (by simp [hb])
    cases w with
    | nil => split <;> simp
    | cons b w =>
      rw [List.forall₂_cons, ← h1 b, ← h2 w]
      split
      · next t v' e1 e2 => simp [e1, e2]
      · next h => 
        constructor
        · simp
        · rintro ⟨e1, e2⟩
          exact (h _ _ e1 e2).elim

theorem rows_iff {R : AST F → AST F → Prop} (v : List (List (AST F)))
    (ih : ∀ r ∈ v, ∀ a ∈ r, ∀ u, AST.ofData nf (a.toData nf) = some u ↔ R a u) (w : List (List (AST F))) :
    rowsOfData nf (rowsToData nf v) = some w ↔ List.Forall₂ (List.Forall₂ R) v w := by
  induction v generalizing w with
  | nil => cases w <;> simp [rowsToData, rowsOfData]
  | cons a v iv =>
    rw [rowsToData, rowsOfData]
    have h1 := asts_iff nf a (ih a (by simp))
    have h2 := iv fun b hb => ih b (by simp [hb])
    cases w with
    | nil => split <;> simp
    | cons b w =>
      rw [List.forall₂_cons, ← h1 b, ← h2 w]
      split
      · next t v' e1 e2 => simp [e1, e2]
      · next h => 
        constructor
        · simp
        · rintro ⟨e1, e2⟩
          exact (h _ _ e1 e2).elim

theorem eqs_iff {R : AST F → AST F → Prop} (v : List (AST F × AST F))
    (ih : ∀ e ∈ v, (∀ u, AST.ofData nf (e.1.toData nf) = some u ↔ R e.1 u) ∧ ∀ u, AST.ofData nf (e.2.toData nf) = some u ↔ R e.2 u)
    (w : List (AST F × AST F)) :
    eqsOfData nf (eqsToData nf v) = some w ↔ List.Forall₂ (fun a b => R a.1 b.1 ∧ R a.2 b.2) v w := by
  induction v generalizing w with
  | nil => cases w <;> simp [eqsToData, eqsOfData]
  | cons a v iv =>
    obtain ⟨l, r⟩ := a
    rw [eqsToData, eqsOfData]
    have h1 := (ih (l, r) (by simp)).1
    have h1' := (ih (l, r) (by simp)).2
    have h2 := iv fun b hb => ih b (by simp [hb])
    cases w with
    | nil => split <;> simp
    | cons b w =>
      obtain ⟨l', r'⟩ := b
      rw [List.forall₂_cons, ← h1 l', ← h1' r', ← h2 w]
      split
      · next t v' e e1 e2 e3 => simp [e1, e2, e3, and_assoc]
      · next h => 
        constructor
        · simp
        · rintro ⟨⟨e1, e1'⟩, e2⟩
          exact (h _ _ _ e1 e1' e2).elim

/-- C86: reading a serialized expression gives exactly the expressions of the same form whose numbers are what the format makes of them;
it fails exactly if some number cannot be read. -/
theorem C86_trees (t u : AST F) : AST.ofData nf (t.toData nf) = some u ↔ Alike (fun a b => nf.get (nf.put a) = some b) t u := by
  induction t using AST.ind generalizing u with
  | scalar s =>
    rw [AST.toData, ofData_scalar, Option.map_eq_some_iff]
    constructor
    · rintro ⟨a, h, rfl⟩; exact .scalar _ _ h
    · intro h; cases h; exact ⟨_, ‹_›, rfl⟩
  | vector v ih =>
    rw [AST.toData, ofData_vector, Option.map_eq_some_iff]
    simp only [asts_iff nf v ih, forall₂_zip]
    constructor
    · rintro ⟨w, h, rfl⟩; exact .vector _ _ h.1 h.2
    · intro h; cases h; exact ⟨_, ⟨‹_›, ‹_›⟩, rfl⟩
  | matrix v ih =>
    rw [AST.toData, ofData_matrix, Option.map_eq_some_iff]
    simp only [rows_iff nf v ih, forall₂_zip]
    constructor
    · rintro ⟨w, h, rfl⟩; exact .matrix _ _ h.1 (fun p hp => (h.2 p hp).1) fun p hp => (h.2 p hp).2
    · intro h; cases h with
      | matrix _ w h1 h2 h3 => exact ⟨w, ⟨h1, fun p hp => ⟨h2 p hp, h3 p hp⟩⟩, rfl⟩
  | list v ih =>
    rw [AST.toData, ofData_list, Option.map_eq_some_iff]
    simp only [asts_iff nf v ih, forall₂_zip]
    constructor
    · rintro ⟨w, h, rfl⟩; exact .list _ _ h.1 h.2
    · intro h; cases h; exact ⟨_, ⟨‹_›, ‹_›⟩, rfl⟩
  | var n =>
    rw [AST.toData, ofData_variable]
    constructor
    · intro h; cases h; exact .variable _
    · intro h; cases h; rfl
  | function n v ih =>
    rw [AST.toData, ofData_function, Option.map_eq_some_iff]
    simp only [asts_iff nf v ih, forall₂_zip]
    constructor
    · rintro ⟨w, h, rfl⟩; exact .function _ _ _ h.1 h.2
    · intro h; cases h; exact ⟨_, ⟨‹_›, ‹_›⟩, rfl⟩
  | simple op l r ihl ihr =>
    rw [AST.toData, ofData_operation, operation_simple, opt_bind_some]
    simp only [Option.map_eq_some_iff, ihl, ihr]
    constructor
    · rintro ⟨l', hl, r', hr, rfl⟩; exact .simple _ _ _ _ _ hl hr
    · intro h; cases h; exact ⟨_, ‹_›, _, ‹_›, rfl⟩
  | integral e x l u ihe ihl ihu =>
    rw [AST.toData, ofData_operation, operation_advanced, advanced_integral, opt_bind_some]
    simp only [opt_bind_some, Option.map_eq_some_iff, ihe, ihl, ihu]
    constructor
    · rintro ⟨e', he, l', hl, u', hu, rfl⟩; exact .integral _ _ _ _ _ _ _ he hl hu
    · intro h; cases h with
      | integral _ _ _ _ _ _ _ h1 h2 h3 => exact ⟨_, h1, _, h2, _, h3, rfl⟩
  | derivative e x a ihe iha =>
    rw [AST.toData, ofData_operation, operation_advanced, advanced_derivative, opt_bind_some]
    simp only [Option.map_eq_some_iff, ihe, iha]
    constructor
    · rintro ⟨e', he, l', hl, rfl⟩; exact .derivative _ _ _ _ _ he hl
    · intro h; cases h with
      | derivative _ _ _ _ _ h1 h2 => exact ⟨_, h1, _, h2, rfl⟩
  | equation es ns ih =>
    rw [AST.toData, ofData_operation, operation_advanced, advanced_equation, Option.map_eq_some_iff]
    simp only [eqs_iff nf es ih, forall₂_zip]
    constructor
    · rintro ⟨w, h, rfl⟩; exact .equation _ _ _ h.1 (fun p hp => (h.2 p hp).1) fun p hp => (h.2 p hp).2
    · intro h; cases h with
      | equation _ w _ h1 h2 h3 => exact ⟨w, ⟨h1, fun p hp => ⟨h2 p hp, h3 p hp⟩⟩, rfl⟩

theorem mapM_forall₂ {α β : Type} (f : α → Option β) (l : List α) (w : List β) : l.mapM f = some w ↔ List.Forall₂ (fun a b => f a = some b) l w := by
  induction l generalizing w with
  | nil => cases w <;> simp
  | cons a l ih =>
    cases w with
    | nil =>
      simp only [List.mapM_cons, Option.pure_def, Option.bind_eq_bind, Option.bind_eq_some_iff]
      constructor
      · rintro ⟨_, _, _, _, h⟩; cases h
      · intro h; cases h
    | cons b w =>
      rw [List.forall₂_cons, ← ih]
      simp only [List.mapM_cons, Option.pure_def, Option.bind_eq_bind, Option.bind_eq_some_iff, Option.some.injEq, List.cons.injEq]
      constructor
      · rintro ⟨b', hb, w', hw, rfl, rfl⟩; exact ⟨hb, hw⟩
      · rintro ⟨hb, hw⟩; exact ⟨_, hb, _, hw, rfl, rfl⟩

/-- C86: values behave like the expressions that stand for them. -/
theorem C86_values (v w : Value F) :
    Value.ofData nf (v.toData nf) = some w ↔ Alike (fun a b => nf.get (nf.put a) = some b) (AST.fromValue v) (AST.fromValue w) := by
  rw [← C86_trees]
  cases v with
  | scalar a =>
    rw [AST.fromValue, AST.toData, ofData_scalar]
    show (nf.get (nf.put a)).map Value.scalar = some w ↔ _
    cases w <;> simp [AST.fromValue]
  | vector v =>
    have h : ∀ x : List F, astsOfData nf (astsToData nf (v.map AST.scalar)) = some (x.map AST.scalar) ↔ v.mapM (fun a => nf.get (nf.put a)) = some x := by
      intro x
      rw [asts_iff nf (R := fun a u => AST.ofData nf (a.toData nf) = some u) _ fun _ _ _ => Iff.rfl, mapM_forall₂, List.forall₂_map_left_iff,
        List.forall₂_map_right_iff]
      simp only [AST.toData, ofData_scalar, Option.map_eq_some_iff, AST.scalar.injEq, exists_eq_right]
    rw [AST.fromValue, AST.toData, ofData_vector]
    show (Data.getSeq nf.get (.seq (v.map nf.put))).map Value.vector = some w ↔ _
    rw [getSeq_map]
    cases w with
    | vector x => simp [AST.fromValue, h]
    | scalar x => simp [AST.fromValue]
    | matrix x => simp [AST.fromValue]
  | matrix v =>
    have h : ∀ x : List (List F), rowsOfData nf (rowsToData nf (v.map (·.map AST.scalar))) = some (x.map (·.map AST.scalar)) ↔
        v.mapM (fun r => r.mapM fun a => nf.get (nf.put a)) = some x := by
      intro x
      rw [rows_iff nf (R := fun a u => AST.ofData nf (a.toData nf) = some u) _ fun _ _ _ _ _ => Iff.rfl, mapM_forall₂, List.forall₂_map_left_iff,
        List.forall₂_map_right_iff]
      simp only [mapM_forall₂, List.forall₂_map_left_iff, List.forall₂_map_right_iff, AST.toData, ofData_scalar, Option.map_eq_some_iff,
        AST.scalar.injEq, exists_eq_right]
    rw [AST.fromValue, AST.toData, ofData_matrix]
    show (Data.getSeq (Data.getSeq nf.get) (.seq (v.map fun r => .seq (r.map nf.put)))).map Value.matrix = some w ↔ _
    rw [getSeq_map]
    simp only [getSeq_map]
    cases w with
    | vector x => simp [AST.fromValue]
    | scalar x => simp [AST.fromValue]
    | matrix x => simp [AST.fromValue, h]

theorem valuesData_iff (v w : List (Value F)) :
    valuesOfData nf (valuesToData nf v) = some w ↔ List.Forall₂ (fun a b => Value.ofData nf (a.toData nf) = some b) v w := by
  unfold valuesOfData valuesToData
  rw [getSeq_map, mapM_forall₂]

theorem variable_iff (x y : Variable F) : Variable.ofData nf (x.toData nf) = some y ↔
    x.name = y.name ∧ List.Forall₂ (fun a b => Value.ofData nf (a.toData nf) = some b) x.values y.values := by
  rw [← valuesData_iff]
  show (match some x.name, valuesOfData nf (valuesToData nf x.values) with
    | some n, some vs => some (Variable.mk n vs)
    | _, _ => none) = _ ↔ _
  obtain ⟨n, vs⟩ := y
  cases valuesOfData nf (valuesToData nf x.values) <;> simp

theorem function_iff (f g : Function F) : Function.ofData nf (f.toData nf) = some g ↔
    f.name = g.name ∧ AST.ofData nf (f.ast.toData nf) = some g.ast ∧ f.inputs = g.inputs := by
  show (match some f.name, AST.ofData nf (f.ast.toData nf), Data.getSeq Data.getStr (Data.strs f.inputs : Data F) with
    | some n, some t, some xs => some (Function.mk n t xs)
    | _, _, _ => none) = _ ↔ _
  rw [getStrs]
  obtain ⟨n, t, xs⟩ := g
  cases AST.ofData nf (f.ast.toData nf) <;> simp

/-- C86: a serialized context is read back with the same names in the same order, and values and expressions as above. -/
theorem C86_contexts (c d : Context F) : Context.ofData nf (c.toData nf) = some d ↔
    (c.vars.length = d.vars.length ∧ ∀ p ∈ c.vars.zip d.vars, p.1.name = p.2.name ∧ p.1.values.length = p.2.values.length ∧
      ∀ q ∈ p.1.values.zip p.2.values, Alike (fun a b => nf.get (nf.put a) = some b) (AST.fromValue q.1) (AST.fromValue q.2)) ∧
    (c.funs.length = d.funs.length ∧ ∀ p ∈ c.funs.zip d.funs, p.1.name = p.2.name ∧
      Alike (fun a b => nf.get (nf.put a) = some b) p.1.ast p.2.ast ∧ p.1.inputs = p.2.inputs) := by
  simp only [← C86_values]
  simp only [← C86_trees]
  simp only [← forall₂_zip (R := fun a b : Value F => Value.ofData nf (a.toData nf) = some b)]
  simp only [← variable_iff, ← function_iff]
  rw [← forall₂_zip (R := fun a b : Variable F => Variable.ofData nf (a.toData nf) = some b),
    ← forall₂_zip (R := fun a b : Function F => Function.ofData nf (a.toData nf) = some b), ← mapM_forall₂, ← mapM_forall₂]
  show (match Data.getSeq (Variable.ofData nf) (.seq (c.vars.map (Variable.toData nf))),
      Data.getSeq (Function.ofData nf) (.seq (c.funs.map (Function.toData nf))) with
    | some vs, some fs => some (Context.mk vs fs)
    | _, _ => none) = _ ↔ _
  rw [getSeq_map, getSeq_map]
  obtain ⟨vs, fs⟩ := d
  cases c.vars.mapM (fun x => Variable.ofData nf (x.toData nf)) <;> cases c.funs.mapM (fun x => Function.ofData nf (x.toData nf)) <;> simp

/-- C86: the same for the steps of a history. -/
theorem C86_steps (t u : AST F) (vs ws : List (Value F)) (x y : Option Str) (xs ys : List Str) (n m : Str) :
    (Step.ofData nf ((Step.calculation t vs x).toData nf) = some (.calculation u ws y) ↔
      Alike (fun a b => nf.get (nf.put a) = some b) t u ∧
      (vs.length = ws.length ∧ ∀ q ∈ vs.zip ws, Alike (fun a b => nf.get (nf.put a) = some b) (AST.fromValue q.1) (AST.fromValue q.2)) ∧ x = y) ∧
    (Step.ofData nf ((Step.declaration t xs n).toData nf) = some (.declaration u ys m) ↔
      Alike (fun a b => nf.get (nf.put a) = some b) t u ∧ xs = ys ∧ n = m) ∧
    Step.ofData nf ((Step.calculation t vs x).toData nf) ≠ some (.declaration u ys m) ∧
    Step.ofData nf ((Step.declaration t xs n).toData nf) ≠ some (.calculation u ws y) := by
  simp only [← C86_values]
  simp only [← C86_trees, ← forall₂_zip (R := fun a b : Value F => Value.ofData nf (a.toData nf) = some b), ← valuesData_iff]
  have h1 : Step.ofData nf ((Step.calculation t vs x).toData nf) = 
      match AST.ofData nf (t.toData nf), valuesOfData nf (valuesToData nf vs), Data.getOptStr (match x with | none => .null | some x => .str x : Data F) with
        | some t, some vs, some x => some (Step.calculation t vs x)
        | _, _, _ => none := rfl
  have h2 : Step.ofData nf ((Step.declaration t xs n).toData nf) = 
      match AST.ofData nf (t.toData nf), Data.getSeq Data.getStr (Data.strs xs : Data F), some n with
        | some t, some xs, some n => some (Step.declaration t xs n)
        | _, _, _ => none := rfl
  rw [h1, h2, getStrs]
  cases x <;> simp only [Data.getOptStr]
  all_goals
  cases AST.ofData nf (t.toData nf) <;> cases valuesOfData nf (valuesToData nf vs) <;> cases y <;> simp

theorem all_written (t : AST F) : Written (fun _ => True) t := (alike_self (fun _ _ => True) t).1 (by
  induction t using AST.ind with
  | scalar s => exact .scalar _ _ trivial
  | vector v ih => exact .vector _ _ rfl fun p hp => by obtain ⟨a, ha, rfl⟩ := zip_self hp; exact ih a ha
  | matrix v ih =>
    refine .matrix _ _ rfl (fun p hp => by obtain ⟨a, ha, rfl⟩ := zip_self hp; rfl) fun p hp q hq => ?_
    obtain ⟨r, hr, rfl⟩ := zip_self hp
    obtain ⟨a, ha, rfl⟩ := zip_self hq
    exact ih r hr a ha
  | list v ih => exact .list _ _ rfl fun p hp => by obtain ⟨a, ha, rfl⟩ := zip_self hp; exact ih a ha
  | var n => exact .variable _
  | function n v ih => exact .function _ _ _ rfl fun p hp => by obtain ⟨a, ha, rfl⟩ := zip_self hp; exact ih a ha
  | simple op l r ihl ihr => exact .simple _ _ _ _ _ ihl ihr
  | integral e x l u ihe ihl ihu => exact .integral _ _ _ _ _ _ _ ihe ihl ihu
  | derivative e x a ihe iha => exact .derivative _ _ _ _ _ ihe iha
  | equation es ns ih =>
    refine .equation _ _ _ rfl (fun p hp => ?_) fun p hp => ?_
    · obtain ⟨a, ha, rfl⟩ := zip_self hp
      exact (ih a ha).1
    · obtain ⟨a, ha, rfl⟩ := zip_self hp
      exact (ih a ha).2)

/-- C86: with a format that gives every number back, every expression, value, context and step is read back as it was. -/
theorem C86_exact (h : ∀ a, nf.get (nf.put a) = some a) (t : AST F) (v : Value F) (c : Context F) (s : Step F) :
    AST.ofData nf (t.toData nf) = some t ∧ Value.ofData nf (v.toData nf) = some v ∧
    Context.ofData nf (c.toData nf) = some c ∧ Step.ofData nf (s.toData nf) = some s := by
  have ha : ∀ t : AST F, Alike (fun a b => nf.get (nf.put a) = some b) t t := fun t =>
    (alike_self _ t).2 (written_mono (fun a _ => h a) (all_written t))
  refine ⟨(C86_trees nf t t).2 (ha t), (C86_values nf v v).2 (ha _), (C86_contexts nf c c).2 ?_, ?_⟩
  · refine ⟨⟨rfl, fun p hp => ?_⟩, rfl, fun p hp => ?_⟩
    · obtain ⟨x, _, rfl⟩ := zip_self hp
      refine ⟨rfl, rfl, fun q hq => ?_⟩
      obtain ⟨a, _, rfl⟩ := zip_self hq
      exact ha _
    · obtain ⟨x, _, rfl⟩ := zip_self hp
      exact ⟨rfl, ha _, rfl⟩
  · cases s with
    | calculation t vs x =>
      refine (C86_steps nf t t vs vs x x [] [] [] []).1.2 ⟨ha t, ⟨rfl, fun q hq => ?_⟩, rfl⟩
      obtain ⟨a, _, rfl⟩ := zip_self hq
      exact ha _
    | declaration t xs n => exact (C86_steps nf t t [] [] none none xs xs n n).2.1.2 ⟨ha t, rfl, rfl⟩

/-- C86: two expressions that are written alike are the same (if the format gives every number back). -/
theorem C86_injective (h : ∀ a, nf.get (nf.put a) = some a) (t u : AST F) (e : t.toData nf = u.toData nf) : t = u := by
  have h1 := (C86_exact nf h t (.vector []) ⟨[], []⟩ (.declaration t [] [])).1
  have h2 := (C86_exact nf h u (.vector []) ⟨[], []⟩ (.declaration t [] [])).1
  rw [e, h2] at h1
  exact (Option.some.inj h1).symm

theorem json_reads [FArith F] (a b : F) : (jsonNumbers (F := F)).get (jsonNumbers.put a) = some b ↔
    (FArith.isNaN a = false ∧ FArith.isInf a = false) ∧ a = b := by
  unfold jsonNumbers
  cases h1 : FArith.isNaN a <;> cases h2 : FArith.isInf a <;> simp [h1, h2]

/-- C86: with JSON, an expression is read back, and then unchanged, exactly if every number in it is finite; otherwise reading fails. -/
theorem C86_json [FArith F] (t : AST F) :
    (Written (fun a => FArith.isNaN a = false ∧ FArith.isInf a = false) t → AST.ofData jsonNumbers (t.toData jsonNumbers) = some t) ∧
    (¬ Written (fun a => FArith.isNaN a = false ∧ FArith.isInf a = false) t → AST.ofData jsonNumbers (t.toData jsonNumbers) = none) := by
  constructor
  · intro h
    exact (C86_trees _ t t).2 ((alike_self _ t).2 (written_mono (fun a ha => (json_reads a a).2 ⟨ha, rfl⟩) h))
  · intro h
    cases hu : AST.ofData jsonNumbers (t.toData jsonNumbers) with
    | none => rfl
    | some u =>
      have ha := (C86_trees _ t u).1 hu
      have e : t = u := alike_identical (N := fun _ => True) (N' := fun _ => True) (fun a b _ _ hab => ((json_reads a b).1 hab).2) ha
        (all_written t) (all_written u)
      subst e
      exact absurd (written_mono (fun a h => ((json_reads a a).1 h).1) ((alike_self _ t).1 ha)) h

end

/-- A formula with an infinite number is lost in JSON, one with finite numbers is not. -/
example : AST.ofData (F := Double) jsonNumbers ((AST.simple .add (.scalar (FArith.inf false)) (.variable ['x'])).toData jsonNumbers) = none ∧
    AST.ofData (F := Double) jsonNumbers ((AST.simple .add (.scalar (FArith.ofInt 2)) (.variable ['x'])).toData jsonNumbers) =
      some (AST.simple .add (.scalar (FArith.ofInt 2)) (.variable ['x'])) := by
  refine ⟨(C86_json _).2 fun h => ?_, (C86_json _).1 (.simple _ _ _ (.scalar _ (by decide +kernel)) (.variable _))⟩
  cases h with
  | simple _ _ _ h _ => cases h with
    | scalar _ h => exact absurd h (by decide +kernel)

end MUL
