import Verif.Spec.Readings
import Verif.Spec.StepByStep
import Verif.Props.Eval
import Verif.Props.EvalCtx
import Verif.Props.Counts
import Verif.Proofs.EqSafe
/-!
# C99: one result for every choice
-/

set_option linter.unusedSectionVars false

namespace MUL
open Out Spec

section
variable {F : Type} [FNum F]

theorem readingsAll_eq (c : Context F) (l : List (AST F)) : readingsAll c l = l.map (readings c) := by
  induction l with
  | nil => rfl
  | cons a l ih => rw [readingsAll, ih, List.map_cons]

theorem readingsRows_eq (c : Context F) (m : List (List (AST F))) : readingsRows c m = m.map fun r => choices (r.map (readings c)) := by
  induction m with
  | nil => rfl
  | cons a l ih => rw [readingsRows, ih, List.map_cons, readingsAll_eq]

theorem mapM_total {ε α β : Type} {l : List α} {f : α → Out ε β} (h : ∀ a ∈ l, ∃ b, f a = .ok b) : ∃ r, l.mapM f = .ok r := by
  induction l with
  | nil => exact ⟨[], rfl⟩
  | cons a l ih =>
    obtain ⟨b, hb⟩ := h a (by simp)
    obtain ⟨r, hr⟩ := ih fun a ha => h a (by simp [ha])
    rw [List.mapM_cons, hb, ok_bind, hr]
    exact ⟨_, rfl⟩

/-- The tree has the value `v`, and only this, in every context. -/
def OneResult (cfg : Cfg) (t : AST F) (v : Value F) : Prop := ∃ N, ∀ m ≥ N, ∀ (c : Context F) (w : Str), evalRec cfg m t c w = .ok [v]

theorem choices_forall₂_both {α β : Type} {R : α → β → Prop} {A : List (List α)} {B : List (List β)} (h : List.Forall₂ (List.Forall₂ R) A B) :
    List.Forall₂ (List.Forall₂ R) (choices A) (choices B) := by
  induction h with
  | nil => exact .cons .nil .nil
  | cons h _ ih =>
    simp only [choices]
    refine List.rel_flatMap h fun a b hab => ?_
    rw [List.forall₂_map_left_iff, List.forall₂_map_right_iff]
    exact ih.imp fun x y hxy => .cons hab hxy

theorem allScalars_ok {e : EvalError} {vs : List (Value F)} {ss : List F} (h : allScalars e vs = .ok ss) : vs = ss.map .scalar := by
  unfold allScalars at h
  have := mapM_eq_ok.1 h
  clear h
  induction this with
  | nil => rfl
  | @cons v s _ _ h _ ih =>
    rw [ih, List.map_cons]
    cases v <;> simp [Value.getScalar] at h
    rw [h]

theorem forall₂_comp {α β γ : Type} {R : α → β → Prop} {S : β → γ → Prop} {a : List α} {b : List β} {c : List γ} (h : List.Forall₂ R a b)
    (h' : List.Forall₂ S b c) : List.Forall₂ (fun x z => ∃ y, R x y ∧ S y z) a c := by
  induction h generalizing c with
  | nil => cases h'; exact .nil
  | cons h _ ih =>
    cases h' with
    | cons h1 h2 => exact .cons ⟨_, h, h1⟩ (ih h2)

theorem oneResult_budget {cfg : Cfg} {ts : List (AST F)} {ss : List F} (h : List.Forall₂ (fun t s => OneResult cfg t (.scalar s)) ts ss) (e : EvalError) :
    ∃ N, ∀ m ≥ N, ∀ (c : Context F) (w : Str), (ts.mapM fun i => do
      let values ← evalRec cfg m i c w
      allScalars e values) = .ok (ss.map fun x => [x]) := by
  induction h with
  | nil => exact ⟨0, fun m _ c w => rfl⟩
  | cons h _ ih =>
    obtain ⟨N, hN⟩ := ih
    obtain ⟨M, hM⟩ := h
    refine ⟨max N M, fun m hm c w => ?_⟩
    rw [List.mapM_cons, hM m (by omega), ok_bind, hN m (by omega)]
    rfl

theorem oneResult_vector {cfg : Cfg} {ts : List (AST F)} {ss : List F} (h : List.Forall₂ (fun t s => OneResult cfg t (.scalar s)) ts ss) :
    OneResult cfg (.vector ts) (.vector ss) := by
  obtain ⟨N, hN⟩ := oneResult_budget h .nonScalarInVector
  refine ⟨N + 1, fun m hm c w => ?_⟩
  obtain ⟨m, rfl⟩ : ∃ k, m = k + 1 := ⟨m - 1, by omega⟩
  rw [evalRec.eq_def]
  simp only
  rw [hN m (by omega), ok_bind, cartProd_eq_choices, choices_singletons]
  rfl

theorem oneResult_matrix {cfg : Cfg} {ts : List (List (AST F))} {ss : List (List F)}
    (h : List.Forall₂ (List.Forall₂ (fun t s => OneResult cfg t (.scalar s))) ts ss) : OneResult cfg (.matrix ts) (.matrix ss) := by
  have : ∃ N, ∀ m ≥ N, ∀ (c : Context F) (w : Str), (ts.mapM fun l => l.mapM fun i => do
      let values ← evalRec cfg m i c w
      allScalars .nonScalarInMatrix values) = .ok (ss.map fun r => r.map fun x => [x]) := by
    induction h with
    | nil => exact ⟨0, fun m _ c w => rfl⟩
    | cons h _ ih =>
      obtain ⟨N, hN⟩ := ih
      obtain ⟨M, hM⟩ := oneResult_budget h .nonScalarInMatrix
      refine ⟨max N M, fun m hm c w => ?_⟩
      rw [List.mapM_cons, hM m (by omega), ok_bind, hN m (by omega)]
      rfl
  obtain ⟨N, hN⟩ := this
  refine ⟨N + 1, fun m hm c w => ?_⟩
  obtain ⟨m, rfl⟩ : ∃ k, m = k + 1 := ⟨m - 1, by omega⟩
  rw [evalRec.eq_def]
  simp only
  rw [hN m (by omega), ok_bind, List.map_map]
  have h1 : (cartProd ∘ fun r : List F => r.map fun x => [x]) = fun r => [r] := by
    funext r
    simp only [Function.comp, cartProd_eq_choices, choices_singletons]
  rw [h1, cartProd_eq_choices, choices_singletons]
  rfl

theorem oneResult_op {cfg : Cfg} {op : SimpleOp} {l r : AST F} {i j v : Value F} (hl : OneResult cfg l i) (hr : OneResult cfg r j)
    (h : applyOp op i j = .ok [v]) : OneResult cfg (.simple op l r) v := by
  obtain ⟨N, hN⟩ := hl
  obtain ⟨M, hM⟩ := hr
  refine ⟨max N M + 1, fun m hm c w => ?_⟩
  obtain ⟨m, rfl⟩ : ∃ k, m = k + 1 := ⟨m - 1, by omega⟩
  rw [evalRec.eq_def]
  simp only
  rw [hN m (by omega), ok_bind, hM m (by omega), ok_bind, applyAll, List.mapM_cons, List.mapM_cons, h]
  rfl

theorem oneResult_value (cfg : Cfg) (v : Value F) : OneResult cfg (AST.fromValue v) v := by
  cases v with
  | scalar s =>
    refine ⟨1, fun m hm c w => ?_⟩
    obtain ⟨m, rfl⟩ : ∃ k, m = k + 1 := ⟨m - 1, by omega⟩
    rfl
  | vector v =>
    refine oneResult_vector ?_
    rw [List.forall₂_map_left_iff]
    refine List.forall₂_same.2 fun s _ => ⟨1, fun m hm c w => ?_⟩
    obtain ⟨m, rfl⟩ : ∃ k, m = k + 1 := ⟨m - 1, by omega⟩
    rfl
  | matrix m =>
    refine oneResult_matrix ?_
    rw [List.forall₂_map_left_iff]
    refine List.forall₂_same.2 fun r _ => ?_
    rw [List.forall₂_map_left_iff]
    refine List.forall₂_same.2 fun s _ => ⟨1, fun m hm c w => ?_⟩
    obtain ⟨m, rfl⟩ : ∃ k, m = k + 1 := ⟨m - 1, by omega⟩
    rfl

theorem applyOp_one {op : SimpleOp} (h : op ≠ .addSub) {i j : Value F} {r : List (Value F)} (hr : applyOp op i j = .ok r) : ∃ v, r = [v] := by
  have := applyOp_count op h i j
  rw [hr] at this
  obtain ⟨h1, h2⟩ : Within 1 1 r := this
  exact List.length_eq_one_iff.1 (by omega)

theorem signs_of_ne {op : SimpleOp} (h : op ≠ .addSub) : signs op = [op] := by
  cases op <;> first | rfl | exact absurd rfl h

theorem oneResult_pair {cfg : Cfg} (op : SimpleOp) {l r : AST F} {i j : Value F} {vs : List (Value F)} (hl : OneResult cfg l i) (hr : OneResult cfg r j)
    (h : applyOp op i j = .ok vs) :
    List.Forall₂ (OneResult cfg) ((signs op).map fun o => .simple o l r) vs := by
  by_cases hop : op = .addSub
  · subst hop
    simp only [applyOp] at h
    obtain ⟨a, ha, h⟩ := bind_eq_ok.1 h
    obtain ⟨b, hb, h⟩ := bind_eq_ok.1 h
    cases h
    refine .cons (oneResult_op hl hr ?_) (.cons (oneResult_op hl hr ?_) .nil)
    · simp only [applyOp]; rw [ha]; rfl
    · simp only [applyOp]; rw [hb]; rfl
  · obtain ⟨v, rfl⟩ := applyOp_one hop h
    rw [signs_of_ne hop]
    exact .cons (oneResult_op hl hr h) .nil

/-- The values are those of the readings. -/
theorem readings_forward (cfg : Cfg) (n : Nat) {V : Str → Prop} {t : AST F} (hd : Direct V t) (c : Context F) (w : Str) {vs : List (Value F)}
    (h : evalRec cfg n t c w = .ok vs) : List.Forall₂ (OneResult cfg) (readings c t) vs := by
  induction n generalizing t vs with
  | zero => cases h
  | succ n ih =>
    have hfield : ∀ (e : EvalError) (v : List (AST F)) (fs : List (List F)), (∀ a ∈ v, Direct V a) →
        (v.mapM fun i => do
          let values ← evalRec cfg n i c w
          allScalars e values) = .ok fs →
        List.Forall₂ (List.Forall₂ fun t s => OneResult cfg t (.scalar s)) (v.map (readings c)) fs := by
      intro e v fs hv hfs
      rw [mapM_eq_ok] at hfs
      rw [List.forall₂_map_left_iff]
      induction hfs with
      | nil => exact .nil
      | @cons a b l l' h1 _ ih' =>
        refine .cons ?_ (ih' fun a ha => hv a (by simp [ha]))
        obtain ⟨xs, h2, h3⟩ := bind_eq_ok.1 h1
        have := ih (hv a (by simp)) h2
        rw [allScalars_ok h3, List.forall₂_map_right_iff] at this
        exact this
    cases hd with
    | scalar s => cases h; exact .cons (oneResult_value cfg (.scalar s)) .nil
    | vector v hv =>
      rw [evalRec.eq_def] at h
      simp only at h
      obtain ⟨fs, h1, h2⟩ := bind_eq_ok.1 h
      cases h2
      simp only [readings]
      rw [readingsAll_eq, cartProd_eq_choices, List.forall₂_map_left_iff, List.forall₂_map_right_iff]
      exact (choices_forall₂_both (hfield _ v fs hv h1)).imp fun a b hab => oneResult_vector hab
    | matrix m hm =>
      rw [evalRec.eq_def] at h
      simp only at h
      obtain ⟨fs, h1, h2⟩ := bind_eq_ok.1 h
      cases h2
      simp only [readings]
      rw [readingsRows_eq, cartProd_eq_choices, List.forall₂_map_left_iff, List.forall₂_map_right_iff]
      refine (choices_forall₂_both (R := List.Forall₂ fun t s => OneResult cfg t (.scalar s)) ?_).imp fun a b hab => oneResult_matrix hab
      rw [List.forall₂_map_left_iff, List.forall₂_map_right_iff]
      rw [mapM_eq_ok] at h1
      clear h
      induction h1 with
      | nil => exact .nil
      | @cons a b l l' h1 _ ih' =>
        refine .cons ?_ (ih' fun r hr => hm r (by simp [hr]))
        rw [cartProd_eq_choices]
        exact choices_forall₂_both (hfield _ a b (hm a (by simp)) h1)
    | list l hl =>
      rw [evalRec.eq_def] at h
      simp only at h
      obtain ⟨fs, h1, h2⟩ := bind_eq_ok.1 h
      cases h2
      simp only [readings]
      rw [readingsAll_eq]
      refine List.rel_flatten ?_
      rw [List.forall₂_map_left_iff]
      rw [mapM_eq_ok] at h1
      clear h
      induction h1 with
      | nil => exact .nil
      | @cons a b l l' h1 _ ih' => exact .cons (ih (hl a (by simp)) h1) (ih' fun a ha => hl a (by simp [ha]))
    | «variable» y hy =>
      rw [evalRec.eq_def] at h
      simp only at h
      simp only [readings]
      cases hf : c.findVar y with
      | none => rw [hf] at h; cases h
      | some us =>
        rw [hf] at h
        cases h
        rw [Option.getD_some, List.forall₂_map_left_iff]
        exact List.forall₂_same.2 fun v _ => oneResult_value cfg v
    | simple op l r hl hr =>
      rw [evalRec.eq_def] at h
      simp only at h
      obtain ⟨lv, h1, h⟩ := bind_eq_ok.1 h
      obtain ⟨rv, h2, h⟩ := bind_eq_ok.1 h
      have il := ih hl h1
      have ir := ih hr h2
      unfold applyAll at h
      obtain ⟨res, h3, h⟩ := bind_eq_ok.1 h
      cases h
      rw [mapM_eq_ok] at h3
      simp only [readings]
      rw [List.flatMap_def]
      refine List.rel_flatten ?_
      rw [List.forall₂_map_left_iff]
      refine (forall₂_comp il h3).imp ?_
      rintro l' q ⟨i, hi, hq⟩
      obtain ⟨rr, h4, h5⟩ := bind_eq_ok.1 hq
      cases h5
      rw [mapM_eq_ok] at h4
      rw [List.flatMap_def]
      refine List.rel_flatten ?_
      rw [List.forall₂_map_left_iff]
      refine (forall₂_comp ir h4).imp ?_
      rintro r' q ⟨j, hj, hq⟩
      exact oneResult_pair op hi hj hq

/-! ## From the readings to the expression -/

/-- No variables, no lists, no `±`. -/
inductive Closed : AST F → Prop
  | scalar (s : F) : Closed (.scalar s)
  | vector (v : List (AST F)) : (∀ a ∈ v, Closed a) → Closed (.vector v)
  | matrix (m : List (List (AST F))) : (∀ l ∈ m, ∀ a ∈ l, Closed a) → Closed (.matrix m)
  | simple (op : SimpleOp) (l r : AST F) : op ≠ .addSub → Closed l → Closed r → Closed (.simple op l r)

theorem Closed.direct {t : AST F} (h : Closed t) : Direct (fun _ => False) t := by
  induction h with
  | scalar s => exact .scalar s
  | vector v _ ih => exact .vector v ih
  | matrix m _ ih => exact .matrix m ih
  | simple op l r _ _ _ ihl ihr => exact .simple op l r ihl ihr

theorem Closed.readings_eq {t : AST F} (h : Closed t) (c : Context F) : readings c t = [t] := by
  have hall : ∀ v : List (AST F), (∀ a ∈ v, readings c a = [a]) → choices (v.map (readings c)) = [v] := by
    intro v hv
    rw [List.map_congr_left hv, choices_singletons]
  induction h with
  | scalar s => rfl
  | vector v _ ih =>
    simp only [readings, readingsAll_eq]
    rw [hall v ih]
    rfl
  | matrix m _ ih =>
    simp only [readings, readingsRows_eq]
    rw [List.map_congr_left (g := fun r => [r]) fun r hr => hall r (ih r hr), choices_singletons]
    rfl
  | simple op l r hop _ _ ihl ihr =>
    simp only [readings, ihl, ihr, signs_of_ne hop]
    rfl

theorem Closed.oneResult {cfg : Cfg} {n : Nat} {t : AST F} (h : Closed t) {c : Context F} {w : Str} {vs : List (Value F)}
    (he : evalRec cfg n t c w = .ok vs) : ∃ v, vs = [v] ∧ OneResult cfg t v := by
  have := readings_forward cfg n h.direct c w he
  rw [h.readings_eq] at this
  cases this with
  | cons h1 h2 => cases h2; exact ⟨_, rfl, h1⟩

theorem closed_value (v : Value F) : Closed (AST.fromValue v) := by
  cases v with
  | scalar s => exact .scalar s
  | vector v =>
    refine .vector _ fun a ha => ?_
    obtain ⟨s, _, rfl⟩ := List.mem_map.1 ha
    exact .scalar s
  | matrix m =>
    refine .matrix _ fun l hl a ha => ?_
    obtain ⟨r, _, rfl⟩ := List.mem_map.1 hl
    obtain ⟨s, _, rfl⟩ := List.mem_map.1 ha
    exact .scalar s

theorem closed_reading {V : Str → Prop} {t : AST F} (h : Direct V t) (c : Context F) : ∀ t' ∈ readings c t, Closed t' := by
  induction h with
  | scalar s =>
    intro t' ht
    simp only [readings, List.mem_singleton] at ht
    subst ht
    exact .scalar s
  | vector v _ ih =>
    intro t' ht
    simp only [readings, readingsAll_eq, List.mem_map] at ht
    obtain ⟨p, hp, rfl⟩ := ht
    refine .vector p (choices_forall hp fun l hl a ha => ?_)
    obtain ⟨b, hb, rfl⟩ := List.mem_map.1 hl
    exact ih b hb a ha
  | matrix m _ ih =>
    intro t' ht
    simp only [readings, readingsRows_eq, List.mem_map] at ht
    obtain ⟨p, hp, rfl⟩ := ht
    refine .matrix p (choices_forall hp fun l hl r hr => ?_)
    obtain ⟨b, hb, rfl⟩ := List.mem_map.1 hl
    refine choices_forall hr fun l hl a ha => ?_
    obtain ⟨b', hb', rfl⟩ := List.mem_map.1 hl
    exact ih b hb b' hb' a ha
  | list l _ ih =>
    intro t' ht
    simp only [readings, readingsAll_eq, List.mem_flatten, List.mem_map] at ht
    obtain ⟨_, ⟨b, hb, rfl⟩, h⟩ := ht
    exact ih b hb t' h
  | «variable» n _ =>
    intro t' ht
    simp only [readings, List.mem_map] at ht
    obtain ⟨v, _, rfl⟩ := ht
    exact closed_value v
  | simple op l r _ _ ihl ihr =>
    intro t' ht
    simp only [readings, List.mem_flatMap, List.mem_map] at ht
    obtain ⟨l', hl, r', hr, o, ho, rfl⟩ := ht
    refine .simple o l' r' ?_ (ihl l' hl) (ihr r' hr)
    rintro rfl
    cases op <;> simp [signs] at ho

theorem Spec.Offered.direct {c : Context F} {t : AST F} (h : Offered c t) : Direct (fun _ => True) t := by
  induction h with
  | scalar s => exact .scalar s
  | vector v _ ih => exact .vector v ih
  | matrix m _ ih => exact .matrix m ih
  | list l _ _ ih => exact .list l ih
  | «variable» n => exact .variable n trivial
  | simple op l r _ _ ihl ihr => exact .simple op l r ihl ihr

theorem Spec.Offered.ne_nil {c : Context F} {t : AST F} (h : Offered c t) : readings c t ≠ [] := by
  induction h with
  | scalar s => simp [readings]
  | vector v _ ih =>
    simp only [readings, readingsAll_eq, ne_eq, List.map_eq_nil_iff]
    refine choices_ne_nil fun l hl => ?_
    obtain ⟨a, ha, rfl⟩ := List.mem_map.1 hl
    exact ih a ha
  | matrix m _ ih =>
    simp only [readings, readingsRows_eq, ne_eq, List.map_eq_nil_iff]
    refine choices_ne_nil fun l hl => ?_
    obtain ⟨r, hr, rfl⟩ := List.mem_map.1 hl
    refine choices_ne_nil fun l hl => ?_
    obtain ⟨a, ha, rfl⟩ := List.mem_map.1 hl
    exact ih r hr a ha
  | list l hne _ ih =>
    simp only [readings, readingsAll_eq, ne_eq, List.flatten_eq_nil_iff, List.mem_map, forall_exists_index, and_imp, forall_apply_eq_imp_iff₂]
    obtain ⟨a, ha⟩ := List.exists_mem_of_ne_nil l hne
    exact fun h => ih a ha (h a ha)
  | «variable» n vs hv hne => simp [readings, hv, hne]
  | simple op l r _ _ ihl ihr =>
    obtain ⟨l', hl⟩ := List.exists_mem_of_ne_nil _ ihl
    obtain ⟨r', hr⟩ := List.exists_mem_of_ne_nil _ ihr
    have : ∃ o, o ∈ signs op := by cases op <;> simp [signs]
    obtain ⟨o, ho⟩ := this
    refine List.ne_nil_of_mem (a := .simple o l' r') ?_
    simp only [readings, List.mem_flatMap, List.mem_map]
    exact ⟨l', hl, r', hr, o, ho, rfl⟩

theorem choices_through {α : Type} {A : List (List α)} (hne : ∀ l ∈ A, l ≠ []) {l : List α} (hl : l ∈ A) {a : α} (ha : a ∈ l) :
    ∃ p ∈ choices A, a ∈ p := by
  induction A with
  | nil => cases hl
  | cons x A ih =>
    simp only [choices, List.mem_flatMap, List.mem_map]
    rcases List.mem_cons.1 hl with rfl | hl
    · obtain ⟨q, hq⟩ := List.exists_mem_of_ne_nil _ (choices_ne_nil (l := A) fun l hl => hne l (by simp [hl]))
      exact ⟨a :: q, ⟨a, ha, q, hq, rfl⟩, by simp⟩
    · obtain ⟨p, hp, hap⟩ := ih (fun l hl => hne l (by simp [hl])) hl
      obtain ⟨b, hb⟩ := List.exists_mem_of_ne_nil x (hne x (by simp))
      exact ⟨b :: p, ⟨b, hb, p, hp, rfl⟩, by simp [hap]⟩

/-- If every reading has a value then so has the expression. -/
theorem readings_backward (cfg : Cfg) {c : Context F} {t : AST F} (h : Offered c t) (hr : ∀ t' ∈ readings c t, ∃ v, OneResult cfg t' v) :
    ∃ N, ∀ m ≥ N, ∀ w, ∃ vs, evalRec cfg m t c w = .ok vs := by
  have scal : ∀ (e : EvalError) (m : Nat) (w : Str) (a : AST F), Offered c a → (∃ vs, evalRec cfg m a c w = .ok vs) →
      (∀ a' ∈ readings c a, ∃ s, OneResult cfg a' (.scalar s)) → ∃ ss, (do
        let values ← evalRec cfg m a c w
        allScalars e values) = .ok ss := by
    rintro e m w a ha ⟨vs, hvs⟩ hs
    rw [hvs, ok_bind]
    have hf := readings_forward cfg m ha.direct c w hvs
    have : ∀ v ∈ vs, ∃ s, v = .scalar s := by
      intro v hv
      obtain ⟨i, hi, rfl⟩ := List.getElem_of_mem hv
      have hl := hf.length_eq
      obtain ⟨N1, h1⟩ := List.Forall₂.get hf (by omega) hi
      obtain ⟨s, N2, h2⟩ := hs ((readings c a)[i]'(by omega)) (List.getElem_mem _)
      have := (h1 (max N1 N2) (by omega) c []).symm.trans (h2 (max N1 N2) (by omega) c [])
      simp only [ok.injEq, List.cons.injEq, and_true] at this
      exact ⟨s, this⟩
    clear hf hvs
    unfold allScalars
    induction vs with
    | nil => exact ⟨[], rfl⟩
    | cons v vs ih =>
      obtain ⟨s, rfl⟩ := this v (by simp)
      obtain ⟨ss, h⟩ := ih fun v hv => this v (by simp [hv])
      rw [List.mapM_cons, h]
      exact ⟨_, rfl⟩
  have fields : ∀ (e : EvalError) (v : List (AST F)), (∀ a ∈ v, Offered c a) →
      (∀ a ∈ v, (∀ a' ∈ readings c a, ∃ v, OneResult cfg a' v) → ∃ N, ∀ m ≥ N, ∀ w, ∃ vs, evalRec cfg m a c w = .ok vs) →
      (∀ a ∈ v, ∀ a' ∈ readings c a, ∃ s, OneResult cfg a' (.scalar s)) → ∃ N, ∀ m ≥ N, ∀ w, ∃ fs, (v.mapM fun i => do
          let values ← evalRec cfg m i c w
          allScalars e values) = .ok fs := by
    intro e v hv ih hs
    induction v with
    | nil => exact ⟨0, fun m _ w => ⟨[], rfl⟩⟩
    | cons a v ih' =>
      obtain ⟨N, hN⟩ := ih' (fun b hb => hv b (by simp [hb])) (fun b hb => ih b (by simp [hb])) (fun b hb => hs b (by simp [hb]))
      obtain ⟨M, hM⟩ := ih a (by simp) fun a' ha' => (hs a (by simp) a' ha').imp' _ fun s h => h
      refine ⟨max N M, fun m hm w => ?_⟩
      obtain ⟨fs, h1⟩ := hN m (by omega) w
      obtain ⟨ss, h2⟩ := scal e m w a (hv a (by simp)) (hM m (by omega) w) (hs a (by simp))
      rw [List.mapM_cons, h2, ok_bind, h1]
      exact ⟨_, rfl⟩
  have inv : ∀ (e : EvalError) (m : Nat) (w : Str) (p : List (AST F)) (fs : List (List F)), (∀ a ∈ p, Closed a) → (p.mapM fun i => do
      let values ← evalRec cfg m i c w
      allScalars e values) = .ok fs → ∀ a ∈ p, ∃ s, OneResult cfg a (.scalar s) := by
    intro e m w p fs hp hfs a ha
    rw [mapM_eq_ok] at hfs
    obtain ⟨i, hi, rfl⟩ := List.getElem_of_mem ha
    have := List.Forall₂.get hfs hi (by rw [← hfs.length_eq]; exact hi)
    obtain ⟨vs, h1, h2⟩ := bind_eq_ok.1 this
    obtain ⟨v, rfl, hy⟩ := (hp _ ha).oneResult h1
    have h3 := allScalars_ok h2
    match hg : fs.get ⟨i, by rw [← hfs.length_eq]; exact hi⟩, h3 with
    | [], h3 => cases h3
    | s :: q, h3 =>
      simp only [List.map_cons, List.cons.injEq] at h3
      rw [h3.1] at hy
      exact ⟨s, hy⟩
  induction h with
  | scalar s => exact ⟨1, fun m hm w => ⟨_, by obtain ⟨m, rfl⟩ : ∃ k, m = k + 1 := ⟨m - 1, by omega⟩; rfl⟩⟩
  | vector v hv ih =>
    have key : ∀ a ∈ v, ∀ a' ∈ readings c a, ∃ s, OneResult cfg a' (.scalar s) := by
      intro a ha a' ha'
      obtain ⟨p, hp, hap⟩ := choices_through (A := v.map (readings c)) (fun l hl => by
        obtain ⟨b, hb, rfl⟩ := List.mem_map.1 hl
        exact (hv b hb).ne_nil) (List.mem_map_of_mem ha) ha'
      obtain ⟨u, N, hN⟩ := hr (.vector p) (by
        simp only [readings, readingsAll_eq]
        exact List.mem_map_of_mem hp)
      have h1 := hN (N + 1) (by omega) c []
      rw [evalRec.eq_def] at h1
      simp only at h1
      obtain ⟨fs, h2, _⟩ := bind_eq_ok.1 h1
      refine inv _ N [] p fs (choices_forall hp fun l hl a ha => ?_) h2 a' hap
      obtain ⟨b, hb, rfl⟩ := List.mem_map.1 hl
      exact closed_reading (hv b hb).direct c a ha
    obtain ⟨N, hN⟩ := fields .nonScalarInVector v hv ih key
    refine ⟨N + 1, fun m hm w => ?_⟩
    obtain ⟨m, rfl⟩ : ∃ k, m = k + 1 := ⟨m - 1, by omega⟩
    obtain ⟨fs, h1⟩ := hN m (by omega) w
    rw [evalRec.eq_def]
    simp only
    rw [h1]
    exact ⟨_, rfl⟩
  | matrix m hm ih =>
    have hne : ∀ r ∈ m, ∀ l ∈ r.map (readings c), l ≠ [] := by
      intro r hr' l hl
      obtain ⟨b, hb, rfl⟩ := List.mem_map.1 hl
      exact (hm r hr' b hb).ne_nil
    have key : ∀ r ∈ m, ∀ a ∈ r, ∀ a' ∈ readings c a, ∃ s, OneResult cfg a' (.scalar s) := by
      intro r hr' a ha a' ha'
      obtain ⟨q, hq, haq⟩ := choices_through (hne r hr') (List.mem_map_of_mem ha) ha'
      obtain ⟨p, hp, hqp⟩ := choices_through (A := m.map fun r => choices (r.map (readings c))) (fun l hl => by
        obtain ⟨b, hb, rfl⟩ := List.mem_map.1 hl
        exact choices_ne_nil (hne b hb)) (List.mem_map_of_mem hr') hq
      obtain ⟨u, N, hN⟩ := hr (.matrix p) (by
        simp only [readings, readingsRows_eq]
        exact List.mem_map_of_mem hp)
      have h1 := hN (N + 1) (by omega) c []
      rw [evalRec.eq_def] at h1
      simp only at h1
      obtain ⟨fs, h2, _⟩ := bind_eq_ok.1 h1
      rw [mapM_eq_ok] at h2
      obtain ⟨i, hi, rfl⟩ := List.getElem_of_mem hqp
      have h3 := List.Forall₂.get h2 hi (by rw [← h2.length_eq]; exact hi)
      refine inv _ N [] p[i] _ (choices_forall hq fun l hl a ha => ?_) h3 a' haq
      obtain ⟨b, hb, rfl⟩ := List.mem_map.1 hl
      exact closed_reading (hm r hr' b hb).direct c a ha
    have : ∃ N, ∀ k ≥ N, ∀ w, ∃ fs, (m.mapM fun l => l.mapM fun i => do
          let values ← evalRec cfg k i c w
          allScalars .nonScalarInMatrix values) = .ok fs := by
      clear hr hne
      induction m with
      | nil => exact ⟨0, fun m _ w => ⟨[], rfl⟩⟩
      | cons a v ih' =>
        obtain ⟨N, hN⟩ := ih' (fun b hb => hm b (by simp [hb])) (fun b hb => ih b (by simp [hb])) (fun b hb => key b (by simp [hb]))
        obtain ⟨M, hM⟩ := fields .nonScalarInMatrix a (hm a (by simp)) (ih a (by simp)) (key a (by simp))
        refine ⟨max N M, fun m hm w => ?_⟩
        obtain ⟨fs, h1⟩ := hN m (by omega) w
        obtain ⟨ss, h2⟩ := hM m (by omega) w
        rw [List.mapM_cons, h2, ok_bind, h1]
        exact ⟨_, rfl⟩
    obtain ⟨N, hN⟩ := this
    refine ⟨N + 1, fun m hm w => ?_⟩
    obtain ⟨m, rfl⟩ : ∃ k, m = k + 1 := ⟨m - 1, by omega⟩
    obtain ⟨fs, h1⟩ := hN m (by omega) w
    rw [evalRec.eq_def]
    simp only
    rw [h1]
    exact ⟨_, rfl⟩
  | list l hne hl ih =>
    have key : ∀ a ∈ l, ∃ N, ∀ m ≥ N, ∀ w, ∃ vs, evalRec cfg m a c w = .ok vs := by
      intro a ha
      refine ih a ha fun a' ha' => hr a' ?_
      simp only [readings, readingsAll_eq, List.mem_flatten, List.mem_map]
      exact ⟨_, ⟨a, ha, rfl⟩, ha'⟩
    have : ∃ N, ∀ m ≥ N, ∀ w, ∃ fs, (l.mapM fun e => evalRec cfg m e c w) = .ok fs := by
      clear hr ih hne
      induction l with
      | nil => exact ⟨0, fun m _ w => ⟨[], rfl⟩⟩
      | cons a l ih' =>
        obtain ⟨N, hN⟩ := ih' (fun b hb => hl b (by simp [hb])) (fun b hb => key b (by simp [hb]))
        obtain ⟨M, hM⟩ := key a (by simp)
        refine ⟨max N M, fun m hm w => ?_⟩
        obtain ⟨fs, h1⟩ := hN m (by omega) w
        obtain ⟨ss, h2⟩ := hM m (by omega) w
        rw [List.mapM_cons, h2, ok_bind, h1]
        exact ⟨_, rfl⟩
    obtain ⟨N, hN⟩ := this
    refine ⟨N + 1, fun m hm w => ?_⟩
    obtain ⟨m, rfl⟩ : ∃ k, m = k + 1 := ⟨m - 1, by omega⟩
    obtain ⟨fs, h1⟩ := hN m (by omega) w
    rw [evalRec.eq_def]
    simp only
    rw [h1]
    exact ⟨_, rfl⟩
  | «variable» n vs hv _ =>
    refine ⟨1, fun m hm w => ⟨vs, ?_⟩⟩
    obtain ⟨m, rfl⟩ : ∃ k, m = k + 1 := ⟨m - 1, by omega⟩
    rw [evalRec.eq_def]
    simp only [hv]
  | simple op l r hl hr' ihl ihr =>
    have pair : ∀ l' ∈ readings c l, ∀ r' ∈ readings c r, ∃ i j, OneResult cfg l' i ∧ OneResult cfg r' j ∧ ∃ vs, applyOp op i j = .ok vs := by
      intro l' hl' r' hr''
      have hy : ∀ o ∈ signs op, ∃ i j, OneResult cfg l' i ∧ OneResult cfg r' j ∧ ∃ v, applyOp o i j = .ok [v] := by
        intro o ho
        obtain ⟨v, N, hN⟩ := hr (.simple o l' r') (by
          simp only [readings, List.mem_flatMap, List.mem_map]
          exact ⟨l', hl', r', hr'', o, ho, rfl⟩)
        have h1 := hN (N + 1) (by omega) c []
        rw [evalRec.eq_def] at h1
        simp only at h1
        obtain ⟨lv, h2, h1⟩ := bind_eq_ok.1 h1
        obtain ⟨rv, h3, h1⟩ := bind_eq_ok.1 h1
        obtain ⟨i, rfl, hi⟩ := (closed_reading hl.direct c l' hl').oneResult h2
        obtain ⟨j, rfl, hj⟩ := (closed_reading hr'.direct c r' hr'').oneResult h3
        refine ⟨i, j, hi, hj, v, ?_⟩
        rw [applyAll, List.mapM_cons, List.mapM_cons] at h1
        cases ha : applyOp o i j with
        | ok a =>
          rw [ha] at h1
          have h4 : (Out.ok ([[a].flatten].flatten) : Out EvalError (List (Value F))) = .ok [v] := h1
          simp at h4
          rw [h4]
        | err e => rw [ha] at h1; exact absurd h1 (by intro h; cases h)
        | panic => rw [ha] at h1; exact absurd h1 (by intro h; cases h)
        | timeout => rw [ha] at h1; exact absurd h1 (by intro h; cases h)
      by_cases hop : op = .addSub
      · subst hop
        obtain ⟨i, j, ⟨Ni, hi⟩, ⟨Nj, hj⟩, v, h1⟩ := hy .add (by simp [signs])
        obtain ⟨i', j', ⟨Ni', hi'⟩, ⟨Nj', hj'⟩, v', h2⟩ := hy .sub (by simp [signs])
        have e1 := (hi (max Ni Ni') (by omega) c []).symm.trans (hi' (max Ni Ni') (by omega) c [])
        have e2 := (hj (max Nj Nj') (by omega) c []).symm.trans (hj' (max Nj Nj') (by omega) c [])
        simp only [ok.injEq, List.cons.injEq, and_true] at e1 e2
        subst e1
        subst e2
        refine ⟨i, j, ⟨Ni, hi⟩, ⟨Nj, hj⟩, [v, v'], ?_⟩
        simp only [applyOp] at h1 h2 ⊢
        obtain ⟨a, ha, h⟩ := bind_eq_ok.1 h1
        obtain ⟨b, hb, h'⟩ := bind_eq_ok.1 h2
        cases h
        cases h'
        rw [ha, hb]
        rfl
      · obtain ⟨i, j, hi, hj, v, h1⟩ := hy op (by simp [signs_of_ne hop])
        exact ⟨i, j, hi, hj, [v], h1⟩
    obtain ⟨l0, hl0⟩ := List.exists_mem_of_ne_nil _ hl.ne_nil
    obtain ⟨r0, hr0⟩ := List.exists_mem_of_ne_nil _ hr'.ne_nil
    obtain ⟨N, hN⟩ := ihl fun l' hl' => by obtain ⟨i, j, hi, _⟩ := pair l' hl' r0 hr0; exact ⟨i, hi⟩
    obtain ⟨M, hM⟩ := ihr fun r' hr'' => by obtain ⟨i, j, _, hj, _⟩ := pair l0 hl0 r' hr''; exact ⟨j, hj⟩
    refine ⟨max N M + 1, fun m hm w => ?_⟩
    obtain ⟨m, rfl⟩ : ∃ k, m = k + 1 := ⟨m - 1, by omega⟩
    obtain ⟨lv, h1⟩ := hN m (by omega) w
    obtain ⟨rv, h2⟩ := hM m (by omega) w
    rw [evalRec.eq_def]
    simp only
    rw [h1, ok_bind, h2, ok_bind]
    have fl := readings_forward cfg m hl.direct c w h1
    have fr := readings_forward cfg m hr'.direct c w h2
    have same : ∀ {t : AST F} {u v : Value F}, OneResult cfg t u → OneResult cfg t v → u = v := by
      rintro t u v ⟨N1, h1⟩ ⟨N2, h2⟩
      have := (h1 (max N1 N2) (by omega) c []).symm.trans (h2 (max N1 N2) (by omega) c [])
      simpa only [ok.injEq, List.cons.injEq, and_true] using this
    have ok : ∀ i ∈ lv, ∀ j ∈ rv, ∃ vs, applyOp op i j = .ok vs := by
      intro i hi j hj
      obtain ⟨a, ha, rfl⟩ := List.getElem_of_mem hi
      obtain ⟨b, hb, rfl⟩ := List.getElem_of_mem hj
      have ll := fl.length_eq
      have lr := fr.length_eq
      obtain ⟨i', j', y1, y2, h⟩ := pair ((readings c l)[a]'(by omega)) (List.getElem_mem _) ((readings c r)[b]'(by omega)) (List.getElem_mem _)
      have z1 := List.Forall₂.get fl (by omega) ha
      have z2 := List.Forall₂.get fr (by omega) hb
      rw [same y1 z1, same y2 z2] at h
      exact h
    have row : ∀ i ∈ lv, ∃ rr, (rv.mapM fun j => applyOp op i j) = .ok rr := fun i hi => mapM_total fun j hj => ok i hi j hj
    unfold applyAll
    obtain ⟨res, hres⟩ := mapM_total (l := lv) (f := fun i => do
      let r ← rv.mapM fun j => applyOp op i j
      .ok r.flatten) fun i hi => by
        obtain ⟨rr, h⟩ := row i hi
        rw [h]
        exact ⟨_, rfl⟩
    rw [hres]
    exact ⟨_, rfl⟩

/-! ## The property -/

/-- **C99.** The values of an expression are, in this order, the values of its readings; each reading has exactly one, in every context. -/
theorem C99_values (cfg : Cfg) {V : Str → Prop} {t : AST F} (hd : Direct V t) (c : Context F) {vs : List (Value F)}
    (h : Finishes (fun n => eval cfg n t c) (.ok vs)) :
    List.Forall₂ (fun t' v => ∀ c' : Context F, Finishes (fun n => eval cfg n t' c') (.ok [v])) (readings c t) vs := by
  obtain ⟨_, n, hn⟩ := h
  exact (readings_forward cfg n hd c [] hn).imp fun t' v ⟨N, hN⟩ c' => ⟨by simp, N, hN N le_rfl c' []⟩

/-- **C99.** If there is a choice at every place, the expression has values exactly if all its readings have. -/
theorem C99_iff (cfg : Cfg) {t : AST F} {c : Context F} (hd : Offered c t) (vs : List (Value F)) :
    Finishes (fun n => eval cfg n t c) (.ok vs) ↔
      List.Forall₂ (fun t' v => ∀ c' : Context F, Finishes (fun n => eval cfg n t' c') (.ok [v])) (readings c t) vs := by
  refine ⟨C99_values cfg hd.direct c, fun h => ?_⟩
  have hy : List.Forall₂ (OneResult cfg) (readings c t) vs := by
    have hall : ∀ t' ∈ readings c t, Closed t' := closed_reading hd.direct c
    revert h hall
    generalize readings c t = R
    intro h hall
    induction h with
    | nil => exact .nil
    | @cons t' v _ _ h _ ih =>
      refine .cons ?_ (ih fun t' ht => hall t' (by simp [ht]))
      obtain ⟨_, n, hn⟩ := h c
      obtain ⟨v', h1, h2⟩ := (hall t' (by simp)).oneResult hn
      cases h1
      exact h2
  obtain ⟨N, hN⟩ := readings_backward cfg hd fun t' ht => by
    obtain ⟨i, hi, rfl⟩ := List.getElem_of_mem ht
    exact ⟨_, List.Forall₂.get hy hi (by rw [← hy.length_eq]; exact hi)⟩
  obtain ⟨us, hus⟩ := hN N le_rfl []
  have hu := readings_forward cfg N hd.direct c [] hus
  have : us = vs := by
    clear h hus hN
    revert hy hu
    generalize readings c t = R
    intro hy hu
    induction hy generalizing us with
    | nil => cases hu; rfl
    | cons h _ ih =>
      cases hu with
      | cons h' hu =>
        obtain ⟨N1, h1⟩ := h
        obtain ⟨N2, h2⟩ := h'
        have := (h1 (max N1 N2) (by omega) c []).symm.trans (h2 (max N1 N2) (by omega) c [])
        simp only [ok.injEq, List.cons.injEq, and_true] at this
        rw [this, ih _ hu]
  subst this
  exact ⟨by simp, N, hus⟩


theorem prod_pow (l : List Nat) : (l.map fun k => 2 ^ k).prod = 2 ^ l.sum := by
  induction l with
  | nil => rfl
  | cons a l ih => rw [List.map_cons, List.prod_cons, List.sum_cons, ih, pow_add]

/-- **C99.** If all variables have one value, an expression without lists in which `±` occurs `k` times has `2^k` readings. -/
theorem C99_count (c : Context F) {t : AST F} {k : Nat} (h : PlusMinus c t k) : (readings c t).length = 2 ^ k := by
  have row : ∀ l : List (AST F × Nat), (∀ p ∈ l, (readings c p.1).length = 2 ^ p.2) →
      (choices ((l.map Prod.fst).map (readings c))).length = 2 ^ (l.map Prod.snd).sum := by
    intro l hl
    rw [choices_count, ← prod_pow, List.map_map, List.map_map, List.map_map]
    exact congrArg _ (List.map_congr_left hl)
  induction h with
  | scalar s => rfl
  | vector l _ ih =>
    simp only [readings, readingsAll_eq, List.length_map]
    exact row l ih
  | matrix m _ ih =>
    simp only [readings, readingsRows_eq, List.length_map]
    rw [choices_count, ← prod_pow, List.map_map, List.map_map, List.map_map]
    exact congrArg _ (List.map_congr_left fun l hl => row l (ih l hl))
  | «variable» n v hv => simp [readings, hv]
  | simple op l r a b _ _ ihl ihr =>
    have : ∀ l', ((readings c r).flatMap fun r' => (signs op).map fun o => AST.simple o l' r').length = 2 ^ b * (signs op).length := by
      intro l'
      rw [List.length_flatMap]
      simp only [List.length_map, List.map_const', List.sum_replicate, smul_eq_mul, ihr]
    simp only [readings]
    rw [List.length_flatMap]
    simp only [this, List.map_const', List.sum_replicate, smul_eq_mul, ihl]
    rw [pow_add, pow_add]
    congr 2
    cases op <;> rfl

end
end MUL
