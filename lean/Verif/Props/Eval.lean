import Verif.Spec.Eval
import Verif.Spec.Combinatorics
import Verif.Proofs.EvalFuel
import Verif.Props.Combinatorics
/-!
# C18-C23, C28, C29, C50: what evaluation does, construct by construct

`evalRec cfg n b ctx w` is the evaluation of `b` inside the body of the function `w`;
the public `eval cfg n b ctx` is `evalRec cfg n b ctx []` (no surrounding function).
-/

namespace MUL
open Out Spec

section
variable {F : Type} [FNum F]

/-! ## C18 -/

/-- C18: once an evaluation has finished within `n` steps, every larger budget gives the same outcome. -/
theorem C18_more_steps (cfg : Cfg) (b : AST F) (ctx : Context F) {n m : Nat} (hnm : n ≤ m)
    (h : eval cfg n b ctx ≠ .timeout) : eval cfg m b ctx = eval cfg n b ctx :=
  ((evalRec_le cfg hnm b ctx []).eq_of_ne h).symm

/-- C18: an evaluation has at most one outcome. -/
theorem C18_one_outcome (cfg : Cfg) (b : AST F) (ctx : Context F) {r r' : Out EvalError (List (Value F))}
    (h : Finishes (fun n => eval cfg n b ctx) r) (h' : Finishes (fun n => eval cfg n b ctx) r') : r = r' := by
  obtain ⟨hr, n, hn⟩ := h
  obtain ⟨hr', m, hm⟩ := h'
  rcases Nat.le_total n m with hnm | hnm
  · rw [← hn, ← hm]; exact (C18_more_steps cfg b ctx hnm (by simp only at hn; rw [hn]; exact hr)).symm
  · rw [← hn, ← hm]; exact C18_more_steps cfg b ctx hnm (by simp only at hm; rw [hm]; exact hr')

/-- `x` is 2 or 5, `v` is the vector `(1, 2)`. -/
def evalCtxExample : Context F :=
  ⟨[⟨['x'], [.scalar (FArith.ofInt 2), .scalar (FArith.ofInt 5)]⟩,
    ⟨['v'], [.vector [FArith.ofInt 1, FArith.ofInt 2]]⟩], []⟩

/-- Where C18 applies: `x*x` with two values of `x` finishes with four values, with a budget of two steps (so
with every larger one), while a budget of one step is not enough. -/
example (cfg : Cfg) : eval cfg 2 (.simple .mult (.variable ['x']) (.variable ['x'])) (evalCtxExample (F := F)) =
      .ok [.scalar (FArith.mul (FArith.ofInt 2) (FArith.ofInt 2)), .scalar (FArith.mul (FArith.ofInt 2) (FArith.ofInt 5)),
        .scalar (FArith.mul (FArith.ofInt 5) (FArith.ofInt 2)), .scalar (FArith.mul (FArith.ofInt 5) (FArith.ofInt 5))] ∧
    eval cfg 1 (.simple .mult (.variable ['x']) (.variable ['x'])) (evalCtxExample (F := F)) = .timeout :=
  ⟨rfl, rfl⟩

/-- Finishing, with room for a larger budget. -/
theorem finishes_from {cfg : Cfg} {b : AST F} {ctx : Context F} {w : Str} {r : Out EvalError (List (Value F))}
    (h : Finishes (fun n => evalRec cfg n b ctx w) r) : ∃ n, ∀ m ≥ n, evalRec cfg m b ctx w = r := by
  obtain ⟨hr, n, hn⟩ := h
  refine ⟨n, fun m hm => ?_⟩
  rw [← hn]
  exact ((evalRec_le cfg hm b ctx w).eq_of_ne (by simp only at hn; rw [hn]; exact hr)).symm

theorem finishes_all {cfg : Cfg} {ctx : Context F} {w : Str} {bs : List (AST F)}
    {rs : List (Out EvalError (List (Value F)))}
    (h : List.Forall₂ (fun b r => Finishes (fun n => evalRec cfg n b ctx w) r) bs rs) :
    ∃ n, ∀ m ≥ n, bs.map (fun b => evalRec cfg m b ctx w) = rs := by
  induction h with
  | nil => exact ⟨0, fun _ _ => rfl⟩
  | cons h _ ih =>
    obtain ⟨n, hn⟩ := finishes_from h
    obtain ⟨k, hk⟩ := ih
    exact ⟨max n k, fun m hm => by
      simp only [List.map_cons]
      rw [hn m (by omega), hk m (by omega)]⟩

/-! ## C19 -/

theorem mapM_flatMap {ε α β γ : Type} (l : List α) (g : α → List β) (f : β → Out ε γ) :
    (l.flatMap g).mapM f = l.mapM (fun a => (g a).mapM f) >>= fun r => .ok r.flatten := by
  induction l with
  | nil => rfl
  | cons a l ih =>
    simp only [List.flatMap_cons, List.mapM_append, List.mapM_cons, ih]
    cases (g a).mapM f <;> try rfl
    simp only [ok_bind]
    cases l.mapM (fun a => (g a).mapM f) <;> rfl

theorem mapM_post {ε α β γ : Type} (l : List α) (g : α → Out ε β) (h : β → γ) :
    (l.mapM fun i => g i >>= fun r => .ok (h r)) = l.mapM g >>= fun rs => .ok (rs.map h) := by
  induction l with
  | nil => rfl
  | cons a l ih =>
    simp only [List.mapM_cons, ih]
    cases g a <;> try rfl
    simp only [ok_bind]
    cases l.mapM g <;> rfl

theorem applyOp_table (op : SimpleOp) (a b : Value F) :
    applyOp op a b = (opTable op a b).mapErr .mathError := by
  cases op <;> simp only [applyOp, opTable, liftMath]
  case parenths => rfl
  case addSub =>
    cases vAdd a b <;> try rfl
    simp only [ok_bind, mapErr_ok]
    cases vSub a b <;> rfl
  all_goals (first
    | (cases vAdd a b <;> rfl) | (cases vSub a b <;> rfl) | (cases vMult a b <;> rfl) | (cases vDiv a b <;> rfl)
    | (cases vCross a b <;> rfl) | (cases vPow a b <;> rfl) | (cases vGet a b <;> rfl) | (cases vRoot a b <;> rfl)
    | (cases vNeg b <;> rfl) | (cases vSin a <;> rfl) | (cases vCos a <;> rfl) | (cases vTan a <;> rfl)
    | (cases vArcsin a <;> rfl) | (cases vArccos a <;> rfl) | (cases vArctan a <;> rfl) | (cases vAbs a <;> rfl)
    | (cases vSqrt a <;> rfl) | (cases vLn a <;> rfl) | (cases vDet a <;> rfl) | (cases vInv a <;> rfl))

theorem applyAll_pairs (op : SimpleOp) (lv rv : List (Value F)) :
    applyAll op lv rv =
      (pairs lv rv).mapM (fun p => (opTable op p.1 p.2).mapErr EvalError.mathError) >>= fun r => .ok r.flatten := by
  unfold applyAll pairs
  rw [mapM_flatMap]
  simp only [applyOp_table, bind_assoc, ok_bind]
  have h : ∀ i : Value F, (rv.mapM fun j => (opTable op i j).mapErr EvalError.mathError) =
      ((rv.map fun b => (i, b)).mapM fun p => (opTable op p.1 p.2).mapErr EvalError.mathError) := by
    intro i
    induction rv with
    | nil => rfl
    | cons j rv ih => simp only [List.map_cons, List.mapM_cons, ih]
  simp only [h, mapM_post, bind_assoc, ok_bind, List.flatten_flatten]

theorem simple_finishes {cfg : Cfg} {op : SimpleOp} {l r : AST F} {ctx : Context F} {w : Str}
    {lv rv : List (Value F)} (hl : Finishes (fun n => evalRec cfg n l ctx w) (.ok lv))
    (hr : Finishes (fun n => evalRec cfg n r ctx w) (.ok rv)) :
    ∃ n, evalRec cfg n (.simple op l r) ctx w = applyAll op lv rv := by
  obtain ⟨n, hn⟩ := finishes_from hl
  obtain ⟨m, hm⟩ := finishes_from hr
  refine ⟨max n m + 1, ?_⟩
  simp only [evalRec]
  rw [hn _ (by omega), hm _ (by omega)]
  rfl

/-- C19: if the operation succeeds on every pair of operand values, the results are those of the pairs in
order, the left value varying slowest. -/
theorem C19_results {cfg : Cfg} {op : SimpleOp} {l r : AST F} {ctx : Context F} {w : Str}
    {lv rv : List (Value F)} (hl : Finishes (fun n => evalRec cfg n l ctx w) (.ok lv))
    (hr : Finishes (fun n => evalRec cfg n r ctx w) (.ok rv)) (res : Value F × Value F → List (Value F))
    (h : ∀ p ∈ pairs lv rv, opTable op p.1 p.2 = .ok (res p)) :
    Finishes (fun n => evalRec cfg n (.simple op l r) ctx w) (.ok ((pairs lv rv).flatMap res)) := by
  obtain ⟨n, hn⟩ := simple_finishes (op := op) hl hr
  refine ⟨by simp, n, ?_⟩
  simp only [hn, applyAll_pairs]
  rw [mapM_ok_of_forall (g := res) (fun p hp => by rw [h p hp]; rfl)]
  rfl

/-- C19: the first pair on which the operation fails decides the error. -/
theorem C19_first_error {cfg : Cfg} {op : SimpleOp} {l r : AST F} {ctx : Context F} {w : Str}
    {lv rv : List (Value F)} (hl : Finishes (fun n => evalRec cfg n l ctx w) (.ok lv))
    (hr : Finishes (fun n => evalRec cfg n r ctx w) (.ok rv)) {before after : List (Value F × Value F)}
    {a b : Value F} {msg : String} (hp : pairs lv rv = before ++ (a, b) :: after)
    (hb : ∀ p ∈ before, ∃ vs, opTable op p.1 p.2 = .ok vs) (h : opTable op a b = .err msg) :
    Finishes (fun n => evalRec cfg n (.simple op l r) ctx w) (.err (.mathError msg)) := by
  obtain ⟨n, hn⟩ := simple_finishes (op := op) hl hr
  refine ⟨by simp, n, ?_⟩
  simp only [hn, applyAll_pairs, hp]
  clear hn hp
  induction before with
  | nil => simp [List.mapM_cons, h]
  | cons p before ih =>
    obtain ⟨vs, hvs⟩ := hb p (by simp)
    have := ih fun q hq => hb q (by simp [hq])
    simp only [List.cons_append, List.mapM_cons, hvs, mapErr_ok, ok_bind, bind_assoc]
    revert this
    cases (before ++ (a, b) :: after).mapM fun p => (opTable op p.1 p.2).mapErr EvalError.mathError <;> simp

/-- C19: if evaluating the left operand fails, so does the operation, with the same error. -/
theorem C19_left_error {cfg : Cfg} {op : SimpleOp} {l r : AST F} {ctx : Context F} {w : Str} {e : EvalError}
    (hl : Finishes (fun n => evalRec cfg n l ctx w) (.err e)) :
    Finishes (fun n => evalRec cfg n (.simple op l r) ctx w) (.err e) := by
  obtain ⟨n, hn⟩ := finishes_from hl
  refine ⟨by simp, n + 1, ?_⟩
  simp only [evalRec]
  rw [hn n (Nat.le_refl _)]
  rfl

/-- C19: if evaluating the right operand fails, so does the operation, with the same error. -/
theorem C19_right_error {cfg : Cfg} {op : SimpleOp} {l r : AST F} {ctx : Context F} {w : Str} {e : EvalError}
    {lv : List (Value F)} (hl : Finishes (fun n => evalRec cfg n l ctx w) (.ok lv))
    (hr : Finishes (fun n => evalRec cfg n r ctx w) (.err e)) :
    Finishes (fun n => evalRec cfg n (.simple op l r) ctx w) (.err e) := by
  obtain ⟨n, hn⟩ := finishes_from hl
  obtain ⟨m, hm⟩ := finishes_from hr
  refine ⟨by simp, max n m + 1, ?_⟩
  simp only [evalRec]
  rw [hn _ (by omega), hm _ (by omega)]
  rfl

theorem opTable_length {op : SimpleOp} {a b : Value F} {vs : List (Value F)} (h : opTable op a b = .ok vs) :
    vs.length = if op = .addSub then 2 else 1 := by
  cases op <;> simp only [opTable, bind_eq_ok, Out.ok.injEq] at h
  case addSub =>
    obtain ⟨x, _, y, _, rfl⟩ := h
    rfl
  case parenths => subst h; rfl
  all_goals
    obtain ⟨x, _, rfl⟩ := h
    rfl

theorem pairs_length {α β : Type} (l : List α) (r : List β) : (pairs l r).length = l.length * r.length := by
  unfold pairs
  induction l with
  | nil => simp
  | cons a l ih => simp [List.flatMap_cons, ih, Nat.succ_mul, Nat.add_comm]

/-- C19: the number of results is the product of the numbers of operand values (twice that for `&`). -/
theorem C19_count {cfg : Cfg} {op : SimpleOp} {l r : AST F} {ctx : Context F} {w : Str}
    {lv rv vs : List (Value F)} (hl : Finishes (fun n => evalRec cfg n l ctx w) (.ok lv))
    (hr : Finishes (fun n => evalRec cfg n r ctx w) (.ok rv)) {n : Nat}
    (h : evalRec cfg n (.simple op l r) ctx w = .ok vs) :
    vs.length = lv.length * rv.length * (if op = .addSub then 2 else 1) := by
  obtain ⟨k, hk⟩ := simple_finishes (op := op) hl hr
  have h2 : applyAll op lv rv = .ok vs := by
    obtain ⟨m, hm⟩ := finishes_from (r := .ok vs) ⟨by simp, n, h⟩
    have h3 := evalRec_le cfg (Nat.le_max_left k m) (.simple op l r) ctx w
    rw [hk] at h3
    rw [hm _ (Nat.le_max_right k m)] at h3
    rcases h3 with h3 | h3
    · exfalso
      rw [h3] at hk
      cases n with
      | zero => simp [evalRec] at h
      | succ n =>
        simp only [evalRec] at h
        obtain ⟨lv', h4, h⟩ := bind_eq_ok.1 h
        obtain ⟨rv', h5, h⟩ := bind_eq_ok.1 h
        obtain ⟨a, ha⟩ := finishes_from hl
        obtain ⟨b, hb⟩ := finishes_from hr
        have e1 : lv' = lv := by
          have := (evalRec_le cfg (Nat.le_max_left n a) l ctx w).eq_of_ne (by rw [h4]; simp)
          rw [h4, ha _ (Nat.le_max_right n a)] at this
          simpa using this
        have e2 : rv' = rv := by
          have := (evalRec_le cfg (Nat.le_max_left n b) r ctx w).eq_of_ne (by rw [h5]; simp)
          rw [h5, hb _ (Nat.le_max_right n b)] at this
          simpa using this
        subst e1 e2
        rw [h] at h3
        cases h3
    · exact h3
  rw [applyAll_pairs] at h2
  obtain ⟨rs, hrs, h3⟩ := bind_eq_ok.1 h2
  cases h3
  clear h2
  rw [← pairs_length]
  have := mapM_eq_ok.1 hrs
  clear hrs hk hl hr h
  generalize pairs lv rv = ps at this ⊢
  induction this with
  | nil => simp
  | cons h1 _ ih =>
    have := opTable_length (mapErr_eq_ok.1 h1)
    simp only [List.flatten_cons, List.length_append, List.length_cons, Nat.succ_mul, ih, this]
    omega

/-- Where C19 applies: both operands of `x & x` have two values; the four pairs give eight results. -/
example (cfg : Cfg) (w : Str) :
    Finishes (fun n => evalRec cfg n (.simple .addSub (.variable ['x']) (.variable ['x'])) (evalCtxExample (F := F)) w)
      (.ok ((pairs [FArith.ofInt 2, FArith.ofInt 5] [FArith.ofInt 2, FArith.ofInt 5]).flatMap fun p =>
        [.scalar (FArith.add p.1 p.2), .scalar (FArith.add p.1 (FArith.mul p.2 (FArith.ofInt (-1))))])) := by
  refine C19_results (lv := [.scalar (FArith.ofInt 2), .scalar (FArith.ofInt 5)])
    (rv := [.scalar (FArith.ofInt 2), .scalar (FArith.ofInt 5)]) ⟨by simp, 1, rfl⟩ ⟨by simp, 1, rfl⟩
    (fun (p : Value F × Value F) => match p with
      | (.scalar a, .scalar b) => [.scalar (FArith.add a b), .scalar (FArith.add a (FArith.mul b (FArith.ofInt (-1))))]
      | _ => []) ?_
  intro p hp
  simp only [pairs, List.flatMap_cons, List.flatMap_nil, List.map_cons, List.map_nil, List.append_nil,
    List.cons_append, List.nil_append, List.mem_cons, List.not_mem_nil, or_false] at hp
  rcases hp with rfl | rfl | rfl | rfl <;> rfl

/-- A scalar and a vector cannot be added: the error of the first such pair. -/
example (cfg : Cfg) (w : Str) : ∃ msg,
    Finishes (fun n => evalRec cfg n (.simple .add (.variable ['x']) (.variable ['v'])) (evalCtxExample (F := F)) w)
      (.err (.mathError msg)) :=
  ⟨_, C19_first_error (lv := [.scalar (FArith.ofInt 2), .scalar (FArith.ofInt 5)])
    (rv := [.vector [FArith.ofInt 1, FArith.ofInt 2]]) ⟨by simp, 1, rfl⟩ ⟨by simp, 1, rfl⟩
    (before := []) rfl (by simp) rfl⟩

/-- An unknown variable on either side. -/
example (cfg : Cfg) (w : Str) :
    Finishes (fun n => evalRec cfg n (.simple .add (.variable ['y']) (.variable ['z'])) (evalCtxExample (F := F)) w)
      (.err (.noVariable ['y'])) ∧
    Finishes (fun n => evalRec cfg n (.simple .add (.variable ['x']) (.variable ['z'])) (evalCtxExample (F := F)) w)
      (.err (.noVariable ['z'])) :=
  ⟨C19_left_error ⟨by simp, 1, rfl⟩,
   C19_right_error (lv := [.scalar (FArith.ofInt 2), .scalar (FArith.ofInt 5)]) ⟨by simp, 1, rfl⟩ ⟨by simp, 1, rfl⟩⟩

/-! ## C20 -/

theorem allScalars_scalars (e : EvalError) (xs : List F) :
    allScalars e (xs.map Value.scalar) = .ok xs := by
  unfold allScalars
  induction xs with
  | nil => rfl
  | cons x xs ih =>
    simp only [List.map_cons, List.mapM_cons, ih]
    rfl

theorem allScalars_fail {e : EvalError} {vs : List (Value F)} (h : ∃ v ∈ vs, v.isScalar = false) :
    allScalars e vs = .err e := by
  unfold allScalars
  induction vs with
  | nil => obtain ⟨v, hv, _⟩ := h; cases hv
  | cons v vs ih =>
    simp only [List.mapM_cons]
    cases v with
    | matrix m => rfl
    | vector m => rfl
    | scalar x =>
      have : ∃ v ∈ vs, v.isScalar = false := by
        obtain ⟨w, hw, hs⟩ := h
        rcases List.mem_cons.1 hw with rfl | hw
        · cases hs
        · exact ⟨w, hw, hs⟩
      rw [ih this]
      rfl

theorem fields_ok {cfg : Cfg} {ctx : Context F} {w : Str} {e : EvalError} {es : List (AST F)} {fields : List (List F)}
    (h : List.Forall₂ (fun b xs => Finishes (fun n => evalRec cfg n b ctx w) (.ok (xs.map Value.scalar))) es fields) :
    ∃ n, ∀ m ≥ n, (es.mapM fun i => do
        let values ← evalRec cfg m i ctx w
        allScalars e values) = .ok fields := by
  induction h with
  | nil => exact ⟨0, fun _ _ => rfl⟩
  | cons h _ ih =>
    obtain ⟨n, hn⟩ := finishes_from h
    obtain ⟨k, hk⟩ := ih
    refine ⟨max n k, fun m hm => ?_⟩
    simp only [List.mapM_cons]
    rw [hn m (by omega), hk m (by omega), ok_bind, allScalars_scalars]
    rfl

/-- C20: a vector literal whose entries have only scalar values yields one vector per combination of entry
values, the first entry varying slowest. -/
theorem C20_vector {cfg : Cfg} {ctx : Context F} {w : Str} {es : List (AST F)} {fields : List (List F)}
    (h : List.Forall₂ (fun b xs => Finishes (fun n => evalRec cfg n b ctx w) (.ok (xs.map Value.scalar))) es fields) :
    Finishes (fun n => evalRec cfg n (.vector es) ctx w) (.ok ((choices fields).map .vector)) := by
  obtain ⟨n, hn⟩ := fields_ok (e := .nonScalarInVector) h
  refine ⟨by simp, n + 1, ?_⟩
  simp only [evalRec]
  rw [hn n (Nat.le_refl _), ok_bind, cartProd_eq_choices]

/-- C20: an entry with a value that is not a scalar (all entries before it being scalar) is rejected. -/
theorem C20_vector_nonscalar {cfg : Cfg} {ctx : Context F} {w : Str} {before after : List (AST F)} {b : AST F}
    {fields : List (List F)} {vs : List (Value F)}
    (h : List.Forall₂ (fun b xs => Finishes (fun n => evalRec cfg n b ctx w) (.ok (xs.map Value.scalar))) before fields)
    (hb : Finishes (fun n => evalRec cfg n b ctx w) (.ok vs)) (hv : ∃ v ∈ vs, v.isScalar = false) :
    Finishes (fun n => evalRec cfg n (.vector (before ++ b :: after)) ctx w) (.err .nonScalarInVector) := by
  obtain ⟨n, hn⟩ := fields_ok (e := .nonScalarInVector) h
  obtain ⟨k, hk⟩ := finishes_from hb
  refine ⟨by simp, max n k + 1, ?_⟩
  simp only [evalRec, List.mapM_append, List.mapM_cons]
  rw [hn _ (by omega), hk _ (by omega), ok_bind, ok_bind, allScalars_fail hv]
  rfl

theorem rows_ok {cfg : Cfg} {ctx : Context F} {w : Str} {e : EvalError} {rows : List (List (AST F))}
    {fields : List (List (List F))}
    (h : List.Forall₂ (List.Forall₂ (fun b xs =>
      Finishes (fun n => evalRec cfg n b ctx w) (.ok (xs.map Value.scalar)))) rows fields) :
    ∃ n, ∀ m ≥ n, (rows.mapM fun r => r.mapM fun i => do
        let values ← evalRec cfg m i ctx w
        allScalars e values) = .ok fields := by
  induction h with
  | nil => exact ⟨0, fun _ _ => rfl⟩
  | cons h _ ih =>
    obtain ⟨n, hn⟩ := fields_ok (e := e) h
    obtain ⟨k, hk⟩ := ih
    refine ⟨max n k, fun m hm => ?_⟩
    rw [List.mapM_cons, hn m (by omega), hk m (by omega)]
    rfl

/-- C20: a matrix literal yields one matrix per combination of entry values, the first entry (of the first
row) varying slowest. -/
theorem C20_matrix {cfg : Cfg} {ctx : Context F} {w : Str} {rows : List (List (AST F))}
    {fields : List (List (List F))}
    (h : List.Forall₂ (List.Forall₂ (fun b xs =>
      Finishes (fun n => evalRec cfg n b ctx w) (.ok (xs.map Value.scalar)))) rows fields) :
    Finishes (fun n => evalRec cfg n (.matrix rows) ctx w)
      (.ok ((choices (fields.map choices)).map .matrix)) := by
  obtain ⟨n, hn⟩ := rows_ok (e := .nonScalarInMatrix) h
  refine ⟨by simp, n + 1, ?_⟩
  simp only [evalRec]
  have e1 : (cartProd : List (List F) → List (List F)) = choices := funext cartProd_eq_choices
  rw [hn n (Nat.le_refl _), ok_bind, cartProd_eq_choices, e1]

/-- C20: a matrix entry with a value that is not a scalar is rejected. -/
theorem C20_matrix_nonscalar {cfg : Cfg} {ctx : Context F} {w : Str} {rowsBefore rowsAfter : List (List (AST F))}
    {before after : List (AST F)} {b : AST F} {rowFields : List (List (List F))} {fields : List (List F)}
    {vs : List (Value F)}
    (hr : List.Forall₂ (List.Forall₂ (fun b xs =>
      Finishes (fun n => evalRec cfg n b ctx w) (.ok (xs.map Value.scalar)))) rowsBefore rowFields)
    (h : List.Forall₂ (fun b xs => Finishes (fun n => evalRec cfg n b ctx w) (.ok (xs.map Value.scalar))) before fields)
    (hb : Finishes (fun n => evalRec cfg n b ctx w) (.ok vs)) (hv : ∃ v ∈ vs, v.isScalar = false) :
    Finishes (fun n => evalRec cfg n (.matrix (rowsBefore ++ (before ++ b :: after) :: rowsAfter)) ctx w)
      (.err .nonScalarInMatrix) := by
  obtain ⟨j, hj⟩ := rows_ok (e := .nonScalarInMatrix) hr
  obtain ⟨n, hn⟩ := fields_ok (e := .nonScalarInMatrix) h
  obtain ⟨k, hk⟩ := finishes_from hb
  refine ⟨by simp, max j (max n k) + 1, ?_⟩
  simp only [evalRec]
  rw [List.mapM_append, hj _ (by omega), ok_bind, List.mapM_cons, List.mapM_append, hn _ (by omega), ok_bind,
    List.mapM_cons, hk _ (by omega), ok_bind, allScalars_fail hv]
  rfl

/-- C20: a list literal yields the values of its entries one after the other. -/
theorem C20_list {cfg : Cfg} {ctx : Context F} {w : Str} {es : List (AST F)} {vss : List (List (Value F))}
    (h : List.Forall₂ (fun b vs => Finishes (fun n => evalRec cfg n b ctx w) (.ok vs)) es vss) :
    Finishes (fun n => evalRec cfg n (.list es) ctx w) (.ok vss.flatten) := by
  have : ∃ n, ∀ m ≥ n, (es.mapM fun i => evalRec cfg m i ctx w) = .ok vss := by
    induction h with
    | nil => exact ⟨0, fun _ _ => rfl⟩
    | cons h _ ih =>
      obtain ⟨n, hn⟩ := finishes_from h
      obtain ⟨k, hk⟩ := ih
      refine ⟨max n k, fun m hm => ?_⟩
      simp only [List.mapM_cons]
      rw [hn m (by omega), hk m (by omega)]
      rfl
  obtain ⟨n, hn⟩ := this
  refine ⟨by simp, n + 1, ?_⟩
  simp only [evalRec]
  rw [hn n (Nat.le_refl _), ok_bind]

/-- Where C20 applies: `[x, 7, x]` with two values of `x` is four vectors. -/
example (cfg : Cfg) (w : Str) :
    Finishes (fun n => evalRec cfg n (.vector [.variable ['x'], .scalar (FArith.ofInt 7), .variable ['x']])
      (evalCtxExample (F := F)) w)
      (.ok [.vector [FArith.ofInt 2, FArith.ofInt 7, FArith.ofInt 2], .vector [FArith.ofInt 2, FArith.ofInt 7, FArith.ofInt 5],
        .vector [FArith.ofInt 5, FArith.ofInt 7, FArith.ofInt 2], .vector [FArith.ofInt 5, FArith.ofInt 7, FArith.ofInt 5]]) :=
  C20_vector (fields := [[FArith.ofInt 2, FArith.ofInt 5], [FArith.ofInt 7], [FArith.ofInt 2, FArith.ofInt 5]])
    (.cons ⟨by simp, 1, rfl⟩ (.cons ⟨by simp, 1, rfl⟩ (.cons ⟨by simp, 1, rfl⟩ .nil)))

/-- `[x, v]` is rejected: a vector inside a vector. -/
example (cfg : Cfg) (w : Str) :
    Finishes (fun n => evalRec cfg n (.vector [.variable ['x'], .variable ['v']]) (evalCtxExample (F := F)) w)
      (.err .nonScalarInVector) :=
  C20_vector_nonscalar (before := [.variable ['x']]) (after := []) (fields := [[FArith.ofInt 2, FArith.ofInt 5]])
    (vs := [.vector [FArith.ofInt 1, FArith.ofInt 2]])
    (.cons ⟨by simp, 1, rfl⟩ .nil) ⟨by simp, 1, rfl⟩ ⟨_, List.mem_singleton.2 rfl, rfl⟩

/-- A matrix with the entries `x, 1` and `0, x`: four matrices. -/
example (cfg : Cfg) (w : Str) :
    Finishes (fun n => evalRec cfg n (.matrix [[.variable ['x'], .scalar (FArith.ofInt 1)],
        [.scalar (FArith.ofInt 0), .variable ['x']]]) (evalCtxExample (F := F)) w)
      (.ok [.matrix [[FArith.ofInt 2, FArith.ofInt 1], [FArith.ofInt 0, FArith.ofInt 2]],
        .matrix [[FArith.ofInt 2, FArith.ofInt 1], [FArith.ofInt 0, FArith.ofInt 5]],
        .matrix [[FArith.ofInt 5, FArith.ofInt 1], [FArith.ofInt 0, FArith.ofInt 2]],
        .matrix [[FArith.ofInt 5, FArith.ofInt 1], [FArith.ofInt 0, FArith.ofInt 5]]]) :=
  C20_matrix (fields := [[[FArith.ofInt 2, FArith.ofInt 5], [FArith.ofInt 1]], [[FArith.ofInt 0], [FArith.ofInt 2, FArith.ofInt 5]]])
    (.cons (.cons ⟨by simp, 1, rfl⟩ (.cons ⟨by simp, 1, rfl⟩ .nil))
      (.cons (.cons ⟨by simp, 1, rfl⟩ (.cons ⟨by simp, 1, rfl⟩ .nil)) .nil))

/-- A vector inside a matrix is rejected. -/
example (cfg : Cfg) (w : Str) :
    Finishes (fun n => evalRec cfg n (.matrix [[.variable ['x'], .scalar (FArith.ofInt 1)],
        [.scalar (FArith.ofInt 0), .variable ['v']]]) (evalCtxExample (F := F)) w) (.err .nonScalarInMatrix) :=
  C20_matrix_nonscalar (rowsBefore := [[.variable ['x'], .scalar (FArith.ofInt 1)]]) (rowsAfter := [])
    (before := [.scalar (FArith.ofInt 0)]) (after := []) (rowFields := [[[FArith.ofInt 2, FArith.ofInt 5], [FArith.ofInt 1]]])
    (fields := [[FArith.ofInt 0]]) (vs := [.vector [FArith.ofInt 1, FArith.ofInt 2]])
    (.cons (.cons ⟨by simp, 1, rfl⟩ (.cons ⟨by simp, 1, rfl⟩ .nil)) .nil)
    (.cons ⟨by simp, 1, rfl⟩ .nil) ⟨by simp, 1, rfl⟩ ⟨_, List.mem_singleton.2 rfl, rfl⟩

/-- The list `{x, v}` has three values. -/
example (cfg : Cfg) (w : Str) :
    Finishes (fun n => evalRec cfg n (.list [.variable ['x'], .variable ['v']]) (evalCtxExample (F := F)) w)
      (.ok [.scalar (FArith.ofInt 2), .scalar (FArith.ofInt 5), .vector [FArith.ofInt 1, FArith.ofInt 2]]) :=
  C20_list (vss := [[.scalar (FArith.ofInt 2), .scalar (FArith.ofInt 5)], [.vector [FArith.ofInt 1, FArith.ofInt 2]]])
    (.cons ⟨by simp, 1, rfl⟩ (.cons ⟨by simp, 1, rfl⟩ .nil))

/-! ## C21 -/

/-- C21: a variable evaluates to the values of the first entry of the context with its name. -/
theorem C21_variable (cfg : Cfg) (before after : List (Variable F)) (funs : List (Function F)) (v : Variable F)
    (w : Str) (h : ∀ u ∈ before, u.name ≠ v.name) :
    Finishes (fun n => evalRec cfg n (.variable v.name) ⟨before ++ v :: after, funs⟩ w) (.ok v.values) := by
  refine ⟨by simp, 1, ?_⟩
  simp only [evalRec, Context.findVar]
  rw [List.find?_append, List.find?_eq_none.2 (by simpa using h), List.find?_cons_of_pos (by simp)]
  rfl

/-- C21: a variable that is not in the context is reported by name, and this is the only way a variable can
fail to evaluate. -/
theorem C21_missing (cfg : Cfg) (ctx : Context F) (name : Str) (w : Str) :
    (∀ e, Finishes (fun n => evalRec cfg n (.variable name) ctx w) (.err e) → e = .noVariable name) ∧
    (Finishes (fun n => evalRec cfg n (.variable name) ctx w) (.err (.noVariable name)) ↔
      ∀ u ∈ ctx.vars, u.name ≠ name) := by
  have key : ∀ n r, evalRec cfg (n + 1) (.variable name) ctx w = r →
      (match ctx.vars.find? (fun u => u.name == name) with
        | some u => .ok u.values | none => .err (.noVariable name)) = r := by
    intro n r h
    simp only [evalRec, Context.findVar] at h
    rw [← h]
    cases ctx.vars.find? (fun u => u.name == name) <;> rfl
  constructor
  · rintro e ⟨_, n, hn⟩
    cases n with
    | zero => simp [evalRec] at hn
    | succ n =>
      have := key n _ hn
      revert this
      cases ctx.vars.find? (fun u => u.name == name) with
      | some u => intro h; cases h
      | none => intro h; cases h; rfl
  · constructor
    · rintro ⟨_, n, hn⟩ u hu hne
      cases n with
      | zero => simp [evalRec] at hn
      | succ n =>
        have := key n _ hn
        cases hf : ctx.vars.find? (fun u => u.name == name) with
        | some u => rw [hf] at this; cases this
        | none =>
          have := List.find?_eq_none.1 hf u hu
          simp [hne] at this
    · intro h
      refine ⟨by simp, 1, ?_⟩
      have : ctx.vars.find? (fun u => u.name == name) = none := List.find?_eq_none.2 (by simpa using h)
      simp only [evalRec, Context.findVar, this]
      rfl

/-- The second variable of a context, and a variable that is not there. -/
example (cfg : Cfg) : Finishes (fun n => evalRec cfg n (.variable ['v']) (evalCtxExample (F := F)) [])
      (.ok [.vector [FArith.ofInt 1, FArith.ofInt 2]]) ∧
    Finishes (fun n => evalRec cfg n (.variable ['y']) (evalCtxExample (F := F)) []) (.err (.noVariable ['y'])) :=
  ⟨C21_variable cfg [⟨['x'], [.scalar (FArith.ofInt 2), .scalar (FArith.ofInt 5)]⟩] [] []
      ⟨['v'], [.vector [FArith.ofInt 1, FArith.ofInt 2]]⟩ [] (by simp),
   (C21_missing cfg evalCtxExample ['y'] []).2.2 (by simp [evalCtxExample])⟩

/-! ## C23 -/

theorem mapM_ne_ok {ε α β : Type} {f : α → Out ε β} {l : List α} {a : α} (ha : a ∈ l)
    (h : ∀ b, f a ≠ .ok b) (r : List β) : l.mapM f ≠ .ok r := by
  intro hr
  have hall := List.forall₂_iff_get.1 (mapM_eq_ok.1 hr)
  obtain ⟨i, hi, rfl⟩ := List.getElem_of_mem ha
  exact h _ (hall.2 i hi (by have := hall.1; omega))

/-- C23: inside the body of `f`, an expression that calls `f` (other than in an integrand, a differentiated
expression or an equation) never evaluates to a value. -/
theorem C23_body_fails (cfg : Cfg) {f : Str} {b : AST F} (h : DirectCall f b) (n : Nat) (ctx : Context F)
    (vs : List (Value F)) : evalRec cfg n b ctx f ≠ .ok vs := by
  induction h generalizing n ctx vs with
  | here args =>
    cases n with
    | zero => simp [evalRec]
    | succ n => simp [evalRec]
  | vector v a ha _ ih =>
    cases n with
    | zero => simp [evalRec]
    | succ n =>
      simp only [evalRec]
      intro hr
      obtain ⟨r, hr, _⟩ := bind_eq_ok.1 hr
      refine mapM_ne_ok ha (fun b hb => ?_) r hr
      obtain ⟨vs, hvs, _⟩ := bind_eq_ok.1 hb
      exact ih _ _ _ hvs
  | matrix m r a hr ha _ ih =>
    cases n with
    | zero => simp [evalRec]
    | succ n =>
      simp only [evalRec]
      intro hx
      obtain ⟨rs, hx, _⟩ := bind_eq_ok.1 hx
      refine mapM_ne_ok hr (fun b hb => ?_) rs hx
      refine mapM_ne_ok ha (fun b hb => ?_) b hb
      obtain ⟨vs, hvs, _⟩ := bind_eq_ok.1 hb
      exact ih _ _ _ hvs
  | list l a ha _ ih =>
    cases n with
    | zero => simp [evalRec]
    | succ n =>
      simp only [evalRec]
      intro hr
      obtain ⟨r, hr, _⟩ := bind_eq_ok.1 hr
      exact mapM_ne_ok ha (fun b hb => ih _ _ _ hb) r hr
  | arg g args a ha _ ih =>
    cases n with
    | zero => simp [evalRec]
    | succ n =>
      simp only [evalRec]
      split
      · simp
      · split
        · simp
        · split
          · simp
          · intro hr
            obtain ⟨r, hr, _⟩ := bind_eq_ok.1 hr
            exact mapM_ne_ok ha (fun b hb => ih _ _ _ hb) r hr
  | left op l r _ ih =>
    cases n with
    | zero => simp [evalRec]
    | succ n =>
      simp only [evalRec]
      intro hr
      obtain ⟨lv, hl, _⟩ := bind_eq_ok.1 hr
      exact ih _ _ _ hl
  | right op l r _ ih =>
    cases n with
    | zero => simp [evalRec]
    | succ n =>
      simp only [evalRec]
      intro hr
      obtain ⟨lv, hl, hr⟩ := bind_eq_ok.1 hr
      obtain ⟨rv, hr, _⟩ := bind_eq_ok.1 hr
      exact ih _ _ _ hr
  | lower e x l u _ ih =>
    cases n with
    | zero => simp [evalRec]
    | succ n =>
      simp only [evalRec]
      intro hr
      obtain ⟨lv, hl, _⟩ := bind_eq_ok.1 hr
      exact ih _ _ _ hl
  | upper e x l u _ ih =>
    cases n with
    | zero => simp [evalRec]
    | succ n =>
      simp only [evalRec]
      intro hr
      obtain ⟨lv, hl, hr⟩ := bind_eq_ok.1 hr
      obtain ⟨rv, hr, _⟩ := bind_eq_ok.1 hr
      exact ih _ _ _ hr
  | at_ e x a _ ih =>
    cases n with
    | zero => simp [evalRec]
    | succ n =>
      simp only [evalRec]
      intro hr
      obtain ⟨lv, hl, _⟩ := bind_eq_ok.1 hr
      exact ih _ _ _ hl

/-- C23: calling a function that calls itself never returns a value (provided its arguments have values). -/
theorem C23_direct_recursion (cfg : Cfg) (ctx : Context F) (f : Function F) (args : List (AST F))
    (hf : ctx.findFun f.name = some f) (hrec : DirectCall f.name f.ast)
    (hargs : ∀ a ∈ args, ∀ n w, evalRec cfg n a ctx w ≠ .ok []) (n : Nat) (w : Str) (vs : List (Value F)) :
    evalRec cfg n (.function f.name args) ctx w ≠ .ok vs := by
  cases n with
  | zero => simp [evalRec]
  | succ n =>
    simp only [evalRec, hf]
    split
    · simp
    · split
      · simp
      · intro hr
        obtain ⟨vals, hvals, hr⟩ := bind_eq_ok.1 hr
        obtain ⟨res, hres, _⟩ := bind_eq_ok.1 hr
        have hne : cartProd vals ≠ [] := by
          intro h0
          have hmem := (C03_empty vals).1 h0
          obtain ⟨i, hi, hget⟩ := List.getElem_of_mem hmem
          have hall := mapM_eq_ok.1 hvals
          have hlen := (List.forall₂_iff_get.1 hall).1
          have := (List.forall₂_iff_get.1 hall).2 i (by omega) hi
          simp only [List.get_eq_getElem, hget] at this
          exact hargs _ (List.getElem_mem _) _ _ this
        obtain ⟨p, ps, hp⟩ := List.exists_cons_of_ne_nil hne
        exact mapM_ne_ok (a := p) (by rw [hp]; simp) (fun b hb => C23_body_fails cfg hrec n _ _ hb) res hres

/-- C23: a function whose body is a call of itself is rejected with `RecursiveFunction`. -/
theorem C23_rejected (cfg : Cfg) (ctx : Context F) (f : Function F) (args args' : List (AST F)) (vals : List (Value F))
    (hf : ctx.findFun f.name = some f) (hbody : f.ast = .function f.name args') (hlen : args.length = f.inputs.length)
    (hargs : List.Forall₂ (fun a v => Finishes (fun n => eval cfg n a ctx) (.ok [v])) args vals)
    (hname : f.name ≠ []) :
    Finishes (fun n => eval cfg n (.function f.name args) ctx) (.err .recursiveFunction) := by
  have : ∃ n, ∀ m ≥ n, (args.mapM fun i => evalRec cfg m i ctx []) = .ok (vals.map fun v => [v]) := by
    clear hlen
    induction hargs with
    | nil => exact ⟨0, fun _ _ => rfl⟩
    | cons h _ ih =>
      obtain ⟨n, hn⟩ := finishes_from (w := []) h
      obtain ⟨k, hk⟩ := ih
      refine ⟨max n k, fun m hm => ?_⟩
      simp only [List.mapM_cons]
      rw [hn m (by omega), hk m (by omega)]
      rfl
  obtain ⟨n, hn⟩ := this
  have hsing : cartProd (vals.map fun v => [v]) = [vals] := by
    rw [cartProd_eq_choices]
    clear hargs hn
    induction vals with
    | nil => rfl
    | cons v vs ih => simp [choices, ih]
  refine ⟨by simp, n + 2, ?_⟩
  simp only [eval]
  rw [evalRec.eq_def]
  simp only [hf, if_neg (Ne.symm hname), if_neg (not_not_intro hlen)]
  rw [hn (n + 1) (by omega), ok_bind, hsing]
  simp only [List.mapM_cons, hbody, evalRec]
  rfl

/-- `f(x) = 1 + f(x)` never gives a value. -/
example (cfg : Cfg) (n : Nat) (vs : List (Value F)) :
    evalRec cfg n (.function ['f'] [.scalar (FArith.ofInt 3)])
      ⟨[], [⟨['f'], .simple .add (.scalar (FArith.ofInt 1)) (.function ['f'] [.variable ['x']]), [['x']]⟩]⟩ [] ≠ .ok vs :=
  C23_direct_recursion cfg ⟨[], [⟨['f'], .simple .add (.scalar (FArith.ofInt 1)) (.function ['f'] [.variable ['x']]), [['x']]⟩]⟩
    ⟨['f'], .simple .add (.scalar (FArith.ofInt 1)) (.function ['f'] [.variable ['x']]), [['x']]⟩ _ rfl
    (.right _ _ _ (.here _)) (by
      intro a ha n w
      rw [List.mem_singleton.1 ha]
      cases n <;> simp [evalRec]) n [] vs

/-- `f(x) = f(x)` is reported as recursive. -/
example (cfg : Cfg) :
    Finishes (fun n => eval cfg n (.function ['f'] [.scalar (FArith.ofInt 3 : F)])
      ⟨[], [⟨['f'], .function ['f'] [.variable ['x']], [['x']]⟩]⟩) (.err .recursiveFunction) :=
  C23_rejected cfg _ ⟨['f'], .function ['f'] [.variable ['x']], [['x']]⟩ _ [.variable ['x']] [.scalar (FArith.ofInt 3)]
    rfl rfl rfl (.cons ⟨by simp, 1, rfl⟩ .nil) (by simp)

section
variable (cfg : Cfg)

/-- Two functions that call each other: `f(x) = g(x)`, `g(x) = f(x)`. -/
def pingPong : Context F :=
  ⟨[], [⟨['f'], .function ['g'] [.variable ['x']], [['x']]⟩, ⟨['g'], .function ['f'] [.variable ['x']], [['x']]⟩]⟩

theorem pingPong_diverges (n : Nat) (w : Str) (v : Value F) (vars : List (Variable F)) :
    (w ≠ ['g'] → evalRec cfg n (.function ['g'] [.variable ['x']]) ⟨⟨['x'], [v]⟩ :: vars, pingPong.funs⟩ w = .timeout) ∧
    (w ≠ ['f'] → evalRec cfg n (.function ['f'] [.variable ['x']]) ⟨⟨['x'], [v]⟩ :: vars, pingPong.funs⟩ w = .timeout) := by
  induction n using Nat.strongRecOn generalizing w v vars with
  | ind n ih =>
    match n with
    | 0 => simp [evalRec]
    | 1 => constructor <;> intro hw <;> (simp only [evalRec, if_neg hw]; rfl)
    | n + 2 =>
      have ih' := ih (n + 1) (by omega)
      have hcall : ∀ p : List (Value F), ∀ q : Value F, ∃ vs', callVars [['x']] (q :: p) (⟨['x'], [v]⟩ :: vars) =
          ⟨['x'], [q]⟩ :: vs' := by
        intro p q
        simp only [callVars]
        have : ∀ (us acc : List (Variable F)), ∃ vs', us.foldl (fun acc i =>
            if (acc.map (·.name)).contains i.name then acc else acc ++ [i]) (⟨['x'], [q]⟩ :: acc) =
            ⟨['x'], [q]⟩ :: vs' := by
          intro us
          induction us with
          | nil => intro acc; exact ⟨acc, rfl⟩
          | cons u us ih =>
            intro acc
            simp only [List.foldl_cons]
            split
            · exact ih acc
            · exact ih (acc ++ [u])
        exact this _ _
      have hx : evalRec cfg (n + 1) (.variable ['x']) ⟨⟨['x'], [v]⟩ :: vars, (pingPong (F := F)).funs⟩ w = .ok [v] := by
        simp only [evalRec, Context.findVar]
        rfl
      have hprod : cartProd [[v]] = [[v]] := rfl
      obtain ⟨vs', hvs⟩ := hcall [] v
      constructor
      · intro hw
        have h2 := (ih' ['g'] v vs').2 (by decide)
        simp only [evalRec.eq_def cfg (n + 1 + 1), if_neg hw]
        have hfind : Context.findFun ⟨⟨['x'], [v]⟩ :: vars, (pingPong (F := F)).funs⟩ ['g'] =
            some ⟨['g'], .function ['f'] [.variable ['x']], [['x']]⟩ := rfl
        simp only [hfind, List.length_cons, List.length_nil, ne_eq, not_true_eq_false, if_false,
          List.mapM_cons, List.mapM_nil, pure_eq, hx, ok_bind, hprod, hvs, h2]
        rfl
      · intro hw
        have h2 := (ih' ['f'] v vs').1 (by decide)
        simp only [evalRec.eq_def cfg (n + 1 + 1), if_neg hw]
        have hfind : Context.findFun ⟨⟨['x'], [v]⟩ :: vars, (pingPong (F := F)).funs⟩ ['f'] =
            some ⟨['f'], .function ['g'] [.variable ['x']], [['x']]⟩ := rfl
        simp only [hfind, List.length_cons, List.length_nil, ne_eq, not_true_eq_false, if_false,
          List.mapM_cons, List.mapM_nil, pure_eq, hx, ok_bind, hprod, hvs, h2]
        rfl

/-- C23: mutual recursion is not caught: with `f(x) = g(x)` and `g(x) = f(x)` the evaluation of `f(x)` never
returns. -/
theorem C23_mutual_diverges (v : Value F) :
    Diverges (fun n => eval cfg n (.function ['f'] [.variable ['x']]) ⟨[⟨['x'], [v]⟩], pingPong.funs⟩) :=
  fun n => (pingPong_diverges cfg n [] v []).2 (by decide)

/-- `f(x) = D(f(x), x, x)`. -/
def recThroughD : Context F :=
  ⟨[⟨['x'], [.scalar (FArith.ofInt 0)]⟩],
   [⟨['f'], .derivative (.function ['f'] [.variable ['x']]) ['x'] (.variable ['x']), [['x']]⟩]⟩

end

/-! ## C28 -/

theorem choices_singletons {α : Type} (l : List α) : choices (l.map fun x => [x]) = [l] := by
  induction l with
  | nil => rfl
  | cons x l ih => simp [choices, ih]

theorem evalRec_scalars (cfg : Cfg) (e : EvalError) (n : Nat) (xs : List F) (ctx : Context F) (w : Str) :
    ((xs.map AST.scalar).mapM fun i => do
        let values ← evalRec cfg (n + 1) i ctx w
        allScalars e values) = .ok (xs.map fun x => [x]) := by
  induction xs with
  | nil => rfl
  | cons x xs ih =>
    simp only [List.map_cons, List.mapM_cons, ih]
    rfl

/-- C28: evaluating the tree made from a value gives back exactly that value, in every context (already with
a budget of two steps). -/
theorem C28_from_value (cfg : Cfg) (v : Value F) (ctx : Context F) (n : Nat) :
    eval cfg (n + 2) (AST.fromValue v) ctx = .ok [v] := by
  unfold eval
  cases v with
  | scalar s => rfl
  | vector v =>
    rw [AST.fromValue, evalRec.eq_def]
    simp only
    have := evalRec_scalars cfg .nonScalarInVector n v ctx []
    rw [this, ok_bind, cartProd_eq_choices, choices_singletons]
    rfl
  | matrix m =>
    have : ((m.map fun i => i.map AST.scalar).mapM fun i => i.mapM fun j => do
        let values ← evalRec cfg (n + 1) j ctx []
        allScalars EvalError.nonScalarInMatrix values) = .ok (m.map fun r => r.map fun x => [x]) := by
      induction m with
      | nil => rfl
      | cons r m ih =>
        simp only [List.map_cons, List.mapM_cons] at ih ⊢
        rw [ih, evalRec_scalars]
        rfl
    rw [AST.fromValue, evalRec.eq_def]
    simp only
    rw [this, ok_bind, cartProd_eq_choices]
    have h2 : (m.map fun r => r.map fun x => [x]).map cartProd = m.map fun r => [r] := by
      rw [List.map_map]
      apply List.map_congr_left
      intro r _
      simp only [Function.comp]
      rw [cartProd_eq_choices, choices_singletons]
    rw [h2, choices_singletons]
    rfl

/-! ## C29 -/

/-- C29: a text the parser rejects gives the parser's error. -/
theorem C29_parse_error [UTable] (cfg : Cfg) (n : Nat) (s : Str) (ctx : Context F) {e : ParserError}
    (h : parse (F := F) cfg s = .err e) : quickEval cfg n s ctx = .err (.parserError e) := by
  unfold quickEval
  rw [h]
  rfl

/-- C29: otherwise the outcome is that of evaluating the parsed tree, errors being passed on. -/
theorem C29_eval [UTable] (cfg : Cfg) (s : Str) (ctx : Context F) {b : AST F} (h : parse cfg s = .ok b) :
    (∀ vs, Finishes (fun n => eval cfg n b ctx) (.ok vs) ↔ Finishes (fun n => quickEval cfg n s ctx) (.ok vs)) ∧
    (∀ e, Finishes (fun n => eval cfg n b ctx) (.err e) ↔
      Finishes (fun n => quickEval cfg n s ctx) (.err (.evalError e))) := by
  have key : ∀ n, quickEval cfg n s ctx = (eval cfg n b ctx).mapErr .evalError := by
    intro n
    unfold quickEval
    rw [h]
    rfl
  constructor
  · intro vs
    simp only [Finishes, key, mapErr_eq_ok, ne_eq, reduceCtorEq, not_false_eq_true]
  · intro e
    simp only [Finishes, key, ne_eq, reduceCtorEq, not_false_eq_true, true_and]
    constructor <;> rintro ⟨n, hn⟩ <;> refine ⟨n, ?_⟩
    · rw [hn]; rfl
    · revert hn
      cases eval cfg n b ctx <;> simp

/-- C29: it panics, or never returns, exactly if that evaluation does. -/
theorem C29_no_outcome [UTable] (cfg : Cfg) (s : Str) (ctx : Context F) {b : AST F} (h : parse cfg s = .ok b) :
    (Finishes (fun n => eval cfg n b ctx) .panic ↔ Finishes (fun n => quickEval cfg n s ctx) .panic) ∧
    (Diverges (fun n => eval cfg n b ctx) ↔ Diverges (fun n => quickEval cfg n s ctx)) := by
  have key : ∀ n, quickEval cfg n s ctx = (eval cfg n b ctx).mapErr .evalError := by
    intro n
    unfold quickEval
    rw [h]
    rfl
  constructor
  · simp only [Finishes, key, ne_eq, reduceCtorEq, not_false_eq_true, true_and]
    constructor <;> rintro ⟨n, hn⟩ <;> refine ⟨n, ?_⟩
    · rw [hn]; rfl
    · revert hn
      cases eval cfg n b ctx <;> simp
  · simp only [Diverges, key]
    refine forall_congr' fun n => ?_
    cases eval cfg n b ctx <;> simp

/-! ## C50 -/

theorem foldl_snoc {α β : Type} (f : α → β) (l : List α) (acc : List β) :
    l.foldl (fun fe i => fe ++ [f i]) acc = acc ++ l.map f := by
  induction l generalizing acc with
  | nil => simp
  | cons a l ih => simp [ih]

/-- C50: `solve` finishes with an outcome exactly if evaluating the corresponding equation does. -/
theorem C50_solve_eq (cfg : Cfg) (eqs : List (AST F × AST F)) (ctx : Context F) (vars : List Str)
    (r : Out EvalError (List (Value F))) :
    Finishes (fun n => solve cfg n eqs ctx vars) r ↔
      Finishes (fun n => eval cfg n (.equation eqs vars) ctx) r := by
  have key : ∀ n, solve cfg n eqs ctx vars = eval cfg (n + 1) (.equation eqs vars) ctx := by
    intro n
    simp only [eval, evalRec, solve, solveEquations]
    rw [foldl_snoc]
    simp only [List.nil_append]
    change (match RootFinder.new (eval cfg n) (eqs.map fun i => AST.simple .sub i.1 i.2) ctx vars with
      | .ok rootFinder => rootFinder.findRoots cfg (eval cfg n)
      | .err e => .err e | .panic => .panic | .timeout => .timeout) =
      (RootFinder.new (eval cfg n) (eqs.map fun i => AST.simple .sub i.1 i.2) ctx vars >>= fun rf =>
        rf.findRoots cfg (eval cfg n))
    cases RootFinder.new (eval cfg n) (eqs.map fun i => AST.simple .sub i.1 i.2) ctx vars <;> rfl
  constructor
  · rintro ⟨hr, n, hn⟩
    exact ⟨hr, n + 1, by simp only at hn ⊢; rw [← key, hn]⟩
  · rintro ⟨hr, n, hn⟩
    cases n with
    | zero => exact absurd hn.symm (by simpa [eval, evalRec] using hr)
    | succ n => exact ⟨hr, n, by simp only at hn ⊢; rw [key, hn]⟩

end
end MUL
