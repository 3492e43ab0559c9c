import Verif.Proofs.MathsShape2
import Verif.Proofs.EvalCtx
import Verif.Spec.Eval
import Verif.Props.Combinatorics
/-!
# Evaluation of equation-free trees does not panic and yields well-formed values
-/

set_option linter.unusedSectionVars false

namespace MUL
open Out Spec

section maths
variable {F : Type} [FNum F]
open FArith

theorem wf_matrix {m : List (List F)} : WFValue (.matrix m) ↔ ∃ r c, 0 < r ∧ 0 < c ∧ Rect r c m := by
  constructor
  · rintro ⟨hm, n, hn, h⟩
    exact ⟨m.length, n, List.length_pos_iff.2 hm, hn, rfl, h⟩
  · rintro ⟨r, c, hr, hc, h1, h2⟩
    exact ⟨fun h => by subst h; simp at h1; omega, c, hc, h2⟩

theorem wf_rect {r c : Nat} (hr : 0 < r) (hc : 0 < c) {m : List (List F)} (h : Rect r c m) : WFValue (.matrix m) :=
  wf_matrix.2 ⟨r, c, hr, hc, h⟩

theorem wf_vec {v : List F} (h : 0 < v.length) : WFValue (.vector v) := by
  intro h0; subst h0; simp at h

theorem vec_pos {v : List F} (h : WFValue (.vector v)) : 0 < v.length := List.length_pos_iff.2 h

theorem safe_err {ε α : Type} {P : α → Prop} {e : ε} : Safe P (.err e : Out ε α) := trivial
theorem safe_ok {ε α : Type} {P : α → Prop} {a : α} (h : P a) : Safe P (.ok a : Out ε α) := h

theorem vadd_safe {a b : List F} (ha : WFValue (.vector a)) : Safe WFValue (vadd a b) := by
  by_cases h : a.length = b.length
  · rw [vadd_eq a b h]
    exact wf_vec (by have := vec_pos ha; simp [← h]; omega)
  · rw [vadd_err a b h]; trivial

theorem madd_safe {a b : List (List F)} (ha : WFValue (.matrix a)) (hb : WFValue (.matrix b)) : Safe WFValue (madd a b) := by
  obtain ⟨r, c, hr, hc, ha⟩ := wf_matrix.1 ha
  obtain ⟨r', c', hr', hc', hb⟩ := wf_matrix.1 hb
  by_cases h : r = r' ∧ c = c'
  · obtain ⟨rfl, rfl⟩ := h
    rw [madd_eq hr ha hb]
    exact wf_rect hr hc (rect_zipWith ha hb _)
  · rw [madd_err ha hb hr hr' (by omega)]; trivial

theorem vAdd_safe {a b : Value F} (ha : WFValue a) (hb : WFValue b) : Safe WFValue (vAdd a b) := by
  cases a <;> cases b <;> simp only [vAdd] <;> first
    | exact safe_err
    | exact vadd_safe ha
    | exact madd_safe ha hb
    | trivial

theorem vSub_safe {a b : Value F} (ha : WFValue a) (hb : WFValue b) : Safe WFValue (vSub a b) := by
  cases a <;> cases b <;> simp only [vSub] <;> try first | exact safe_err | trivial
  · rename_i a b
    obtain ⟨r, c, hr, hc, ha⟩ := wf_matrix.1 ha
    obtain ⟨r', c', hr', hc', hb⟩ := wf_matrix.1 hb
    by_cases h : r = r' ∧ c = c'
    · obtain ⟨rfl, rfl⟩ := h
      rw [msub_eq hr ha hb]
      exact wf_rect hr hc (rect_zipWith ha (rect_map hb _) _)
    · rw [msub_err ha hb hr hr' (by omega)]; trivial
  · exact vadd_safe ha

theorem smmult_safe (a : F) {b : List (List F)} (hb : WFValue (.matrix b)) : Safe WFValue (smmult a b) := by
  obtain ⟨r, c, hr, hc, hb⟩ := wf_matrix.1 hb
  rw [smmult_eq a hb]
  exact wf_rect hr hc (rect_map hb _)

theorem svmult_safe (a : F) {b : List F} (hb : WFValue (.vector b)) : Safe WFValue (svmult a b) := by
  refine safe_ok (wf_vec ?_)
  rw [List.length_map]
  exact vec_pos hb

theorem vvmult_safe (a b : List F) : Safe WFValue (vvmult a b) := by
  by_cases h : a.length = b.length
  · rw [vvmult_eq a b h]; trivial
  · unfold vvmult; rw [if_pos h]; trivial

theorem vvdiv_safe (a b : List F) : Safe WFValue (vvdiv a b) := by
  by_cases h : a.length = b.length
  · rw [vvdiv_eq a b h]; trivial
  · unfold vvdiv; rw [if_pos h]; trivial

theorem mvmult_safe {a : List (List F)} (b : List F) (ha : WFValue (.matrix a)) : Safe WFValue (mvmult a b) := by
  obtain ⟨r, c, hr, hc, ha⟩ := wf_matrix.1 ha
  by_cases h : b.length = c
  · rw [mvmult_eq hr ha h]
    exact wf_vec (by simp [ha.1, hr])
  · rw [mvmult_err hr ha h]; trivial

theorem mmmult_safe {a b : List (List F)} (ha : WFValue (.matrix a)) (hb : WFValue (.matrix b)) : Safe WFValue (mmmult a b) := by
  obtain ⟨r, c, hr, hc, ha⟩ := wf_matrix.1 ha
  obtain ⟨r', c', hr', hc', hb⟩ := wf_matrix.1 hb
  by_cases h : c = r'
  · subst h
    rw [mmmult_eq hr hc ha hb]
    exact wf_rect hr hc' (rect_mul ha)
  · rw [mmmult_err hr ha hb h]; trivial

theorem vMult_safe {a b : Value F} (ha : WFValue a) (hb : WFValue b) : Safe WFValue (vMult a b) := by
  cases a <;> cases b <;> simp only [vMult] <;> first
    | exact safe_err
    | exact svmult_safe _ ha
    | exact svmult_safe _ hb
    | exact smmult_safe _ ha
    | exact smmult_safe _ hb
    | exact mmmult_safe ha hb
    | exact vvmult_safe _ _
    | exact mvmult_safe _ ha
    | trivial

theorem vDiv_safe {a b : Value F} (ha : WFValue a) : Safe WFValue (vDiv a b) := by
  cases a <;> cases b <;> simp only [vDiv] <;> first
    | exact safe_err
    | exact svmult_safe _ ha
    | exact smmult_safe _ ha
    | exact vvdiv_safe _ _
    | trivial

theorem vNeg_safe {a : Value F} (ha : WFValue a) : Safe WFValue (vNeg a) := by
  cases a with
  | scalar a => trivial
  | vector a => exact safe_ok (wf_vec (by rw [List.length_map]; exact vec_pos ha))
  | matrix a =>
    obtain ⟨r, c, hr, hc, ha⟩ := wf_matrix.1 ha
    exact safe_ok (wf_rect hr hc (rect_map ha _))

theorem vCross_safe (a b : Value F) : Safe WFValue (vCross a b) := by
  cases a <;> cases b <;> simp only [vCross] <;> try exact safe_err
  rename_i a b
  by_cases h : a.length = b.length
  · by_cases h3 : a.length ≤ 3
    · rw [vcross_eq a b h h3]
      exact wf_vec (by rw [crossL_length a b h h3]; omega)
    · rw [vcross_err2 a b h (by omega)]; trivial
  · rw [vcross_err1 a b h]; trivial

theorem vGet_safe {a b : Value F} (ha : WFValue a) : Safe WFValue (vGet a b) := by
  cases a <;> cases b <;> simp only [vGet] <;> try exact safe_err
  rename_i a b
  have := vec_pos ha
  split
  · exact safe_err
  · rw [if_neg (by omega)]
    split
    · exact safe_err
    · rw [idx_lt (by omega)]; trivial

theorem vPow_safe {a b : Value F} (ha : WFValue a) : Safe WFValue (vPow a b) := by
  cases a <;> cases b <;> simp only [vPow] <;> try exact safe_err
  · rename_i a b
    obtain ⟨r, c, hr, hc, ha⟩ := wf_matrix.1 ha
    cases hb : beq (round b) b with
    | false => rw [mspow_not_int a b hb]; trivial
    | true =>
      by_cases hrc : r = c
      · subst hrc
        rw [mspow_eq hr ha b hb]
        exact wf_rect hr hr (rect_powL _ _)
      · rw [mspow_not_square hr hrc ha b hb]
        split
        · exact wf_rect hr hc (rect_eye _ _)
        · trivial
  · trivial

theorem vDet_safe {a : Value F} (ha : WFValue a) : Safe WFValue (vDet a) := by
  cases a <;> simp only [vDet] <;> try exact safe_err
  rename_i a
  obtain ⟨r, c, hr, hc, ha⟩ := wf_matrix.1 ha
  by_cases hrc : r = c
  · subst hrc
    rw [detM_eq hr ha]; trivial
  · rw [detM_err hr hrc ha]; trivial

theorem vInv_safe {a : Value F} (ha : WFValue a) : Safe WFValue (vInv a) := by
  cases a <;> simp only [vInv] <;> try exact safe_err
  rename_i a
  obtain ⟨r, c, hr, hc, ha⟩ := wf_matrix.1 ha
  by_cases hrc : r = c
  · subst hrc
    refine Post.mono (invM_post hr ha) ?_
    rintro _ ⟨m, rfl, hm⟩
    exact wf_rect hr hr hm
  · unfold invM
    rw [detM_err hr hrc ha]; trivial

theorem liftMath_safe {α : Type} {P : α → Prop} {x : Out String α} (h : Safe P x) : Safe P (liftMath x) :=
  Post.mapErr _ h

theorem applyOp_safe (op : SimpleOp) {a b : Value F} (ha : WFValue a) (hb : WFValue b) :
    Safe (fun vs => ∀ v ∈ vs, WFValue v) (applyOp op a b) := by
  have one : ∀ {x : Out String (Value F)}, Safe WFValue x →
      Safe (fun vs => ∀ v ∈ vs, WFValue v) (liftMath x >>= fun v => .ok [v]) := by
    intro x hx
    refine Post.bind (liftMath_safe hx) fun v hv => ?_
    simpa using hv
  cases op <;> simp only [applyOp]
  case add => exact one (vAdd_safe ha hb)
  case sub => exact one (vSub_safe ha hb)
  case addSub =>
    refine Post.bind (liftMath_safe (vAdd_safe ha hb)) fun v hv => ?_
    refine Post.bind (liftMath_safe (vSub_safe ha hb)) fun w hw => ?_
    simp [hv, hw]
  case neg => exact one (vNeg_safe hb)
  case mult => exact one (vMult_safe ha hb)
  case hiddenMult => exact one (vMult_safe ha hb)
  case div => exact one (vDiv_safe ha)
  case cross => exact one (vCross_safe a b)
  case pow => exact one (vPow_safe ha)
  case get => exact one (vGet_safe ha)
  case det => exact one (vDet_safe ha)
  case inv => exact one (vInv_safe ha)
  case parenths => simpa using ha
  case root => exact one (by cases a <;> cases b <;> simp only [vRoot] <;> first | exact safe_err | trivial)
  case abs =>
    refine one ?_
    cases a <;> simp only [vAbs]
    · trivial
    · trivial
    · split <;> trivial
  all_goals refine one ?_
  all_goals (cases a <;> simp only [vSin, vCos, vTan, vArcsin, vArccos, vArctan, vSqrt, vLn] <;> first | exact safe_err | trivial)

theorem mem_flatten_forall {α : Type} {P : α → Prop} {l : List (List α)} (h : ∀ x ∈ l, ∀ a ∈ x, P a) : ∀ a ∈ l.flatten, P a := by
  intro a ha
  obtain ⟨x, hx, hax⟩ := List.mem_flatten.1 ha
  exact h x hx a hax

theorem applyAll_safe (op : SimpleOp) {lv rv : List (Value F)} (hl : ∀ v ∈ lv, WFValue v) (hr : ∀ v ∈ rv, WFValue v) :
    Safe (fun vs => ∀ v ∈ vs, WFValue v) (applyAll op lv rv) := by
  unfold applyAll
  refine Post.bind (Post.mapM (P := fun vs => ∀ v ∈ vs, WFValue v) _ fun i hi => ?_) fun res hres => ?_
  · refine Post.bind (Post.mapM (P := fun vs => ∀ v ∈ vs, WFValue v) _ fun j hj => ?_) fun r hr => ?_
    · exact applyOp_safe op (hl i hi) (hr j hj)
    · exact mem_flatten_forall hr.2
  · exact mem_flatten_forall hres.2

theorem choices_forall₂ {α : Type} {arr : List (List α)} {p : List α} (h : p ∈ choices arr) :
    List.Forall₂ (fun x l => x ∈ l) p arr := by
  induction arr generalizing p with
  | nil => simp only [choices, List.mem_cons, List.not_mem_nil, or_false] at h; subst h; exact .nil
  | cons xs arr ih =>
    simp only [choices, List.mem_flatMap, List.mem_map] at h
    obtain ⟨x, hx, q, hq, rfl⟩ := h
    exact .cons hx (ih hq)

theorem choices_forall {α : Type} {arr : List (List α)} {p : List α} (h : p ∈ choices arr) {P : α → Prop}
    (hP : ∀ l ∈ arr, ∀ a ∈ l, P a) : ∀ a ∈ p, P a := by
  have := choices_forall₂ h
  clear h
  induction this with
  | nil => simp
  | cons h _ ih =>
    intro a ha
    rcases List.mem_cons.1 ha with rfl | ha
    · exact hP _ (by simp) _ h
    · exact ih (fun l hl => hP l (by simp [hl])) a ha

/-! ## eval -/

theorem Spec.WFCtx.setVars {c : Context F} (h : WFCtx c) {vs : List (Variable F)}
    (hv : ∀ v ∈ vs, ∀ x ∈ v.values, WFValue x) : WFCtx ⟨vs, c.funs⟩ := ⟨hv, h.funs⟩

theorem Spec.WFCtx.addVar {c : Context F} (h : WFCtx c) {v : Variable F} (hv : ∀ x ∈ v.values, WFValue x) : WFCtx (c.addVar v) := by
  refine ⟨fun u hu => ?_, h.funs⟩
  rcases List.mem_append.1 hu with hu | hu
  · exact h.vals u (List.mem_filter.1 hu).1
  · simp only [List.mem_cons, List.not_mem_nil, or_false] at hu; subst hu; exact hv

theorem Spec.WFCtx.removeVar {c : Context F} (h : WFCtx c) (n : Str) : WFCtx (c.removeVar n) :=
  ⟨fun u hu => h.vals u (List.mem_filter.1 hu).1, h.funs⟩

/-- What the calculus functions need of the evaluator. -/
def SafeEv (ev : Evaluator F) : Prop :=
  ∀ a c, EqFree a → WFCtx c → Safe (fun vs => ∀ v ∈ vs, WFValue v) (ev a c)

theorem eqFree_fromValue {v : Value F} (h : WFValue v) : EqFree (AST.fromValue v) := by
  cases v with
  | scalar s => exact .scalar s
  | vector v =>
    refine .vector _ (by simpa using (show v ≠ [] from h)) fun a ha => ?_
    obtain ⟨x, _, rfl⟩ := List.mem_map.1 ha
    exact .scalar x
  | matrix m =>
    obtain ⟨hm, n, hn, hr⟩ := h
    refine .matrix _ n (by simpa using hm) hn ?_ ?_
    · intro l hl
      obtain ⟨r, hr', rfl⟩ := List.mem_map.1 hl
      rw [List.length_map, hr r hr']
    · intro l hl a ha
      obtain ⟨r, hr', rfl⟩ := List.mem_map.1 hl
      obtain ⟨x, _, rfl⟩ := List.mem_map.1 ha
      exact .scalar x

theorem accumulate_safe {sums es : List (Value F)} (hs : ∀ v ∈ sums, WFValue v) (he : ∀ v ∈ es, WFValue v) :
    Safe (fun vs => ∀ v ∈ vs, WFValue v) (accumulate sums es) := by
  induction es generalizing sums with
  | nil => cases sums <;> exact hs
  | cons e es ih =>
    cases sums with
    | nil =>
      unfold accumulate
      refine Post.bind (ih (sums := []) (by simp) fun v hv => he v (by simp [hv])) fun r hr => ?_
      rw [post_ok]
      intro v hv
      rcases List.mem_cons.1 hv with rfl | hv
      · exact he _ (by simp)
      · exact hr v hv
    | cons s ss =>
      unfold accumulate
      refine Post.bind (liftMath_safe (vAdd_safe (hs s (by simp)) (he e (by simp)))) fun s' hs' => ?_
      refine Post.bind (ih (fun v hv => hs v (by simp [hv])) fun v hv => he v (by simp [hv])) fun r hr => ?_
      rw [post_ok]
      intro v hv
      rcases List.mem_cons.1 hv with rfl | hv
      · exact hs'
      · exact hr v hv

theorem integralLoop_safe {ev : Evaluator F} (hev : SafeEv ev) {expr : AST F} (x : Str) (hm : EqFree expr)
    {c : Context F} (hc : WFCtx c) (ub dx : F) (n : Nat) (b : F) (sums : List (Value F)) (hs : ∀ v ∈ sums, WFValue v) :
    Safe (fun vs => ∀ v ∈ vs, WFValue v) (integralLoop ev expr x c.vars c.funs ub dx n b sums) := by
  induction n generalizing b sums with
  | zero =>
    unfold integralLoop
    split
    · trivial
    · exact hs
  | succ n ih =>
    unfold integralLoop
    split
    · refine Post.bind (hev expr _ hm ⟨fun v hv => ?_, hc.funs⟩) fun es he => ?_
      · rcases List.mem_append.1 hv with hv | hv
        · exact hc.vals v hv
        · simp only [List.mem_cons, List.not_mem_nil, or_false] at hv; subst hv
          intro y hy
          simp only [List.mem_cons, List.not_mem_nil, or_false] at hy; subst hy; trivial
      · exact Post.bind (accumulate_safe hs he) fun s hs => ih _ s hs
    · exact hs

theorem calculateIntegral_safe (cfg : Cfg) {ev : Evaluator F} (hev : SafeEv ev) (fuel : Nat) {expr : AST F} (x : Str)
    (hm : EqFree expr) (l u : Value F) {c : Context F} (hc : WFCtx c) :
    Safe (fun vs => ∀ v ∈ vs, WFValue v) (calculateIntegral cfg ev fuel expr x l u c) := by
  unfold calculateIntegral
  cases l <;> cases u <;> try exact safe_err
  simp only
  split
  · refine safe_ok ?_
    intro v hv
    simp only [List.mem_cons, List.not_mem_nil, or_false] at hv; subst hv; trivial
  · refine Post.bind (integralLoop_safe hev x hm (c := ⟨eraseFirstVar c.vars x, c.funs⟩)
      ⟨fun v hv => hc.vals v (List.mem_of_mem_eraseP hv), hc.funs⟩ _ _ _ _ [] (by simp)) fun s hs => ?_
    refine Post.mono (Post.mapM (P := WFValue) _ fun v hv => ?_) fun r hr => hr.2
    exact liftMath_safe (vMult_safe (hs v hv) trivial)

theorem eqFree_dq (cfg : Cfg) {a b : Value F} (ha : WFValue a) (hb : WFValue b) : EqFree (differenceQuotient cfg a b) :=
  .simple _ _ _ (.simple _ _ _ (eqFree_fromValue ha) (eqFree_fromValue hb)) (eqFree_fromValue trivial)

theorem calculateDerivative_safe (cfg : Cfg) {ev : Evaluator F} (hev : SafeEv ev) {expr : AST F} (x : Str)
    (hm : EqFree expr) (a : Value F) {c : Context F} (hc : WFCtx c) :
    Safe (fun vs => ∀ v ∈ vs, WFValue v) (calculateDerivative cfg ev expr x a c) := by
  unfold calculateDerivative
  cases a <;> try exact safe_err
  simp only [dropVar_eq]
  rename_i s
  have h1 : WFCtx ((c.removeVar x).addVar ⟨x, [.scalar s]⟩) := (hc.removeVar x).addVar (by
    intro y hy
    simp only [List.mem_cons, List.not_mem_nil, or_false] at hy; subst hy; trivial)
  refine Post.bind (hev _ _ hm h1) fun fxs hfx => ?_
  have h2 : WFCtx ((((c.removeVar x).addVar ⟨x, [.scalar s]⟩).removeVar x).addVar
      ⟨x, [.scalar (add s (powi (ofInt 10) (-(cfg.prec : Int))))]⟩) := (h1.removeVar x).addVar (by
    intro y hy
    simp only [List.mem_cons, List.not_mem_nil, or_false] at hy; subst hy; trivial)
  refine Post.bind (hev _ _ hm h2) fun fxhs hfxh => ?_
  split
  · exact safe_err
  · rename_i hlen
    have hlen : fxs.length = fxhs.length := by simpa using hlen
    refine Post.bind (Post.mapM (P := fun vs => ∀ v ∈ vs, WFValue v) _ fun i hi => ?_) fun r hr => ?_
    · have hi : i < fxs.length := List.mem_range.1 hi
      rw [idx_lt (show i < fxhs.length by omega), ok_bind, idx_lt hi, ok_bind]
      exact hev _ _ (eqFree_dq cfg (hfxh _ (List.getElem_mem _)) (hfx _ (List.getElem_mem _))) h2
    · exact mem_flatten_forall hr.2

theorem allScalars_safe (e : EvalError) (vs : List (Value F)) : Safe (fun _ => True) (allScalars e vs) := by
  unfold allScalars
  refine Post.mono (Post.mapM (P := fun _ => True) _ fun v _ => ?_) fun _ _ => trivial
  cases v <;> trivial

theorem callVars_mem {inputs : List Str} {p : List (Value F)} {vars : List (Variable F)} {P : Variable F → Prop}
    (h1 : ∀ np ∈ inputs.zip p, P ⟨np.1, [np.2]⟩) (h2 : ∀ v ∈ vars, P v) : ∀ v ∈ callVars inputs p vars, P v := by
  unfold callVars
  have : ∀ (vars acc : List (Variable F)), (∀ v ∈ acc, P v) → (∀ v ∈ vars, P v) →
      ∀ v ∈ vars.foldl (fun acc i => if (acc.map (·.name)).contains i.name then acc else acc ++ [i]) acc, P v := by
    intro vars
    induction vars with
    | nil => intro acc h _; exact h
    | cons u us ih =>
      intro acc h hu
      simp only [List.foldl_cons]
      apply ih
      · split
        · exact h
        · intro v hv
          rcases List.mem_append.1 hv with hv | hv
          · exact h v hv
          · simp only [List.mem_cons, List.not_mem_nil, or_false] at hv; subst hv
            exact hu v (by simp)
      · exact fun v hv => hu v (by simp [hv])
  refine this vars _ ?_ h2
  intro v hv
  obtain ⟨np, hnp, rfl⟩ := List.mem_map.1 hv
  exact h1 np hnp

theorem evalRec_safe (cfg : Cfg) (n : Nat) {b : AST F} (hb : EqFree b) {c : Context F} (hc : WFCtx c) (w : Str) :
    Safe (fun vs => ∀ v ∈ vs, WFValue v) (evalRec cfg n b c w) := by
  induction n generalizing b c w with
  | zero => simp [evalRec]
  | succ n ih =>
    have hev : SafeEv (fun a c => evalRec (F := F) cfg n a c []) := fun a c ha hc => ih ha hc []
    cases hb with
    | scalar s =>
      simp only [evalRec]
      refine safe_ok fun v hv => ?_
      simp only [List.mem_cons, List.not_mem_nil, or_false] at hv; subst hv; trivial
    | vector v hne h =>
      simp only [evalRec]
      refine Post.bind (Post.mapM (P := fun _ => True) _ fun a ha => ?_) fun fields hf => ?_
      · exact Post.bind (ih (h a ha) hc w) fun vs _ => allScalars_safe _ vs
      · rw [post_ok]
        intro x hx
        obtain ⟨p, hp, rfl⟩ := List.mem_map.1 hx
        rw [cartProd_eq_choices] at hp
        refine wf_vec ?_
        rw [(choices_forall₂ hp).length_eq, hf.1]
        exact List.length_pos_iff.2 hne
    | matrix m k hne hk hrect h =>
      simp only [evalRec]
      refine Post.bind (Post.mapM (P := fun (r : List (List F)) => r.length = k) _ fun l hl => ?_) fun rows hr => ?_
      · refine Post.mono (Post.mapM (P := fun _ => True) _ fun a ha => ?_) fun r hr => ?_
        · exact Post.bind (ih (h l hl a ha) hc w) fun vs _ => allScalars_safe _ vs
        · rw [hr.1, hrect l hl]
      · rw [post_ok]
        intro x hx
        obtain ⟨p, hp, rfl⟩ := List.mem_map.1 hx
        rw [cartProd_eq_choices] at hp
        refine wf_rect (r := m.length) (c := k) (List.length_pos_iff.2 hne) hk ⟨?_, ?_⟩
        · rw [(choices_forall₂ hp).length_eq, List.length_map, hr.1]
        · refine choices_forall hp fun l hl => ?_
          obtain ⟨row, hrow, rfl⟩ := List.mem_map.1 hl
          intro q hq
          rw [cartProd_eq_choices] at hq
          rw [(choices_forall₂ hq).length_eq, hr.2 row hrow]
    | list l h =>
      simp only [evalRec]
      refine Post.bind (Post.mapM (P := fun vs => ∀ v ∈ vs, WFValue v) _ fun a ha => ih (h a ha) hc w) fun vs hvs => ?_
      exact mem_flatten_forall hvs.2
    | «variable» x =>
      simp only [evalRec]
      cases hf : c.findVar x with
      | none => trivial
      | some vs =>
        simp only [Context.findVar, Option.map_eq_some_iff] at hf
        obtain ⟨v, hv, rfl⟩ := hf
        exact hc.vals v (List.mem_of_find?_eq_some hv)
    | function f args h =>
      simp only [evalRec]
      split
      · trivial
      · split
        · trivial
        · rename_i g hg
          split
          · trivial
          · refine Post.bind (Post.mapM (P := fun vs => ∀ v ∈ vs, WFValue v) _ fun a ha => ih (h a ha) hc w) fun vals hvals => ?_
            refine Post.bind (Post.mapM (P := fun vs => ∀ v ∈ vs, WFValue v) _ fun p hp => ?_) fun r hr => ?_
            · refine ih (c := ⟨callVars g.inputs p c.vars, c.funs⟩) (hc.funs g (List.mem_of_find?_eq_some hg)) ⟨?_, hc.funs⟩ _
              refine callVars_mem ?_ hc.vals
              rintro ⟨nm, v⟩ hnv y hy
              simp only [List.mem_cons, List.not_mem_nil, or_false] at hy; subst hy
              rw [cartProd_eq_choices] at hp
              exact choices_forall hp hvals.2 _ (List.of_mem_zip hnv).2
            · exact mem_flatten_forall hr.2
    | simple op l r hl hr =>
      simp only [evalRec]
      refine Post.bind (ih hl hc w) fun lv hlv => ?_
      refine Post.bind (ih hr hc w) fun rv hrv => ?_
      exact applyAll_safe op hlv hrv
    | integral e x lo hi he hlo hhi =>
      simp only [evalRec]
      refine Post.bind (ih hlo hc w) fun lv _ => ?_
      refine Post.bind (ih hhi hc w) fun rv _ => ?_
      refine Post.bind (Post.mapM (P := fun vs => ∀ v ∈ vs, WFValue v) _ fun i _ => ?_) fun r hr => ?_
      · refine Post.bind (Post.mapM (P := fun vs => ∀ v ∈ vs, WFValue v) _ fun j _ => ?_) fun r hr => ?_
        · exact calculateIntegral_safe cfg hev n x he i j hc
        · exact mem_flatten_forall hr.2
      · exact mem_flatten_forall hr.2
    | derivative e x a he ha =>
      simp only [evalRec]
      refine Post.bind (ih ha hc w) fun lv _ => ?_
      refine Post.bind (Post.mapM (P := fun vs => ∀ v ∈ vs, WFValue v) _ fun i _ => ?_) fun r hr => ?_
      · exact calculateDerivative_safe cfg hev x he i hc
      · exact mem_flatten_forall hr.2

end maths
end MUL
