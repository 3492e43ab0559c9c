import Verif.Spec.StepByStep
import Verif.Props.Replace
import Verif.Props.EvalCtx
import Verif.Props.Grammar
import Verif.Proofs.Reread
import Verif.Props.Reread
import Verif.Props.ContextMap
import Verif.Props.Calculus
/-!
# C98: working step by step
-/

set_option linter.unusedSectionVars false

namespace MUL
open Out Spec

section
variable {F : Type} [FNum F]

/-- A direct expression depends on the values of its variables only. -/
theorem direct_ext {V : Str → Prop} {t : AST F} (h : Direct V t) (cfg : Cfg) (c c' : Context F) (hc : ∀ y, V y → c.findVar y = c'.findVar y)
    (n : Nat) (w : Str) : evalRec cfg n t c w = evalRec cfg n t c' w := by
  induction n generalizing t with
  | zero => rfl
  | succ n ih =>
    cases h with
    | scalar s => rfl
    | vector v hv =>
      simp only [evalRec]
      rw [mapM_congr fun a ha => by rw [ih (hv a ha)]]
    | matrix m hm =>
      simp only [evalRec]
      rw [mapM_congr fun l hl => mapM_congr fun a ha => by rw [ih (hm l hl a ha)]]
    | list v hv =>
      simp only [evalRec]
      rw [mapM_congr fun a ha => by rw [ih (hv a ha)]]
    | «variable» y hy => simp only [evalRec, hc y hy]
    | simple op l r hl hr =>
      simp only [evalRec]
      rw [ih hl, ih hr]

theorem findVar_add (c : Context F) (x : Str) (vs : List (Value F)) (y : Str) :
    (c.addVar ⟨x, vs⟩).findVar y = if y = x then some vs else c.findVar y := findVar_addVar c ⟨x, vs⟩ y

/-- **C98.** Storing the values of an expression `d` in a variable `x` and using `x`, or writing `(d)` at any of its places: the same outcome. -/
theorem C98_some (cfg : Cfg) (b b' d : AST F) (x : Str) (V : Str → Prop) (hd : Direct V d) (hx : ¬ V x) (c : Context F) (vs : List (Value F))
    (hv : Finishes (fun n => eval cfg n d c) (.ok vs))
    (hb : Replaced (fun a a' => a = .variable x ∧ a' = .simple .parenths d (.scalar (FArith.ofInt 0))) (fun y => y = x ∨ V y) b b')
    (r : Out EvalError (List (Value F))) :
    Finishes (fun n => eval cfg n b (c.addVar ⟨x, vs⟩)) r ↔ Finishes (fun n => eval cfg n b' (c.addVar ⟨x, vs⟩)) r := by
  obtain ⟨N, hN⟩ := finishes_from (w := []) hv
  have hfx : ∀ c' : Context F, Fixes (fun y => y = x ∨ V y) (c.addVar ⟨x, vs⟩).findVar c' →
      c'.findVar x = some vs ∧ ∀ m ≥ N, evalRec cfg m d c' [] = .ok vs := by
    intro c' h
    refine ⟨by rw [h x (Or.inl rfl), findVar_add, if_pos rfl], fun m hm => ?_⟩
    rw [direct_ext hd cfg c' c (fun y hy => ?_) m [], hN m hm]
    rw [h y (Or.inr hy), findVar_add, if_neg]
    rintro rfl
    exact hx hy
  have hp : ∀ m ≥ N, ∀ c' : Context F, Fixes (fun y => y = x ∨ V y) (c.addVar ⟨x, vs⟩).findVar c' →
      eval cfg (m + 2) (.simple .parenths d (.scalar (FArith.ofInt 0))) c' = .ok vs := by
    intro m hm c' hc'
    simp only [eval]
    rw [evalRec.eq_def]
    simp only
    rw [(hfx c' hc').2 (m + 1) (by omega), ok_bind]
    rw [show evalRec cfg (m + 1) (.scalar (FArith.ofInt 0) : AST F) c' [] = .ok [.scalar (FArith.ofInt 0)] from rfl, ok_bind]
    exact applyAll_parenths vs _
  refine C79_replace (g := (c.addVar ⟨x, vs⟩).findVar) cfg (N + 2) ?_ ?_ hb (fun y _ => rfl) r
  · rintro a a' ⟨rfl, rfl⟩ c' hc' n hn
    rw [var_finished hn, (hfx c' hc').1, ← Nat.add_assoc]
    exact hp (n + N) (by omega) c' hc'
  · rintro a a' ⟨rfl, rfl⟩ c' hc' n hn
    have h1 : eval cfg n (.simple .parenths d (.scalar (FArith.ofInt 0))) c' = .ok vs := by
      have := evalRec_le cfg (show n ≤ n + N + 2 by omega) (.simple .parenths d (.scalar (FArith.ofInt 0))) c' []
      exact (this.eq_of_ne hn).trans (hp (n + N) (by omega) c' hc')
    rw [h1]
    have := var_finished (cfg := cfg) (n := n + (N + 2)) (x := x) (c := c') (by
      rw [← Nat.add_assoc, eval, evalRec]; cases c'.findVar x <;> simp)
    rw [this, (hfx c' hc').1]

/-- **C98.** If `(d)` is written at all places of `x`, and no function refers to `x`, the variable need not be stored at all. -/
theorem C98_all (cfg : Cfg) (b b' d : AST F) (x : Str) (V : Str → Prop) (hd : Direct V d) (hx : ¬ V x) (c : Context F) (vs : List (Value F))
    (hv : Finishes (fun n => eval cfg n d c) (.ok vs))
    (hb : Replaced (fun a a' => a = .variable x ∧ a' = .simple .parenths d (.scalar (FArith.ofInt 0))) (fun y => y = x ∨ V y) b b')
    (hno : Mentions (· ≠ x) (fun _ => True) b') (hf : ∀ f ∈ c.funs, Mentions (fun y => y ≠ x ∨ y ∈ f.inputs) (fun _ => True) f.ast)
    (r : Out EvalError (List (Value F))) :
    Finishes (fun n => eval cfg n b' c) r ↔ Finishes (fun n => eval cfg n b (c.addVar ⟨x, vs⟩)) r := by
  rw [C98_some cfg b b' d x V hd hx c vs hv hb r]
  simp only [fun n => C25_unmentioned cfg n b' c ⟨x, vs⟩ hno hf]

theorem noDup_add {c : Context F} (h : NoDupVars c) (v : Variable F) : NoDupVars (c.addVar v) := by
  unfold NoDupVars Context.addVar at *
  simp only [List.map_append, List.map_cons, List.map_nil]
  rw [List.nodup_append]
  refine ⟨h.sublist (List.filter_sublist.map _), by simp, ?_⟩
  intro a ha b hb
  simp only [List.mem_cons, List.not_mem_nil, or_false] at hb
  subst hb
  obtain ⟨u, hu, rfl⟩ := List.mem_map.1 ha
  simpa using (List.mem_filter.1 hu).2

/-- **C98.** A call with one argument of one value has the outcome of the body with the parameter defined as this value. -/
theorem C98_call (cfg : Cfg) (ctx : Context F) (hn : NoDupVars ctx) (f : Function F) (x : Str) (hin : f.inputs = [x])
    (hf : ctx.findFun f.name = some f) (hname : f.name ≠ []) (hrec : ¬ DirectCall f.name f.ast) (hrec' : ¬ DirectCall [] f.ast)
    (a : AST F) (v : Value F) (ha : Finishes (fun n => eval cfg n a ctx) (.ok [v])) (r : Out EvalError (List (Value F))) :
    Finishes (fun n => eval cfg n (.function f.name [a]) ctx) r ↔ Finishes (fun n => eval cfg n f.ast (ctx.addVar ⟨x, [v]⟩)) r := by
  obtain ⟨N, hN⟩ := finishes_from (w := []) ha
  have hb : BindsParams ctx f.inputs [v] (ctx.addVar ⟨x, [v]⟩) := by
    refine ⟨?_, ?_, ?_, fun _ => rfl⟩
    · exact noDup_add hn _
    · intro i h h'
      have h0 : i = 0 := by simpa using h'
      subst h0
      simp only [hin, List.getElem_cons_zero]
      rw [findVar_add, if_pos rfl]
    · intro y hy
      rw [findVar_add, if_neg]
      rintro rfl
      exact hy (by rw [hin]; simp)
  have key : ∀ n ≥ N, eval cfg (n + 1) (.function f.name [a]) ctx = eval cfg n f.ast (ctx.addVar ⟨x, [v]⟩) := by
    intro n hn
    simp only [eval]
    rw [evalRec.eq_def]
    simp only [hf, if_neg (Ne.symm hname)]
    rw [if_neg (by simp [hin]), mapM_single, hN n hn, ok_bind, ok_bind, cartProd_eq_choices]
    have hch : choices [[v]] = [[v]] := rfl
    rw [hch, mapM_single, evalRec_lastFn cfg _ f.ast _ hrec hrec',
      evalRec_ext cfg _ (mentions_all f.ast) (callVars_agree (by simp [hin]) (by simp [hin]) hb) (fun _ _ _ _ => mentions_any _)]
    generalize evalRec cfg n f.ast (ctx.addVar ⟨x, [v]⟩) [] = q
    cases q <;> simp
  constructor
  · rintro ⟨hr, n, h⟩
    refine ⟨hr, max n N, ?_⟩
    beta_reduce
    rw [← key _ (by omega), ← h]
    exact ((evalRec_le cfg (show n ≤ max n N + 1 by omega) _ ctx []).eq_of_ne (by beta_reduce at h; rw [eval] at h; rw [h]; exact hr)).symm
  · rintro ⟨hr, n, h⟩
    refine ⟨hr, max n N + 1, ?_⟩
    beta_reduce
    rw [key _ (by omega), ← h]
    exact ((evalRec_le cfg (show n ≤ max n N by omega) _ _ []).eq_of_ne (by beta_reduce at h; rw [eval] at h; rw [h]; exact hr)).symm

/-! ## Texts -/

theorem substAll_eq (x : Str) (d : Ex) (L : List Str) (es : List Ex) : substAll x d L es = es.map (substEx x d L) := by
  induction es with
  | nil => rfl
  | cons a l ih => rw [substAll, ih, List.map_cons]

theorem substRows_eq (x : Str) (d : Ex) (L : List Str) (es : List (List Ex)) : substRows x d L es = es.map fun r => r.map (substEx x d L) := by
  induction es with
  | nil => rfl
  | cons a l ih => rw [substRows, ih, List.map_cons, substAll_eq]

variable [UTable]

theorem replaced_text (cfg : Cfg) (x : Str) (d : Ex) (L : List Str) (e : Ex) (hwf : e.WF) :
    Replaced (fun a a' : AST F => a = .variable x ∧ a' = .simple .parenths (d.tree cfg) (.scalar (FArith.ofInt 0))) (· ∈ L) (e.tree cfg)
      ((substEx x d L e).tree cfg) := by
  induction e using Ex.ind with
  | num ip fp => exact .same _
  | var n =>
    rw [substEx]
    split
    · rename_i h; exact .part _ _ ⟨by rw [Ex.tree, h], rfl⟩
    · exact .same _
  | paren e ih => rw [substEx]; simp only [Ex.tree]; exact .simple _ _ _ _ _ (ih hwf) (.same _)
  | fn n op e ih => rw [substEx]; simp only [Ex.tree]; exact .simple _ _ _ _ _ (ih hwf.2) (.same _)
  | root a b iha ihb => rw [substEx]; simp only [Ex.tree]; exact .simple _ _ _ _ _ (iha hwf.1) (ihb hwf.2)
  | call n args ih =>
    rw [substEx, substAll_eq]
    simp only [Ex.tree, treeAll_eq, List.map_map]
    refine .function _ _ _ ?_
    rw [List.forall₂_map_left_iff, List.forall₂_map_right_iff]
    exact List.forall₂_same.2 fun a ha => ih a ha ((WFAll_iff _).1 hwf.2.2.2 a ha)
  | vec es ih =>
    rw [substEx, substAll_eq]
    simp only [Ex.tree, treeAll_eq, List.map_map]
    refine .vector _ _ ?_
    rw [List.forall₂_map_left_iff, List.forall₂_map_right_iff]
    exact List.forall₂_same.2 fun a ha => ih a ha ((WFAll_iff _).1 hwf.2.1 a ha)
  | list es ih =>
    rw [substEx, substAll_eq]
    simp only [Ex.tree, treeAll_eq, List.map_map]
    refine .list _ _ ?_
    rw [List.forall₂_map_left_iff, List.forall₂_map_right_iff]
    exact List.forall₂_same.2 fun a ha => ih a ha ((WFAll_iff _).1 hwf.2 a ha)
  | mat rows ih =>
    obtain ⟨hne, hw, n, hn, hrows⟩ := hwf
    rw [substEx, substRows_eq]
    simp only [Ex.tree]
    have hR : List.Forall₂ (List.Forall₂ (Replaced (fun a a' : AST F => a = .variable x ∧ a' = .simple .parenths (d.tree cfg) (.scalar (FArith.ofInt 0)))
        (· ∈ L))) (treeRows cfg rows) (treeRows cfg (rows.map fun r => r.map (substEx x d L))) := by
      rw [treeRows_eq, treeRows_eq, List.map_map, List.forall₂_map_left_iff, List.forall₂_map_right_iff]
      refine List.forall₂_same.2 fun r hr => ?_
      simp only [Function.comp, treeAll_eq, List.map_map]
      rw [List.forall₂_map_left_iff, List.forall₂_map_right_iff]
      exact List.forall₂_same.2 fun a ha => ih r hr a ha ((WFRows_iff _).1 hw r hr a ha)
    have hl : ∀ r ∈ (treeRows cfg rows : List (List (AST F))), r.length = n := by
      rw [treeRows_eq]
      intro r hr
      obtain ⟨q, hq, rfl⟩ := List.mem_map.1 hr
      rw [treeAll_eq, List.length_map]
      exact (hrows q hq).1
    have hl' := forall₂_lengths hR hl
    have hh : ∀ m : List (List (AST F)), m ≠ [] → (∀ r ∈ m, r.length = n) → (m.headD []).length = n := by
      intro m hm h
      cases m with
      | nil => exact absurd rfl hm
      | cons r m => exact h r (by simp)
    have hne1 : (treeRows cfg rows : List (List (AST F))) ≠ [] := by
      rw [treeRows_eq]; simpa using hne
    have hne2 : (treeRows cfg (rows.map fun r => r.map (substEx x d L)) : List (List (AST F))) ≠ [] := by
      rw [treeRows_eq]; simpa using hne
    refine .matrix _ _ ?_
    split
    · exact hR
    · rw [hh _ hne1 hl, hh _ hne2 hl']
      exact forall₂_transpose hR hl
  | neg e ih => rw [substEx]; simp only [Ex.tree]; exact .simple _ _ _ _ _ (.same _) (ih hwf.1)
  | bin op l r hl hr => rw [substEx]; simp only [Ex.tree]; exact .simple _ _ _ _ _ (hl hwf.1) (hr hwf.2.1)
  | integ e y lo hi he hlo hhi =>
    rw [substEx]
    simp only [Ex.tree]
    split
    · exact .bounds _ _ _ _ _ _ (hlo hwf.2.2.1) (hhi hwf.2.2.2)
    · rename_i h
      exact .integral _ _ _ _ _ _ _ h (he hwf.1) (hlo hwf.2.2.1) (hhi hwf.2.2.2)
  | deriv e y a he ha =>
    rw [substEx]
    simp only [Ex.tree]
    split
    · exact .point _ _ _ _ (ha hwf.2.2)
    · rename_i h
      exact .derivative _ _ _ _ _ h (he hwf.1) (ha hwf.2.2)
  | eqs ls rs vars _ _ => rw [substEx]; exact .same _

/-- **C98.** On texts: evaluating the text with `(d)` written for `x`, or first evaluating `d`, storing its values in `x` and then evaluating the
text with `x`. -/
theorem C98_text (cfg : Cfg) (e d : Ex) (x : Str) (L : List Str) (hwf : e.WF) (hwd : d.WF) (hws : (substEx x d (x :: L) e).WF)
    (hd : Direct (· ∈ L) (d.tree cfg : AST F)) (hx : x ∉ L) (hno : Mentions (· ≠ x) (fun _ => True) ((substEx x d (x :: L) e).tree cfg : AST F))
    (c : Context F) (hf : ∀ f ∈ c.funs, Mentions (fun y => y ≠ x ∨ y ∈ f.inputs) (fun _ => True) f.ast) (vs : List (Value F))
    (hv : Finishes (fun n => quickEval cfg n d.text c) (.ok vs)) (r : Out QuickEvalError (List (Value F))) :
    Finishes (fun n => quickEval cfg n (substEx x d (x :: L) e).text c) r ↔ Finishes (fun n => quickEval cfg n e.text (c.addVar ⟨x, vs⟩)) r := by
  have p1 := C09_parse_text (F := F) cfg e hwf
  have p2 := C09_parse_text (F := F) cfg d hwd
  have p3 := C09_parse_text (F := F) cfg _ hws
  have key := C98_all cfg (e.tree cfg) ((substEx x d (x :: L) e).tree cfg) (d.tree cfg) x (· ∈ L) hd hx c vs
    (((C29_eval cfg d.text c p2).1 vs).2 hv)
    (by
      have := replaced_text (F := F) cfg x d (x :: L) e hwf
      simpa only [List.mem_cons] using this) hno hf
  have q : ∀ (s : Str) (b : AST F) (c : Context F), parse cfg s = .ok b → ∀ n, quickEval cfg n s c = (eval cfg n b c).mapErr .evalError := by
    intro s b c h n
    unfold quickEval
    rw [h]
    rfl
  simp only [q _ _ _ p1, q _ _ _ p3]
  have tr : ∀ (g g' : Nat → Out EvalError (List (Value F))), (∀ r, Finishes g r → Finishes g' r) → ∀ r,
      Finishes (fun n => (g n).mapErr QuickEvalError.evalError) r → Finishes (fun n => (g' n).mapErr QuickEvalError.evalError) r := by
    rintro g g' h r ⟨hr, n, hn⟩
    beta_reduce at hn
    have : g n ≠ .timeout := by
      intro h0
      rw [h0] at hn
      exact hr hn.symm
    obtain ⟨_, m, hm⟩ := h (g n) ⟨this, n, rfl⟩
    refine ⟨hr, m, ?_⟩
    beta_reduce
    rw [hm, hn]
  exact ⟨tr _ _ (fun r => (key r).1) r, tr _ _ (fun r => (key r).2) r⟩

/-- **C98.** A call of a function of one parameter, or its body with the argument written in parentheses for the parameter. -/
theorem C98_inline (cfg : Cfg) (e d : Ex) (x : Str) (L : List Str) (hwf : e.WF) (hd : Direct (· ∈ L) (d.tree cfg : AST F)) (hx : x ∉ L)
    (hno : Mentions (· ≠ x) (fun _ => True) ((substEx x d (x :: L) e).tree cfg : AST F))
    (c : Context F) (hn : NoDupVars c) (hf : ∀ f ∈ c.funs, Mentions (fun y => y ≠ x ∨ y ∈ f.inputs) (fun _ => True) f.ast)
    (f : Str) (hin : c.findFun f = some ⟨f, e.tree cfg, [x]⟩) (hname : f ≠ []) (hrec : ¬ DirectCall f (e.tree cfg : AST F))
    (hrec' : ¬ DirectCall [] (e.tree cfg : AST F)) (v : Value F) (hv : Finishes (fun n => eval cfg n (d.tree cfg) c) (.ok [v]))
    (r : Out EvalError (List (Value F))) :
    Finishes (fun n => eval cfg n (.function f [d.tree cfg]) c) r ↔ Finishes (fun n => eval cfg n ((substEx x d (x :: L) e).tree cfg) c) r := by
  rw [C98_call cfg c hn ⟨f, e.tree cfg, [x]⟩ x rfl hin hname hrec hrec' _ v hv r]
  refine (C98_all cfg _ _ (d.tree cfg) x (· ∈ L) hd hx c [v] hv ?_ hno hf r).symm
  have := replaced_text (F := F) cfg x d (x :: L) e hwf
  simpa only [List.mem_cons] using this

/-- The formula `x*x+1`. -/
def stepBody : Ex := .bin .add (.bin .mult (.var (str! "x")) (.var (str! "x"))) (.num (str! "1") none)
/-- The part `2+y`. -/
def stepPart : Ex := .bin .add (.num (str! "2") none) (.var (str! "y"))

example : (substEx (str! "x") stepPart [str! "x", str! "y"] stepBody).text = str! "(2+y)*(2+y)+1" := by decide

theorem stepBody_wf : stepBody.WF :=
  ⟨⟨wf_name (n := "x") (by decide), wf_name (n := "x") (by decide), by decide, by decide, nofun⟩, wf_num (s := "1") (by decide), by decide, by decide, nofun⟩

theorem stepPart_wf : stepPart.WF :=
  ⟨wf_num (s := "2") (by decide), wf_name (n := "y") (by decide), by decide, by decide, nofun⟩

theorem stepPart_direct (cfg : Cfg) : Direct (· ∈ [str! "y"]) (stepPart.tree cfg : AST F) :=
  .simple _ _ _ (.scalar _) (.variable _ (by simp))

theorem stepText_wf : (substEx (str! "x") stepPart [str! "x", str! "y"] stepBody).WF :=
  ⟨⟨stepPart_wf, stepPart_wf, by decide, by decide, nofun⟩, wf_num (s := "1") (by decide), by decide, by decide, nofun⟩

theorem stepText_mentions (cfg : Cfg) :
    Mentions (· ≠ str! "x") (fun _ => True) ((substEx (str! "x") stepPart [str! "x", str! "y"] stepBody).tree cfg : AST F) := by
  have hp : Mentions (· ≠ str! "x") (fun _ => True) ((Ex.paren stepPart).tree cfg : AST F) :=
    .simple _ _ _ (.simple _ _ _ (.scalar _) (.variable _ (by decide))) (.scalar _)
  exact .simple _ _ _ (.simple _ _ _ hp hp) (.scalar _)

/-- The hypotheses are met: `(2+y)*(2+y)+1`, or `x*x+1` after storing the value of `2+y` in `x`, with any number stored in `y`. -/
theorem C98_example (cfg : Cfg) (b : F) (r : Out QuickEvalError (List (Value F))) :
    Finishes (fun n => quickEval cfg n (str! "(2+y)*(2+y)+1") (Context.empty.addVar ⟨str! "y", [.scalar b]⟩)) r ↔
    Finishes (fun n => quickEval cfg n (str! "x*x+1") ((Context.empty.addVar ⟨str! "y", [.scalar b]⟩).addVar
      ⟨str! "x", [.scalar (FArith.add (FArith.ofDec 2 0) b)]⟩)) r := by
  refine C98_text cfg stepBody stepPart (str! "x") [str! "y"] stepBody_wf stepPart_wf stepText_wf (stepPart_direct cfg) (by decide)
    (stepText_mentions cfg) _ (by intro f hf; cases hf) _ ?_ r
  refine ⟨by simp, 3, ?_⟩
  beta_reduce
  unfold quickEval
  rw [C09_parse_text cfg stepPart stepPart_wf]
  rfl

end
end MUL
