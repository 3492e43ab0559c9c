import Verif.Spec.Eval
import Verif.Spec.ContextMap
import Verif.Props.Eval
import Verif.Proofs.EvalCtx
import Verif.Proofs.EvalTerm
import Verif.Proofs.AstInd
/-!
# C22, C24, C25: calls, termination, what an evaluation can see
-/

namespace MUL
open Out Spec

section
variable {F : Type} [FNum F]

/-! ## C25 -/

omit [FNum F] in
theorem entries_of_nodup {vars : List (Variable F)} (h : (vars.map (·.name)).Nodup) (funs : List (Function F)) (n : Str) :
    entries vars n = match (Context.mk vars funs).findVar n with
      | some vs => [⟨n, vs⟩]
      | none => [] := by
  induction vars with
  | nil => rfl
  | cons v vars ih =>
    simp only [List.map_cons, List.nodup_cons] at h
    rw [entries_cons]
    by_cases hv : v.name = n
    · subst hv
      rw [if_pos rfl]
      have h0 : entries vars v.name = [] := entries_nil_iff.2 (by simpa using h.1)
      have : (Context.mk (v :: vars) funs).findVar v.name = some v.values := by
        simp [Context.findVar]
      rw [h0, this]
    · rw [if_neg hv, ih h.2]
      have : (Context.mk (v :: vars) funs).findVar n = (Context.mk vars funs).findVar n := by
        simp [Context.findVar, List.find?_cons, hv]
      rw [this]

omit [FNum F] in
theorem agree_of_lookup {c c' : Context F} (V G : Str → Prop) (hd : NoDupVars c) (hd' : NoDupVars c')
    (hv : ∀ n, V n → c.findVar n = c'.findVar n) (hf : ∀ n, G n → c.findFun n = c'.findFun n) : AgreeOn V G c c' := by
  refine ⟨fun n hn => ?_, hf⟩
  rw [entries_of_nodup hd c.funs, entries_of_nodup hd' c'.funs]
  have := hv n hn
  cases c; cases c'
  rw [this]

omit [FNum F] in
theorem mentions_all (b : AST F) : Mentions (fun _ => True) (fun _ => True) b := by
  induction b using AST.ind with
  | scalar s => exact .scalar s
  | vector v ih => exact .vector v ih
  | matrix m ih => exact .matrix m ih
  | list l ih => exact .list l ih
  | var n => exact .variable n trivial
  | function n l ih => exact .function n l trivial ih
  | simple op l r hl hr => exact .simple op l r hl hr
  | integral e x l u he hl hu => exact .integral e x l u he hl hu
  | derivative e x a he ha => exact .derivative e x a he ha
  | equation es vs ih => exact .equation es vs (fun e he => (ih e he).1) (fun e he => (ih e he).2) fun _ _ => trivial

omit [FNum F] in
theorem mentions_any {V : Str → Prop} (b : AST F) : Mentions (fun y => True ∨ V y) (fun _ => True) b :=
  mentions_mono (fun _ _ => Or.inl trivial) (mentions_all b)

/-- C25: two contexts without duplicate variable names that give every name the same meaning evaluate every
tree to the same outcome, whatever the order in which things were added. -/
theorem C25_same_meaning (cfg : Cfg) (n : Nat) (b : AST F) {c c' : Context F} (hd : NoDupVars c) (hd' : NoDupVars c')
    (hv : ∀ x, c.findVar x = c'.findVar x) (hf : ∀ f, c.findFun f = c'.findFun f) :
    eval cfg n b c = eval cfg n b c' :=
  evalRec_ext cfg n (mentions_all b) (agree_of_lookup _ _ hd hd' (fun x _ => hv x) fun f _ => hf f)
    (fun _ _ _ _ => mentions_any _) []

/-- C25: adding a variable under a name that neither the tree nor any function it calls (directly or not) refers to, except as a parameter
of this function, changes nothing (any context, duplicates included). `G` are the functions that can be called. -/
theorem C25_unmentioned_calls (cfg : Cfg) (n : Nat) (b : AST F) (c : Context F) (v : Variable F) (G : Str → Prop)
    (hb : Mentions (· ≠ v.name) G b)
    (hf : ∀ g f, G g → c.findFun g = some f → Mentions (fun y => y ≠ v.name ∨ y ∈ f.inputs) G f.ast) :
    eval cfg n b (c.addVar v) = eval cfg n b c := by
  have hag : AgreeOn (· ≠ v.name) G (c.addVar v) c := by
    refine ⟨fun x hx => ?_, fun _ _ => rfl⟩
    simp only [Context.addVar, entries_append, entries_filter_ne, entries_cons, if_neg hx, if_neg (Ne.symm hx)]
    simp [entries]
  exact evalRec_ext cfg n hb hag hf []

/-- C25: the same for any functions of the context: a name that is used nowhere but as a parameter. -/
theorem C25_unmentioned (cfg : Cfg) (n : Nat) (b : AST F) (c : Context F) (v : Variable F)
    (hb : Mentions (· ≠ v.name) (fun _ => True) b)
    (hf : ∀ f ∈ c.funs, Mentions (fun y => y ≠ v.name ∨ y ∈ f.inputs) (fun _ => True) f.ast) :
    eval cfg n b (c.addVar v) = eval cfg n b c :=
  C25_unmentioned_calls cfg n b c v _ hb fun _ f _ hfind => hf f (List.mem_of_find?_eq_some hfind)

/-- The hypotheses are met: a new variable `x` does not change `f(2)*a`, where `f(x)=x*y`. -/
example (cfg : Cfg) (n : Nat) (a x : List (Value F)) :
    eval cfg n (.simple .mult (.function ['f'] [.scalar (FArith.ofInt 2)]) (.variable ['a']))
      ((⟨[⟨['a'], a⟩], [⟨['f'], .simple .mult (.variable ['x']) (.variable ['y']), [['x']]⟩]⟩ : Context F).addVar ⟨['x'], x⟩) =
    eval cfg n (.simple .mult (.function ['f'] [.scalar (FArith.ofInt 2)]) (.variable ['a']))
      ⟨[⟨['a'], a⟩], [⟨['f'], .simple .mult (.variable ['x']) (.variable ['y']), [['x']]⟩]⟩ := by
  refine C25_unmentioned cfg n _ _ ⟨['x'], x⟩ (.simple _ _ _ (.function _ _ trivial ?_) (.variable _ (by simp))) ?_
  · intro i hi
    rw [List.mem_singleton.1 hi]
    exact .scalar _
  · intro f hf
    rw [List.mem_singleton.1 hf]
    exact .simple _ _ _ (.variable _ (by simp)) (.variable _ (by simp))

/-- The hypotheses of `C25_same_meaning` are met by contexts built in a different order. -/
example (cfg : Cfg) (n : Nat) (b : AST F) (v w : Variable F) (h : v.name ≠ w.name) (c : Context F) (hd : NoDupVars c) :
    eval cfg n b ((c.addVar v).addVar w) = eval cfg n b ((c.addVar w).addVar v) := by
  have nd : ∀ (c : Context F) (v : Variable F), NoDupVars c → NoDupVars (c.addVar v) := by
    intro c v hc
    simp only [NoDupVars, Context.addVar, List.map_append, List.map_cons, List.map_nil] at hc ⊢
    refine List.nodup_append.2 ⟨hc.sublist (List.Sublist.map _ List.filter_sublist), by simp, ?_⟩
    intro a ha b hb
    obtain ⟨u, hu, rfl⟩ := List.mem_map.1 ha
    have := (List.mem_filter.1 hu).2
    simp only [List.mem_cons, List.not_mem_nil, or_false] at hb
    subst hb
    simpa using this
  refine C25_same_meaning cfg n b (nd _ _ (nd _ _ hd)) (nd _ _ (nd _ _ hd)) (fun x => ?_) (fun f => rfl)
  simp only [findVar_entries, Context.addVar, entries_append, entries_filter_ne, entries_cons]
  by_cases h1 : x = v.name
  · subst h1
    simp [entries, h, Ne.symm h]
  · by_cases h2 : x = w.name
    · subst h2
      simp [entries, h, Ne.symm h]
    · simp [entries, h1, h2, Ne.symm h1, Ne.symm h2]

/-! ## C22 -/

theorem evalRec_lastFn (cfg : Cfg) (n : Nat) (b : AST F) (c : Context F) {w w' : Str} (h : ¬ DirectCall w b)
    (h' : ¬ DirectCall w' b) : evalRec cfg n b c w = evalRec cfg n b c w' := by
  induction n generalizing b with
  | zero => simp [evalRec]
  | succ n ih =>
    cases b with
    | scalar s => rfl
    | vector v =>
      simp only [evalRec]
      congr 1
      apply mapM_congr
      intro a ha
      rw [ih a (fun hd => h (.vector v a ha hd)) (fun hd => h' (.vector v a ha hd))]
    | matrix m =>
      simp only [evalRec]
      congr 1
      apply mapM_congr
      intro r hr
      apply mapM_congr
      intro a ha
      rw [ih a (fun hd => h (.matrix m r a hr ha hd)) (fun hd => h' (.matrix m r a hr ha hd))]
    | list l =>
      simp only [evalRec]
      congr 1
      apply mapM_congr
      intro a ha
      rw [ih a (fun hd => h (.list l a ha hd)) (fun hd => h' (.list l a ha hd))]
    | «variable» x => rfl
    | function f args =>
      simp only [evalRec]
      have hw : w ≠ f := fun he => h (he ▸ .here args)
      have hw' : w' ≠ f := fun he => h' (he ▸ .here args)
      rw [if_neg hw, if_neg hw']
      have : (args.mapM fun i => evalRec cfg n i c w) = args.mapM fun i => evalRec cfg n i c w' := by
        apply mapM_congr
        intro a ha
        rw [ih a (fun hd => h (.arg f args a ha hd)) (fun hd => h' (.arg f args a ha hd))]
      rw [this]
    | simple op l r =>
      simp only [evalRec]
      rw [ih l (fun hd => h (.left op l r hd)) (fun hd => h' (.left op l r hd)),
        ih r (fun hd => h (.right op l r hd)) (fun hd => h' (.right op l r hd))]
    | integral e x l u =>
      simp only [evalRec]
      rw [ih l (fun hd => h (.lower e x l u hd)) (fun hd => h' (.lower e x l u hd)),
        ih u (fun hd => h (.upper e x l u hd)) (fun hd => h' (.upper e x l u hd))]
    | derivative e x a =>
      simp only [evalRec]
      rw [ih a (fun hd => h (.at_ e x a hd)) (fun hd => h' (.at_ e x a hd))]
    | equation es vs => rfl

omit [FNum F] in
/-- The environment built by a call is the one described by `BindsParams`. -/
theorem callVars_agree {ctx c : Context F} {params : List Str} {args : List (Value F)} (hp : params.Nodup)
    (hlen : args.length = params.length) (h : BindsParams ctx params args c) :
    AgreeOn (fun _ => True) (fun _ => True) ⟨callVars params args ctx.vars, ctx.funs⟩ c := by
  have hpv : ∀ n, entries ((params.zip args).map fun np => (⟨np.1, [np.2]⟩ : Variable F)) n =
      match (params.zip args).find? fun np => np.1 == n with
      | some np => [⟨n, [np.2]⟩]
      | none => [] := by
    intro n
    clear h
    induction params generalizing args with
    | nil => rfl
    | cons p params ih =>
      cases args with
      | nil => rfl
      | cons a args =>
        simp only [List.nodup_cons] at hp
        simp only [List.zip_cons_cons, List.map_cons, entries_cons, List.find?_cons]
        by_cases hpn : p = n
        · subst hpn
          have : entries ((params.zip args).map fun np => (⟨np.1, [np.2]⟩ : Variable F)) p = [] := by
            apply entries_nil_iff.2
            simp only [List.contains_iff_mem, List.map_map, List.mem_map, not_exists, not_and]
            rintro ⟨q, b⟩ hq he
            simp only [Function.comp] at he
            subst he
            exact hp.1 (List.of_mem_zip hq).1
          simp [this]
        · have h2 : (p == n) = false := by simpa using hpn
          rw [if_neg hpn, ih hp.2 (by simpa using hlen)]
          simp only [h2]
  refine ⟨fun n _ => ?_, fun n _ => (h.funs n).symm⟩
  rw [entries_callVars, hpv n, entries_of_nodup h.nodup c.funs]
  cases hfind : (params.zip args).find? fun np => np.1 == n with
  | some np =>
    have hn : np.1 = n := by simpa using List.find?_some hfind
    have hmem := List.mem_of_find?_eq_some hfind
    obtain ⟨i, hi, hget⟩ := List.getElem_of_mem hmem
    have hi1 : i < params.length := by simp at hi; omega
    have hi2 : i < args.length := by omega
    have hnp : np = (params[i], args[i]) := by rw [← hget]; simp
    have hb := h.bound i hi1 hi2
    subst hnp
    simp only at hn
    rw [hn] at hb
    cases c
    simp only [hb]
    rfl
  | none =>
    have hnot : n ∉ params := by
      intro hmem
      obtain ⟨i, hi, hget⟩ := List.getElem_of_mem hmem
      have := List.find?_eq_none.1 hfind (params[i], args[i]'(by omega)) (by
        have hz : i < (params.zip args).length := by simp; omega
        have hz' : (params.zip args)[i] = (params[i], args[i]'(by omega)) := by simp
        rw [← hz']
        exact List.getElem_mem hz)
      simp only [hget, beq_self_eq_true, not_true_eq_false] at this
    have ho := h.other n hnot
    rw [findVar_entries, findVar_entries] at ho
    cases c with
    | mk cv cf =>
    simp only [if_true]
    rw [findVar_entries] 
    simp only at ho ⊢
    rw [ho]
    cases he : entries ctx.vars n with
    | nil => rfl
    | cons v vs =>
      have hvn : v.name = n := by
        have : v ∈ entries ctx.vars n := by rw [he]; simp
        simpa [entries] using (List.mem_filter.1 this).2
      simp only [List.take_succ_cons, List.take_zero, List.head?_cons, Option.map_some]
      rw [← hvn]

/-- Evaluating the arguments of a call, with room for a larger budget. -/
theorem args_finish {cfg : Cfg} {ctx : Context F} {w : Str} {args : List (AST F)} {vals : List (List (Value F))}
    (h : List.Forall₂ (fun a vs => Finishes (fun n => evalRec cfg n a ctx w) (.ok vs)) args vals) :
    ∃ n, ∀ m ≥ n, (args.mapM fun i => evalRec cfg m i ctx w) = .ok vals := by
  induction h with
  | nil => exact ⟨0, fun _ _ => rfl⟩
  | cons h _ ih =>
    obtain ⟨n, hn⟩ := finishes_from h
    obtain ⟨k, hk⟩ := ih
    refine ⟨max n k, fun m hm => ?_⟩
    simp only [List.mapM_cons]
    rw [hn m (by omega), hk m (by omega)]
    rfl

theorem finishes_list {cfg : Cfg} {w : Str} {body : AST F} {α : Type} (l : List α) (c : α → Context F)
    (res : α → List (Value F)) (h : ∀ p ∈ l, Finishes (fun n => evalRec cfg n body (c p) w) (.ok (res p))) :
    ∃ n, ∀ m ≥ n, ∀ p ∈ l, evalRec cfg m body (c p) w = .ok (res p) := by
  induction l with
  | nil => exact ⟨0, by simp⟩
  | cons a l ih =>
    obtain ⟨n, hn⟩ := finishes_from (h a (by simp))
    obtain ⟨k, hk⟩ := ih fun p hp => h p (by simp [hp])
    refine ⟨max n k, fun m hm p hp => ?_⟩
    rcases List.mem_cons.1 hp with rfl | hp
    · exact hn m (by omega)
    · exact hk m (by omega) p hp

/-- C22: a call evaluates the body once per combination of argument values, in a context where the parameters
are bound to these values and everything else is as in the calling context, and concatenates the results. The
body must not call the function itself (C23) nor a function without a name. -/
theorem C22_call (cfg : Cfg) (ctx : Context F) (f : Function F) (args : List (AST F)) (vals : List (List (Value F)))
    (hf : ctx.findFun f.name = some f) (hp : f.inputs.Nodup) (hlen : args.length = f.inputs.length)
    (hname : f.name ≠ []) (hrec : ¬ DirectCall f.name f.ast) (hrec' : ¬ DirectCall [] f.ast)
    (hargs : List.Forall₂ (fun a vs => Finishes (fun n => eval cfg n a ctx) (.ok vs)) args vals)
    (inner : List (Value F) → Context F) (res : List (Value F) → List (Value F))
    (hin : ∀ p ∈ choices vals, BindsParams ctx f.inputs p (inner p))
    (hbody : ∀ p ∈ choices vals, Finishes (fun n => eval cfg n f.ast (inner p)) (.ok (res p))) :
    Finishes (fun n => eval cfg n (.function f.name args) ctx) (.ok ((choices vals).flatMap res)) := by
  obtain ⟨n, hn⟩ := args_finish (w := []) hargs
  obtain ⟨k, hk⟩ := finishes_list (choices vals) inner res hbody
  refine ⟨by simp, max n k + 1, ?_⟩
  simp only [eval]
  rw [evalRec.eq_def]
  simp only [hf, if_neg (Ne.symm hname), if_neg (not_not_intro hlen)]
  rw [hn _ (by omega), ok_bind, cartProd_eq_choices]
  have hvl : vals.length = f.inputs.length := by rw [← hargs.length_eq, hlen]
  rw [mapM_ok_of_forall (g := res)]
  · simp [List.flatMap]
  · intro p hpm
    rw [evalRec_lastFn cfg _ f.ast _ hrec hrec',
      evalRec_ext cfg _ (mentions_all f.ast) (callVars_agree hp (by rw [choices_length hpm, hvl]) (hin p hpm))
        (fun _ _ _ _ => mentions_any _), hk _ (by omega) p hpm]

/-- C22: if the body fails for some combination of argument values, the call fails with the error of the first
such combination. -/
theorem C22_body_error (cfg : Cfg) (ctx : Context F) (f : Function F) (args : List (AST F)) (vals : List (List (Value F)))
    (hf : ctx.findFun f.name = some f) (hp : f.inputs.Nodup) (hlen : args.length = f.inputs.length)
    (hname : f.name ≠ []) (hrec : ¬ DirectCall f.name f.ast) (hrec' : ¬ DirectCall [] f.ast)
    (hargs : List.Forall₂ (fun a vs => Finishes (fun n => eval cfg n a ctx) (.ok vs)) args vals)
    (inner : List (Value F) → Context F) (res : List (Value F) → List (Value F))
    (before after : List (List (Value F))) (q : List (Value F)) (e : EvalError)
    (hsplit : choices vals = before ++ q :: after)
    (hin : ∀ p ∈ choices vals, BindsParams ctx f.inputs p (inner p))
    (hbody : ∀ p ∈ before, Finishes (fun n => eval cfg n f.ast (inner p)) (.ok (res p)))
    (hq : Finishes (fun n => eval cfg n f.ast (inner q)) (.err e)) :
    Finishes (fun n => eval cfg n (.function f.name args) ctx) (.err e) := by
  obtain ⟨n, hn⟩ := args_finish (w := []) hargs
  obtain ⟨k, hk⟩ := finishes_list before inner res hbody
  obtain ⟨l, hl⟩ := finishes_from (w := []) hq
  refine ⟨by simp, max (max n k) l + 1, ?_⟩
  simp only [eval]
  rw [evalRec.eq_def]
  simp only [hf, if_neg (Ne.symm hname), if_neg (not_not_intro hlen)]
  rw [hn _ (by omega), ok_bind, cartProd_eq_choices]
  have hvl : vals.length = f.inputs.length := by rw [← hargs.length_eq, hlen]
  have hbod : ∀ p ∈ choices vals, ∀ m, evalRec cfg m f.ast ⟨callVars f.inputs p ctx.vars, ctx.funs⟩ f.name =
      evalRec cfg m f.ast (inner p) [] := by
    intro p hpm m
    rw [evalRec_lastFn cfg _ f.ast _ hrec hrec',
      evalRec_ext cfg _ (mentions_all f.ast) (callVars_agree hp (by rw [choices_length hpm, hvl]) (hin p hpm))
        (fun _ _ _ _ => mentions_any _)]
  rw [mapM_congr (g := fun p => evalRec cfg (max (max n k) l) f.ast (inner p) []) (fun p hp => hbod p hp _), hsplit]
  rw [mapM_fail (x := .err e) (r := before.map res) (mapM_ok_of_forall fun p hp => hk _ (by omega) p hp)]
  · rfl
  · rw [hl _ (by omega)]; rfl
  · intro b; rw [hl _ (by omega)]; simp

/-- C22: an unknown function. -/
theorem C22_no_function (cfg : Cfg) (n : Nat) (ctx : Context F) (f : Str) (args : List (AST F)) (hname : f ≠ [])
    (hf : ∀ g ∈ ctx.funs, g.name ≠ f) : eval cfg (n + 1) (.function f args) ctx = .err (.noFunction f) := by
  have : ctx.findFun f = none := by
    simp only [Context.findFun, List.find?_eq_none, beq_iff_eq]
    exact hf
  simp only [eval, evalRec, if_neg (Ne.symm hname), this]

/-- C22: a wrong number of arguments, before any argument is evaluated. -/
theorem C22_wrong_count (cfg : Cfg) (n : Nat) (ctx : Context F) (f : Function F) (args : List (AST F))
    (hname : f.name ≠ []) (hf : ctx.findFun f.name = some f) (hlen : args.length ≠ f.inputs.length) :
    eval cfg (n + 1) (.function f.name args) ctx = .err (.wrongNumberOfArgs f.inputs.length args.length) := by
  simp only [eval, evalRec, if_neg (Ne.symm hname), hf, if_pos hlen]

/-- C22: an argument that fails decides the error of the call. -/
theorem C22_arg_error (cfg : Cfg) (ctx : Context F) (f : Function F) (before after : List (AST F)) (a : AST F)
    (vals : List (List (Value F))) (e : EvalError) (hname : f.name ≠ []) (hf : ctx.findFun f.name = some f)
    (hlen : (before ++ a :: after).length = f.inputs.length)
    (hargs : List.Forall₂ (fun a vs => Finishes (fun n => eval cfg n a ctx) (.ok vs)) before vals)
    (ha : Finishes (fun n => eval cfg n a ctx) (.err e)) :
    Finishes (fun n => eval cfg n (.function f.name (before ++ a :: after)) ctx) (.err e) := by
  obtain ⟨n, hn⟩ := args_finish (w := []) hargs
  obtain ⟨l, hl⟩ := finishes_from (w := []) ha
  refine ⟨by simp, max n l + 1, ?_⟩
  simp only [eval]
  rw [evalRec.eq_def]
  simp only [hf, if_neg (Ne.symm hname), if_neg (not_not_intro hlen)]
  rw [mapM_fail (x := .err e) (hn _ (by omega))]
  · rfl
  · rw [hl _ (by omega)]; rfl
  · intro b; rw [hl _ (by omega)]; simp

/-- `f(x, y) = x - y` called with `f(y, 1)` where `y` is 2 or 5: the parameter `y` shadows the variable `y`. -/
def callExample : Context F :=
  ⟨[⟨['y'], [.scalar (FArith.ofInt 2), .scalar (FArith.ofInt 5)]⟩],
   [⟨['f'], .simple .sub (.variable ['x']) (.variable ['y']), [['x'], ['y']]⟩]⟩

example (a b : F) : BindsParams (callExample (F := F)) [['x'], ['y']] [.scalar a, .scalar b]
    ⟨[⟨['y'], [.scalar b]⟩, ⟨['x'], [.scalar a]⟩], (callExample (F := F)).funs⟩ where
  nodup := by simp [NoDupVars]
  bound := by
    intro i h _
    match i, h with
    | 0, _ => rfl
    | 1, _ => rfl
  other := by
    intro n hn
    simp only [List.mem_cons, List.not_mem_nil, or_false, not_or] at hn
    simp [Context.findVar, callExample, Ne.symm hn.1, Ne.symm hn.2]
  funs := fun _ => rfl

example (cfg : Cfg) : Finishes (fun n => eval cfg n (.function ['f'] [.variable ['y'], .scalar (FArith.ofInt 1)])
    (callExample (F := F)))
    (.ok [.scalar (FArith.add (FArith.ofInt 2) (FArith.mul (FArith.ofInt 1) (FArith.ofInt (-1)))),
      .scalar (FArith.add (FArith.ofInt 5) (FArith.mul (FArith.ofInt 1) (FArith.ofInt (-1))))]) := by
  refine ⟨by simp, 3, ?_⟩
  rfl

/-! ## C24 -/

/-- C24: if the functions of the context can be ranked so that each body only calls functions of lower rank,
then the evaluation of any tree finishes (with a value, an error or a panic). Trees and bodies may contain
integrals if walking from one bound to the other in `10^(PREC-3)`-th steps arrives within some number of steps
(proved for exact arithmetic in `C43`); otherwise they must not contain any. -/
theorem C24_terminates (cfg : Cfg) (ints : Prop) (N : Nat) (hN : ints → StepsArrive F cfg N)
    (ctx : Context F) (rank : Str → Nat) (hfuns : Acyclic ints ctx.funs rank) (r : Nat) (b : AST F)
    (hb : Ranked rank ints r b) : ∃ n, eval cfg n b ctx ≠ .timeout := by
  obtain ⟨n, hn⟩ := bounded_tree cfg hN (bounded_funs cfg hN hfuns r) hb
  exact ⟨n, hn n (Nat.le_refl _) ctx.vars []⟩

/-- C24: without functions (and integrals) every tree is fine. -/
theorem C24_no_functions (cfg : Cfg) (ctx : Context F) (b : AST F) (hb : Ranked (fun _ => 0) False 1 b)
    (hctx : ctx.funs = []) : ∃ n, eval cfg n b ctx ≠ .timeout :=
  C24_terminates cfg False 0 (fun h => h.elim) ctx (fun _ => 0) (by simp [hctx, Acyclic]) 1 b hb

/-- `f(x) = g(x) + 1`, `g(x) = x * x` can be ranked. -/
example : Acyclic (F := F) False
    [⟨['f'], .simple .add (.function ['g'] [.variable ['x']]) (.scalar (FArith.ofInt 1)), [['x']]⟩,
     ⟨['g'], .simple .mult (.variable ['x']) (.variable ['x']), [['x']]⟩]
    (fun n => if n = ['f'] then 1 else 0) := by
  intro f hf
  simp only [List.mem_cons, List.not_mem_nil, or_false] at hf
  rcases hf with rfl | rfl
  · exact .simple _ _ _ (.function _ _ (by simp) (by simpa using .variable _)) (.scalar _)
  · exact .simple _ _ _ (.variable _) (.variable _)

/-! ## C23: recursion hidden in a derivative -/

theorem recThroughD_diverges (cfg : Cfg) (n : Nat) (v : F) (vars : List (Variable F)) :
    evalRec cfg n (.function ['f'] [.variable ['x']]) ⟨vars, (recThroughD (F := F)).funs⟩ [] = .timeout ∨
    (Context.mk vars (recThroughD (F := F)).funs).findVar ['x'] ≠ some [.scalar v] := by
  induction n using Nat.strongRecOn generalizing vars v with
  | ind n ih =>
    match n with
    | 0 => exact Or.inl (by simp [evalRec])
    | 1 => exact Or.inl (by simp only [evalRec]; rfl)
    | 2 =>
      by_cases hx : (Context.mk vars (recThroughD (F := F)).funs).findVar ['x'] = some [.scalar v]
      · left
        have hfind : Context.findFun ⟨vars, (recThroughD (F := F)).funs⟩ ['f'] =
            some ⟨['f'], .derivative (.function ['f'] [.variable ['x']]) ['x'] (.variable ['x']), [['x']]⟩ := rfl
        have hxe : evalRec cfg 1 (.variable ['x']) ⟨vars, (recThroughD (F := F)).funs⟩ [] = .ok [.scalar v] := by
          simp only [evalRec, hx]
        rw [evalRec.eq_def]
        simp only [hfind, List.length_cons, List.length_nil, ne_eq, not_true_eq_false, if_false,
          List.mapM_cons, List.mapM_nil, pure_eq, hxe, ok_bind]
        have hprod : cartProd [[Value.scalar v]] = [[Value.scalar v]] := rfl
        rw [hprod]
        simp only [List.mapM_cons]
        rw [evalRec.eq_def]
        simp [evalRec]
      · exact Or.inr hx
    | n + 3 =>
      by_cases hx : (Context.mk vars (recThroughD (F := F)).funs).findVar ['x'] = some [.scalar v]
      · left
        have hfind : Context.findFun ⟨vars, (recThroughD (F := F)).funs⟩ ['f'] =
            some ⟨['f'], .derivative (.function ['f'] [.variable ['x']]) ['x'] (.variable ['x']), [['x']]⟩ := rfl
        have hxe : evalRec cfg (n + 2) (.variable ['x']) ⟨vars, (recThroughD (F := F)).funs⟩ [] = .ok [.scalar v] := by
          simp only [evalRec, hx]
        rw [evalRec.eq_def]
        simp only [hfind, List.length_cons, List.length_nil, ne_eq, not_true_eq_false, if_false,
          List.mapM_cons, List.mapM_nil, pure_eq, hxe, ok_bind]
        have hprod : cartProd [[Value.scalar v]] = [[Value.scalar v]] := rfl
        rw [hprod]
        simp only [List.mapM_cons]
        have hcv : (Context.mk (callVars [['x']] [Value.scalar v] vars) (recThroughD (F := F)).funs).findVar ['x'] =
            some [.scalar v] := by
          rw [findVar_entries]
          simp only [entries_callVars]
          simp [entries]
        have hxe' : evalRec cfg (n + 1) (.variable ['x'])
            ⟨callVars [['x']] [Value.scalar v] vars, (recThroughD (F := F)).funs⟩ ['f'] = .ok [.scalar v] := by
          simp only [evalRec, hcv]
        rw [evalRec.eq_def]
        simp only [hxe', ok_bind, List.mapM_cons, calculateDerivative, dropVar_eq]
        generalize callVars [['x']] [Value.scalar v] vars = vs'
        have := ih (n + 1) (by omega) v ((Context.mk vs' (recThroughD (F := F)).funs).removeVar ['x'] |>.addVar
          ⟨['x'], [.scalar v]⟩).vars
        rcases this with h | h
        · have h' : evalRec cfg (n + 1) (.function ['f'] [.variable ['x']])
              (((Context.mk vs' (recThroughD (F := F)).funs).removeVar ['x']).addVar ⟨['x'], [.scalar v]⟩) [] =
              .timeout := h
          rw [h']
          rfl
        · exfalso
          apply h
          rw [findVar_entries]
          simp only [Context.addVar, Context.removeVar, entries_append, entries_filter_ne, if_true, entries_cons,
            List.nil_append, List.head?_cons, Option.map_some]
      · exact Or.inr hx

/-- C23: nor is recursion through a derivative caught: with `f(x) = D(f(x), x, x)` and a scalar `x` the evaluation
of `f(x)` never returns. -/
theorem C23_derivative_diverges (cfg : Cfg) :
    Diverges (fun n => eval cfg n (.function ['f'] [.variable ['x']]) (recThroughD (F := F))) := by
  intro n
  rcases recThroughD_diverges cfg n (FArith.ofInt 0) (recThroughD (F := F)).vars with h | h
  · exact h
  · exact absurd rfl h

end
end MUL
