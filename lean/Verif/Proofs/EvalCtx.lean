import Verif.Spec.Eval
import Verif.Proofs.EvalFuel
import Verif.Props.Combinatorics
/-!
# Evaluation only depends on the bindings of the names that occur
-/

namespace MUL
open Out Spec

section
variable {F : Type} [FNum F]

/-- The entries of a variable list with a given name, in order. -/
def entries (vars : List (Variable F)) (n : Str) : List (Variable F) := vars.filter fun v => v.name == n

omit [FNum F] in
theorem entries_append (a b : List (Variable F)) (n : Str) : entries (a ++ b) n = entries a n ++ entries b n := by
  simp [entries]

omit [FNum F] in
theorem entries_cons (v : Variable F) (a : List (Variable F)) (n : Str) :
    entries (v :: a) n = if v.name = n then v :: entries a n else entries a n := by
  simp only [entries, List.filter_cons, beq_iff_eq]

omit [FNum F] in
theorem entries_nil_iff {a : List (Variable F)} {n : Str} : entries a n = [] ↔ ¬ (a.map (·.name)).contains n = true := by
  simp only [entries, List.filter_eq_nil_iff, beq_iff_eq, List.contains_iff_mem, List.mem_map, not_exists, not_and]

omit [FNum F] in
theorem findVar_entries (c : Context F) (n : Str) : c.findVar n = (entries c.vars n).head?.map (·.values) := by
  simp only [Context.findVar, entries, List.head?_filter]

omit [FNum F] in
theorem entries_callVars_aux (vars acc : List (Variable F)) (n : Str) :
    entries (vars.foldl (fun acc i => if (acc.map (·.name)).contains i.name then acc else acc ++ [i]) acc) n =
      if entries acc n = [] then (entries vars n).take 1 else entries acc n := by
  induction vars generalizing acc with
  | nil =>
    simp only [List.foldl_nil]
    split
    · simp_all [entries]
    · rfl
  | cons v vars ih =>
    simp only [List.foldl_cons]
    rw [ih]
    by_cases hc : (acc.map (·.name)).contains v.name = true
    · simp only [if_pos hc]
      split
      · rename_i h
        rw [entries_cons]
        split
        · rename_i hv
          rw [hv] at hc
          exact absurd hc (entries_nil_iff.1 h)
        · rfl
      · rfl
    · simp only [if_neg hc, entries_append, entries_cons]
      by_cases hv : v.name = n
      · simp only [if_pos hv]
        have : entries acc n = [] := by rw [← hv]; exact entries_nil_iff.2 hc
        rw [this]
        simp [show entries ([] : List (Variable F)) n = [] from rfl]
      · simp only [if_neg hv]
        simp [entries]

omit [FNum F] in
theorem entries_callVars (inputs : List Str) (p : List (Value F)) (vars : List (Variable F)) (n : Str) :
    entries (callVars inputs p vars) n =
      if entries ((inputs.zip p).map fun np => (⟨np.1, [np.2]⟩ : Variable F)) n = [] then (entries vars n).take 1
      else entries ((inputs.zip p).map fun np => (⟨np.1, [np.2]⟩ : Variable F)) n := by
  unfold callVars
  exact entries_callVars_aux _ _ _

omit [FNum F] in
theorem entries_filter_ne (vars : List (Variable F)) (m n : Str) :
    entries (vars.filter fun w => w.name != m) n = if n = m then [] else entries vars n := by
  unfold entries
  rw [List.filter_filter]
  split
  · rename_i h
    subst h
    apply List.filter_eq_nil_iff.2
    intro a _
    simp
  · rename_i h
    congr 1
    funext a
    by_cases ha : a.name = n <;> simp [ha, h]

omit [FNum F] in
theorem entries_eraseFirst (vars : List (Variable F)) (m n : Str) :
    entries (eraseFirstVar vars m) n = if n = m then (entries vars n).tail else entries vars n := by
  unfold eraseFirstVar
  induction vars with
  | nil => simp [entries]
  | cons v vars ih =>
    rw [List.eraseP_cons]
    by_cases hv : v.name = m
    · simp only [hv, beq_self_eq_true, cond_true, entries_cons]
      by_cases hn : n = m
      · simp [hn]
      · simp [hn, Ne.symm hn]
    · simp only [beq_eq_false_iff_ne.2 hv, cond_false, entries_cons]
      rw [ih]
      by_cases hn : n = m
      · subst hn; simp [hv]
      · simp [hn]

/-- Two contexts that agree on the variables in `V` (entries with the same name in the same order) and on the
functions in `G`. -/
structure AgreeOn (V G : Str → Prop) (c c' : Context F) : Prop where
  vars : ∀ n, V n → entries c.vars n = entries c'.vars n
  funs : ∀ n, G n → c.findFun n = c'.findFun n

/-- All functions in `G` only mention their parameters and names in `V` and `G`. -/
def ClosedFuns (V G : Str → Prop) (c : Context F) : Prop :=
  ∀ n f, G n → c.findFun n = some f → Mentions (fun y => V y ∨ y ∈ f.inputs) G f.ast

omit [FNum F] in
theorem mentions_mono {V V' : Str → Prop} {G : Str → Prop} (h : ∀ y, V y → V' y) {b : AST F} (hb : Mentions V G b) : Mentions V' G b := by
  induction hb with
  | scalar s => exact .scalar s
  | vector v _ ih => exact .vector v ih
  | matrix m _ ih => exact .matrix m ih
  | list l _ ih => exact .list l ih
  | «variable» n hn => exact .variable n (h n hn)
  | function n args hn _ ih => exact .function n args hn ih
  | simple op l r _ _ ih1 ih2 => exact .simple op l r ih1 ih2
  | integral e x lo hi _ _ _ ih1 ih2 ih3 => exact .integral e x lo hi ih1 ih2 ih3
  | derivative e x a _ _ ih1 ih2 => exact .derivative e x a ih1 ih2
  | equation eqs vars _ _ h3 ih1 ih2 => exact .equation eqs vars ih1 ih2 fun v hv => h v (h3 v hv)

omit [FNum F] in
/-- The parameters of a called function hide the variables of the caller. -/
theorem entries_params {inputs : List Str} {p : List (Value F)} (hlen : p.length = inputs.length) {n : Str} (hn : n ∈ inputs) :
    entries ((inputs.zip p).map fun np => (⟨np.1, [np.2]⟩ : Variable F)) n ≠ [] := by
  induction inputs generalizing p with
  | nil => cases hn
  | cons i inputs ih =>
    cases p with
    | nil => simp at hlen
    | cons a p =>
      simp only [List.zip_cons_cons, List.map_cons, entries_cons]
      by_cases hi : i = n
      · simp [hi]
      · rw [if_neg hi]
        refine ih (by simpa using hlen) ?_
        rcases List.mem_cons.1 hn with h | h
        · exact absurd h.symm hi
        · exact h

variable {V G : Str → Prop}

omit [FNum F] in
theorem AgreeOn.setVars {c c' : Context F} (h : AgreeOn V G c c') {vs vs' : List (Variable F)}
    (hv : ∀ n, V n → entries vs n = entries vs' n) : AgreeOn V G ⟨vs, c.funs⟩ ⟨vs', c'.funs⟩ :=
  ⟨hv, h.funs⟩

omit [FNum F] in
theorem AgreeOn.addVar {c c' : Context F} (h : AgreeOn V G c c') (v : Variable F) :
    AgreeOn V G (c.addVar v) (c'.addVar v) := by
  refine ⟨fun n hn => ?_, h.funs⟩
  simp only [Context.addVar, entries_append, entries_filter_ne, h.vars n hn]

omit [FNum F] in
theorem AgreeOn.removeVar {c c' : Context F} (h : AgreeOn V G c c') (m : Str) :
    AgreeOn V G (c.removeVar m) (c'.removeVar m) := by
  refine ⟨fun n hn => ?_, h.funs⟩
  simp only [Context.removeVar, entries_filter_ne, h.vars n hn]

omit [FNum F] in
theorem dropVar_eq (c : Context F) (m : Str) : dropVar c m = c.removeVar m := by
  unfold dropVar
  split
  · rfl
  · rename_i h
    unfold Context.removeVar
    have : (c.vars.filter fun w => w.name != m) = c.vars := by
      apply List.filter_eq_self.2
      intro a ha
      simp only [List.any_eq_true, beq_iff_eq, not_exists, not_and] at h
      simpa using h a ha
    rw [this]

/-- `ev` cannot distinguish contexts that agree on the mentioned names. -/
def Respects (V G : Str → Prop) (ev : Evaluator F) : Prop :=
  ∀ a c c', AgreeOn V G c c' → Mentions V G a → ClosedFuns V G c → ev a c = ev a c'

omit [FNum F] in
theorem closed_of_funs {c c' : Context F} (h : ClosedFuns V G c) (hf : c'.funs = c.funs) : ClosedFuns V G c' := by
  intro n f hn hfind
  refine h n f hn ?_
  rw [← hfind]
  simp [Context.findFun, hf]

omit [FNum F] in
theorem mentions_fromValue (v : Value F) : Mentions V G (AST.fromValue v) := by
  cases v with
  | scalar s => exact .scalar s
  | vector v =>
    refine .vector _ fun a ha => ?_
    obtain ⟨x, _, rfl⟩ := List.mem_map.1 ha
    exact .scalar x
  | matrix m =>
    refine .matrix _ fun l hl a ha => ?_
    obtain ⟨r, _, rfl⟩ := List.mem_map.1 hl
    obtain ⟨x, _, rfl⟩ := List.mem_map.1 ha
    exact .scalar x

theorem mentions_dq (cfg : Cfg) (a b : Value F) : Mentions V G (differenceQuotient cfg a b) :=
  .simple _ _ _ (.simple _ _ _ (mentions_fromValue _) (mentions_fromValue _)) (mentions_fromValue _)

theorem integralLoop_ext {ev : Evaluator F} (hev : Respects V G ev) {expr : AST F} (x : Str)
    (hm : Mentions V G expr) {c c' : Context F} (h : AgreeOn V G c c') (hc : ClosedFuns V G c) {vs vs' : List (Variable F)}
    (hv : ∀ n, V n → entries vs n = entries vs' n) (ub dx : F) (n : Nat) (b : F) (sums : List (Value F)) :
    integralLoop ev expr x vs c.funs ub dx n b sums = integralLoop ev expr x vs' c'.funs ub dx n b sums := by
  induction n generalizing b sums with
  | zero => rfl
  | succ n ih =>
    unfold integralLoop
    congr 1
    have e1 := hev expr
      (⟨vs ++ [⟨x, [.scalar (FArith.div (FArith.add b (FArith.sub b dx)) (FArith.ofInt 2))]⟩], c.funs⟩ : Context F)
      (⟨vs' ++ [⟨x, [.scalar (FArith.div (FArith.add b (FArith.sub b dx)) (FArith.ofInt 2))]⟩], c'.funs⟩ : Context F)
      (h.setVars fun n hn => by rw [entries_append, entries_append, hv n hn]) hm (closed_of_funs hc rfl)
    rw [e1]
    simp only [ih]

theorem calculateIntegral_ext (cfg : Cfg) {ev : Evaluator F} (hev : Respects V G ev) {expr : AST F} (x : Str)
    (hm : Mentions V G expr) {c c' : Context F} (h : AgreeOn V G c c') (hc : ClosedFuns V G c) (n : Nat)
    (l u : Value F) : calculateIntegral cfg ev n expr x l u c = calculateIntegral cfg ev n expr x l u c' := by
  unfold calculateIntegral
  have hv : ∀ n, V n → entries (eraseFirstVar c.vars x) n = entries (eraseFirstVar c'.vars x) n := by
    intro n hn
    rw [entries_eraseFirst, entries_eraseFirst, h.vars n hn]
  cases l <;> cases u <;> try rfl
  dsimp only
  congr 1
  rw [integralLoop_ext hev x hm h hc hv]

theorem calculateDerivative_ext (cfg : Cfg) {ev : Evaluator F} (hev : Respects V G ev) {expr : AST F} (x : Str)
    (hm : Mentions V G expr) {c c' : Context F} (h : AgreeOn V G c c') (hc : ClosedFuns V G c)
    (a : Value F) : calculateDerivative cfg ev expr x a c = calculateDerivative cfg ev expr x a c' := by
  unfold calculateDerivative
  cases a <;> try rfl
  simp only [dropVar_eq]
  have h1 := (h.removeVar x)
  rename_i s
  have c1 : ∀ v : Variable F, ClosedFuns V G ((c.removeVar x).addVar v) := fun v => closed_of_funs hc rfl
  rw [hev expr _ _ (h1.addVar ⟨x, [.scalar s]⟩) hm (c1 _)]
  refine Out.bind_congr fun fxs _ => ?_
  have h2 := ((h1.addVar ⟨x, [.scalar s]⟩).removeVar x).addVar
    ⟨x, [.scalar (FArith.add s (FArith.powi (FArith.ofInt 10) (-(cfg.prec : Int))))]⟩
  have c2 : ∀ u v : Variable F, ClosedFuns V G ((((c.removeVar x).addVar u).removeVar x).addVar v) :=
    fun u v => closed_of_funs hc rfl
  rw [hev expr _ _ h2 hm (c2 _ _)]
  refine Out.bind_congr fun fxhs _ => ?_
  congr 1
  congr 1
  apply mapM_congr
  intro i _
  refine Out.bind_congr fun _ _ => Out.bind_congr fun _ _ => ?_
  exact hev _ _ _ h2 (mentions_dq _ _ _) (c2 _ _)

theorem calculateDerivativeNewton_ext (cfg : Cfg) {ev : Evaluator F} (hev : Respects V G ev) {expr : AST F} (x : Str)
    (hm : Mentions V G expr) {c c' : Context F} (h : AgreeOn V G c c') (hc : ClosedFuns V G c)
    (a : Value F) (fx : Option (Value F)) :
    calculateDerivativeNewton cfg ev expr x a fx c = calculateDerivativeNewton cfg ev expr x a fx c' := by
  unfold calculateDerivativeNewton
  cases a <;> try rfl
  simp only [dropVar_eq]
  have h1 := (h.removeVar x)
  rename_i s
  cases fx with
  | some fx =>
    simp only [ok_bind]
    have h2 := h1.addVar ⟨x, [.scalar (FArith.add s (FArith.powi (FArith.ofInt 10) (-(cfg.prec : Int))))]⟩
    have c2 : ∀ v : Variable F, ClosedFuns V G ((c.removeVar x).addVar v) := fun v => closed_of_funs hc rfl
    rw [hev expr _ _ h2 hm (c2 _)]
    refine Out.bind_congr fun _ _ => Out.bind_congr fun _ _ => ?_
    rw [hev _ _ _ h2 (mentions_dq _ _ _) (c2 _)]
  | none =>
    have h3 := (h1.addVar ⟨x, [.scalar s]⟩)
    have c1 : ∀ v : Variable F, ClosedFuns V G ((c.removeVar x).addVar v) := fun v => closed_of_funs hc rfl
    simp only [bind_assoc, ok_bind]
    rw [hev expr _ _ h3 hm (c1 _)]
    refine Out.bind_congr fun _ _ => Out.bind_congr fun _ _ => ?_
    have h2 := (h3.removeVar x).addVar
      ⟨x, [.scalar (FArith.add s (FArith.powi (FArith.ofInt 10) (-(cfg.prec : Int))))]⟩
    have c2 : ∀ u v : Variable F, ClosedFuns V G ((((c.removeVar x).addVar u).removeVar x).addVar v) :=
      fun u v => closed_of_funs hc rfl
    rw [hev expr _ _ h2 hm (c2 _ _)]
    refine Out.bind_congr fun _ _ => Out.bind_congr fun _ _ => ?_
    rw [hev _ _ _ h2 (mentions_dq _ _ _) (c2 _ _)]

omit [FNum F] in
theorem AgreeOn.addVars {c c' : Context F} (h : AgreeOn V G c c') (x : List (Variable F)) :
    AgreeOn V G (addVars c x) (addVars c' x) := by
  unfold MUL.addVars
  induction x generalizing c c' with
  | nil => exact h
  | cons v x ih => exact ih (h.addVar v)

omit [FNum F] in
theorem AgreeOn.removeVars {c c' : Context F} (h : AgreeOn V G c c') (x : List (Variable F)) :
    AgreeOn V G (removeVars c x) (removeVars c' x) := by
  unfold MUL.removeVars
  induction x generalizing c c' with
  | nil => exact h
  | cons v x ih => exact ih (h.removeVar v.name)

omit [FNum F] in
theorem addVars_funs (c : Context F) (x : List (Variable F)) : (addVars c x).funs = c.funs := by
  unfold addVars
  induction x generalizing c with
  | nil => rfl
  | cons v x ih => exact ih (c.addVar v)

omit [FNum F] in
theorem removeVars_funs (c : Context F) (x : List (Variable F)) : (removeVars c x).funs = c.funs := by
  unfold removeVars
  induction x generalizing c with
  | nil => rfl
  | cons v x ih => exact ih (c.removeVar v.name)

theorem jacobiAndGauss_ext (cfg : Cfg) {ev : Evaluator F} (hev : Respects V G ev) {es : List (AST F)}
    (hm : ∀ e ∈ es, Mentions V G e) (x : List (Variable F)) {c c' : Context F} (h : AgreeOn V G c c')
    (hc : ClosedFuns V G c) (fx : List F) :
    jacobiAndGauss cfg ev es x c fx = jacobiAndGauss cfg ev es x c' fx := by
  unfold jacobiAndGauss
  congr 1
  apply mapM_congr
  intro i _
  apply mapM_congr
  intro j _
  dsimp only
  refine Out.bind_congr fun e he => Out.bind_congr fun xj _ => Out.bind_congr fun at_ _ => Out.bind_congr fun fxi _ => ?_
  have hme : Mentions V G e := hm e (List.mem_of_getElem? (idx_eq_ok.1 he))
  have hctx : AgreeOn V G
      ⟨c.vars ++ ((List.range x.length).filter fun k => j != k).filterMap fun k => x[k]?, c.funs⟩
      ⟨c'.vars ++ ((List.range x.length).filter fun k => j != k).filterMap fun k => x[k]?, c'.funs⟩ :=
    ⟨fun n hn => by rw [entries_append, entries_append, h.vars n hn], h.funs⟩
  rw [calculateDerivativeNewton_ext cfg hev xj.name hme hctx (closed_of_funs hc rfl)]

theorem evalScalars_ext {ev : Evaluator F} (hev : Respects V G ev) {es : List (AST F)}
    (hm : ∀ e ∈ es, Mentions V G e) {c c' : Context F} (h : AgreeOn V G c c') (hc : ClosedFuns V G c) :
    evalScalars ev es c = evalScalars ev es c' := by
  unfold evalScalars
  apply mapM_congr
  intro e he
  rw [hev e c c' h (hm e he) hc]

/-- Same outcome, and contexts that still agree. -/
theorem newton_ext (cfg : Cfg) {ev : Evaluator F} (hev : Respects V G ev) {ss cs : List (AST F)}
    (hs : ∀ e ∈ ss, Mentions V G e) (hcs : ∀ e ∈ cs, Mentions V G e) (x : List (Variable F))
    {c c' : Context F} (h : AgreeOn V G c c') (hc : ClosedFuns V G c) :
    (newton cfg ev ss cs x c).1 = (newton cfg ev ss cs x c').1 ∧
    AgreeOn V G (newton cfg ev ss cs x c).2 (newton cfg ev ss cs x c').2 ∧
    (newton cfg ev ss cs x c).2.funs = c.funs := by
  unfold newton
  dsimp only
  have f1 : (addVars c x).funs = c.funs := addVars_funs c x
  have f2 : (removeVars (addVars c x) x).funs = c.funs := by rw [removeVars_funs, f1]
  have f3 : (addVars (removeVars (addVars c x) x) x).funs = c.funs := by rw [addVars_funs, f2]
  have f4 : (removeVars (addVars (removeVars (addVars c x) x) x) x).funs = c.funs := by rw [removeVars_funs, f3]
  have a1 := h.addVars x
  have a2 := a1.removeVars x
  have a3 := a2.addVars x
  have a4 := a3.removeVars x
  rw [evalScalars_ext hev hs a1 (closed_of_funs hc f1)]
  cases evalScalars ev ss (addVars c' x) with
  | err e => exact ⟨rfl, a1, f1⟩
  | panic => exact ⟨rfl, a1, f1⟩
  | timeout => exact ⟨rfl, a1, f1⟩
  | ok fx =>
    dsimp only
    split
    · rw [evalScalars_ext hev hcs a3 (closed_of_funs hc f3)]
      cases evalScalars ev cs (addVars (removeVars (addVars c' x) x) x) with
      | err e => exact ⟨rfl, a3, f3⟩
      | panic => exact ⟨rfl, a3, f3⟩
      | timeout => exact ⟨rfl, a3, f3⟩
      | ok r =>
        dsimp only
        split
        · exact ⟨rfl, a4, f4⟩
        · split
          · exact ⟨rfl, a4, f4⟩
          · exact ⟨rfl, a4, f4⟩
    · rw [jacobiAndGauss_ext cfg hev hs x a2 (closed_of_funs hc f2) fx]
      cases jacobiAndGauss cfg ev ss x (removeVars (addVars c' x) x) fx with
      | err e => exact ⟨rfl, a2, f2⟩
      | panic => exact ⟨rfl, a2, f2⟩
      | timeout => exact ⟨rfl, a2, f2⟩
      | ok r =>
        dsimp only
        cases r.mapM (fun i => (Out.unwrap i.values[0]? : Out EvalError (Value F))) with
        | err e => exact ⟨rfl, a2, f2⟩
        | panic => exact ⟨rfl, a2, f2⟩
        | timeout => exact ⟨rfl, a2, f2⟩
        | ok vs =>
          dsimp only
          split
          · exact ⟨rfl, a2, f2⟩
          · exact ⟨rfl, a2, f2⟩

/-- Same outcome of the inner solve loop up to agreeing contexts. -/
def Loop1Rel (V G : Str → Prop) (funs : List (Function F)) :
    Out EvalError (Loop1 F) → Out EvalError (Loop1 F) → Prop
  | .ok r, .ok r' => r.found = r'.found ∧ r.stop = r'.stop ∧ AgreeOn V G r.ctx r'.ctx ∧ r.ctx.funs = funs
  | .err e, .err e' => e = e'
  | .panic, .panic => True
  | .timeout, .timeout => True
  | _, _ => False

theorem solveLoop1_ext (cfg : Cfg) {ev : Evaluator F} (hev : Respects V G ev) {ss cs : List (AST F)}
    (hs : ∀ e ∈ ss, Mentions V G e) (hcs : ∀ e ∈ cs, Mentions V G e) (n : Nat) (x : List (Variable F))
    {c c' : Context F} (h : AgreeOn V G c c') (hc : ClosedFuns V G c) :
    Loop1Rel V G c.funs (solveLoop1 cfg ev ss cs n x c) (solveLoop1 cfg ev ss cs n x c') := by
  induction n generalizing x c c' with
  | zero => exact ⟨rfl, rfl, h, rfl⟩
  | succ n ih =>
    unfold solveLoop1
    obtain ⟨h1, h2, h3⟩ := newton_ext cfg hev hs hcs x h hc
    revert h1 h2 h3
    cases newton cfg ev ss cs x c with
    | mk a b =>
      cases newton cfg ev ss cs x c' with
      | mk a' b' =>
        intro h1 h2 h3
        simp only at h1 h2 h3
        subst h1
        cases a with
        | ok r =>
          cases r with
          | nextX x' =>
            have := ih x' h2 (closed_of_funs hc h3)
            rw [h3] at this
            exact this
          | finishedX x' =>
            dsimp only
            cases (resultValue x' : Out EvalError (Value F)) with
            | ok v => exact ⟨rfl, rfl, h2, h3⟩
            | err e => exact rfl
            | panic => exact trivial
            | timeout => exact trivial
        | err e =>
          cases e <;> first | exact rfl | exact ⟨rfl, rfl, h2, h3⟩
        | panic => exact trivial
        | timeout => exact trivial

theorem solveLoop0_ext (cfg : Cfg) {ev : Evaluator F} (hev : Respects V G ev) {ss cs : List (AST F)}
    (hs : ∀ e ∈ ss, Mentions V G e) (hcs : ∀ e ∈ cs, Mentions V G e) (names : List Str) (js : List Int)
    {c c' : Context F} (h : AgreeOn V G c c') (hc : ClosedFuns V G c) (results : List (Value F)) :
    solveLoop0 cfg ev ss cs names js c results = solveLoop0 cfg ev ss cs names js c' results := by
  induction js generalizing c c' results with
  | nil => rfl
  | cons j js ih =>
    unfold solveLoop0
    dsimp only
    have h1 := solveLoop1_ext cfg hev hs hcs 1000 (names.map fun k => (⟨k, [.scalar (FArith.ofInt j)]⟩ : Variable F)) h hc
    revert h1
    cases solveLoop1 cfg ev ss cs 1000 (names.map fun k => (⟨k, [.scalar (FArith.ofInt j)]⟩ : Variable F)) c <;>
      cases solveLoop1 cfg ev ss cs 1000 (names.map fun k => (⟨k, [.scalar (FArith.ofInt j)]⟩ : Variable F)) c' <;>
      intro h1 <;> try exact False.elim h1
    · obtain ⟨e1, e2, e3, e4⟩ := h1
      simp only [ok_bind, e1, e2]
      congr 1
      exact ih e3 (closed_of_funs hc e4) _
    · cases h1; rfl
    · rfl
    · rfl

theorem splitExprs_mem {ε α : Type} {js : List Nat} {r : Nat} {s c s' c' : List α}
    (h : (splitExprs js r s c : Out ε (List α × List α)) = .ok (s', c')) : s' ⊆ s ++ c ∧ c' ⊆ c := by
  induction js generalizing r s c with
  | nil =>
    simp only [splitExprs, Out.ok.injEq, Prod.mk.injEq] at h
    obtain ⟨rfl, rfl⟩ := h
    exact ⟨List.subset_append_left _ _, List.Subset.refl _⟩
  | cons j js ih =>
    unfold splitExprs at h
    split at h
    · cases h
    · obtain ⟨e, he, h⟩ := bind_eq_ok.1 h
      obtain ⟨h1, h2⟩ := ih h
      have hmem : e ∈ c := List.mem_of_getElem? (idx_eq_ok.1 he)
      have hsub : c.eraseIdx (j - r) ⊆ c := (List.eraseIdx_sublist _ _).subset
      constructor
      · intro a ha
        have := h1 ha
        simp only [List.mem_append, List.mem_singleton] at this ⊢
        rcases this with (h | rfl) | h
        · exact Or.inl h
        · exact Or.inr hmem
        · exact Or.inr (hsub h)
      · exact fun a ha => hsub (h2 ha)

theorem findRootsLoop_ext (cfg : Cfg) {ev : Evaluator F} (hev : Respects V G ev) (es : List (AST F))
    (hm : ∀ e ∈ es, Mentions V G e) (combs : List (List Nat)) (names : List Str)
    {c c' : Context F} (h : AgreeOn V G c c') (hc : ClosedFuns V G c) (l : List (List Nat)) :
    findRootsLoop cfg ev ⟨es, combs, c, names⟩ l = findRootsLoop cfg ev ⟨es, combs, c', names⟩ l := by
  induction l with
  | nil => rfl
  | cons i l ih =>
    unfold findRootsLoop
    dsimp only
    refine Out.bind_congr fun p hp => ?_
    obtain ⟨s', c''⟩ := p
    obtain ⟨h1, h2⟩ := splitExprs_mem hp
    dsimp only
    rw [solveLoop0_ext cfg hev (fun e he => hm e (by simpa using h1 he)) (fun e he => hm e (h2 he)) names _ h hc]
    simp only [ih]

omit [FNum F] in
theorem foldAdd_agree {c c' : Context F} (h : AgreeOn V G c c') (names : List Str) (f : Str → Variable F) :
    AgreeOn V G (names.foldl (fun c i => c.addVar (f i)) c) (names.foldl (fun c i => c.addVar (f i)) c') := by
  induction names generalizing c c' with
  | nil => exact h
  | cons v x ih => exact ih (h.addVar _)

omit [FNum F] in
theorem foldAdd_funs (c : Context F) (names : List Str) (f : Str → Variable F) :
    (names.foldl (fun c i => c.addVar (f i)) c).funs = c.funs := by
  induction names generalizing c with
  | nil => rfl
  | cons v x ih => exact ih _

omit [FNum F] in
theorem foldRemove_agree {c c' : Context F} (h : AgreeOn V G c c') (names : List Str) :
    AgreeOn V G (names.foldl (fun c i => c.removeVar i) c) (names.foldl (fun c i => c.removeVar i) c') := by
  induction names generalizing c c' with
  | nil => exact h
  | cons v x ih => exact ih (h.removeVar _)

omit [FNum F] in
theorem foldRemove_funs (c : Context F) (names : List Str) :
    (names.foldl (fun c i => c.removeVar i) c).funs = c.funs := by
  induction names generalizing c with
  | nil => rfl
  | cons v x ih => exact ih _

theorem rootFinderNew_ext {ev : Evaluator F} (hev : Respects V G ev) {es : List (AST F)}
    (hm : ∀ e ∈ es, Mentions V G e) {names : List Str} (hn : ∀ v ∈ names, V v)
    {c c' : Context F} (h : AgreeOn V G c c') (hc : ClosedFuns V G c) (cfg : Cfg) :
    (RootFinder.new ev es c names >>= fun rf => rf.findRoots cfg ev) =
      (RootFinder.new ev es c' names >>= fun rf => rf.findRoots cfg ev) := by
  unfold RootFinder.new
  have hcont : (names.any fun i => (c.vars.map (·.name)).contains i) =
      (names.any fun i => (c'.vars.map (·.name)).contains i) := by
    have : ∀ i ∈ names, (c.vars.map (·.name)).contains i = (c'.vars.map (·.name)).contains i := by
      intro i hi
      have e := h.vars i (hn i hi)
      rw [Bool.eq_iff_iff]
      rw [← not_iff_not, ← entries_nil_iff, ← entries_nil_iff, e]
    rw [Bool.eq_iff_iff]
    simp only [List.any_eq_true]
    constructor
    · rintro ⟨i, hi, h⟩; exact ⟨i, hi, by rw [← this i hi]; exact h⟩
    · rintro ⟨i, hi, h⟩; exact ⟨i, hi, by rw [this i hi]; exact h⟩
  rw [hcont]
  split
  · rfl
  · split
    · rfl
    · split
      · rfl
      · split
        · rfl
        · dsimp only
          have a1 : AgreeOn V G (names.foldl (fun c i => c.addVar ⟨i, [.scalar (FArith.ofDec 821785 (-5))]⟩) c)
              (names.foldl (fun c i => c.addVar ⟨i, [.scalar (FArith.ofDec 821785 (-5))]⟩) c') := by
            exact foldAdd_agree h _ _
          have f1 : (names.foldl (fun c i => c.addVar ⟨i, [.scalar (FArith.ofDec 821785 (-5))]⟩) c).funs = c.funs := by
            exact foldAdd_funs _ _ _
          generalize (names.foldl (fun c i => c.addVar ⟨i, [.scalar (FArith.ofDec 821785 (-5))]⟩) c) = d at a1 f1
          generalize (names.foldl (fun c i => c.addVar ⟨i, [.scalar (FArith.ofDec 821785 (-5))]⟩) c') = d' at a1
          have a2 : AgreeOn V G (names.foldl (fun c i => c.removeVar i) d) (names.foldl (fun c i => c.removeVar i) d') := by
            exact foldRemove_agree a1 _
          have f2 : (names.foldl (fun c i => c.removeVar i) d).funs = c.funs := by
            rw [← f1]
            exact foldRemove_funs _ _
          simp only [bind_assoc]
          refine Out.bind_congr fun e0 he0 => ?_
          rw [hev e0 _ _ a1 (hm e0 (List.mem_of_getElem? (idx_eq_ok.1 he0))) (closed_of_funs hc f1)]
          refine Out.bind_congr fun r _ => Out.bind_congr fun v _ => ?_
          cases v with
          | vector _ => rfl
          | matrix _ => rfl
          | scalar s =>
            simp only [ok_bind, RootFinder.findRoots]
            exact findRootsLoop_ext cfg hev es hm _ names a2 (closed_of_funs hc f2) _

theorem solveEquations_ext (cfg : Cfg) {ev : Evaluator F} (hev : Respects V G ev) {eqs : List (AST F × AST F)}
    (h1 : ∀ e ∈ eqs, Mentions V G e.1) (h2 : ∀ e ∈ eqs, Mentions V G e.2) {names : List Str} (hn : ∀ v ∈ names, V v)
    {c c' : Context F} (h : AgreeOn V G c c') (hc : ClosedFuns V G c) :
    solveEquations cfg ev eqs c names = solveEquations cfg ev eqs c' names := by
  unfold solveEquations
  refine rootFinderNew_ext hev ?_ hn h hc cfg
  intro e he
  obtain ⟨p, hp, rfl⟩ := List.mem_map.1 he
  exact .simple _ _ _ (h1 p hp) (h2 p hp)

theorem evalRec_ext (cfg : Cfg) (n : Nat) {b : AST F} (hm : Mentions V G b) {c c' : Context F}
    (h : AgreeOn V G c c') (hc : ClosedFuns V G c) (w : Str) : evalRec cfg n b c w = evalRec cfg n b c' w := by
  induction n generalizing V b c c' w with
  | zero => simp [evalRec]
  | succ n ih =>
    have hev : Respects V G (fun a c => evalRec (F := F) cfg n a c []) :=
      fun a c c' h hm hc => ih hm h hc []
    cases hm with
    | scalar s => simp only [evalRec]
    | vector v hv =>
      simp only [evalRec]
      rw [mapM_congr fun i hi => by rw [ih (hv i hi) h hc]]
    | matrix m hv =>
      simp only [evalRec]
      rw [mapM_congr fun r hr => mapM_congr fun i hi => by rw [ih (hv r hr i hi) h hc]]
    | list l hv =>
      simp only [evalRec]
      rw [mapM_congr fun i hi => by rw [ih (hv i hi) h hc]]
    | «variable» x hx =>
      simp only [evalRec]
      rw [findVar_entries, findVar_entries, h.vars x hx]
    | function g args hg ha =>
      simp only [evalRec]
      rw [← h.funs g hg]
      split
      · rfl
      · cases hf : c.findFun g with
        | none => rfl
        | some f =>
          dsimp only
          split
          · rfl
          · next hlen =>
            rw [mapM_congr fun i hi => by rw [ih (ha i hi) h hc]]
            refine Out.bind_congr fun vals hvals => ?_
            congr 1
            apply mapM_congr
            intro p hp
            have hpl : p.length = f.inputs.length := by
              rw [cartProd_eq_choices] at hp
              rw [choices_length hp, ← (Out.mapM_eq_ok.1 hvals).length_eq]
              exact not_not.1 hlen
            have hctx : AgreeOn (fun y => V y ∨ y ∈ f.inputs) G ⟨callVars f.inputs p c.vars, c.funs⟩ ⟨callVars f.inputs p c'.vars, c'.funs⟩ := by
              refine ⟨fun n hn => ?_, h.funs⟩
              rw [entries_callVars, entries_callVars]
              rcases hn with hn | hn
              · rw [h.vars n hn]
              · rw [if_neg (entries_params hpl hn), if_neg (entries_params hpl hn)]
            refine ih (hc g f hg hf) hctx (closed_of_funs (c := c) (fun n' f' hn' hf' => ?_) rfl) g
            exact mentions_mono (fun y hy => hy.imp_left Or.inl) (hc n' f' hn' hf')
    | simple op l r hl hr =>
      simp only [evalRec]
      rw [ih hl h hc, ih hr h hc]
    | integral e x l u he hl hu =>
      simp only [evalRec]
      rw [ih hl h hc, ih hu h hc]
      simp only [calculateIntegral_ext cfg hev x he h hc]
    | derivative e x a he ha =>
      simp only [evalRec]
      rw [ih ha h hc]
      simp only [calculateDerivative_ext cfg hev x he h hc]
    | equation eqs vars h1 h2 h3 =>
      simp only [evalRec]
      exact solveEquations_ext cfg hev h1 h2 h3 h hc

end
end MUL
