import Verif.Spec.Reported
import Verif.Spec.Eval
import Verif.Proofs.OutLemmas
import Verif.Proofs.Roots
import Verif.Proofs.EvalCtx
import Verif.Props.Combinatorics
/-!
# C105: origins of errors
-/

namespace MUL
open Out FArith FElem Spec
variable {F : Type} [FNum F]

/-- Every error of the outcome satisfies `J`. -/
def ErrIn {ε α : Type} (J : ε → Prop) (o : Out ε α) : Prop := ∀ e, o = .err e → J e

namespace ErrIn
variable {ε α β : Type} {J : ε → Prop}

theorem ok (a : α) : ErrIn J (.ok a : Out ε α) := nofun
theorem panic : ErrIn J (.panic : Out ε α) := nofun
theorem timeout : ErrIn J (.timeout : Out ε α) := nofun
theorem err {e : ε} (h : J e) : ErrIn J (.err e : Out ε α) := by
  rintro _ ⟨⟩; exact h

theorem bind {x : Out ε α} {f : α → Out ε β} (h : ErrIn J x) (h' : ∀ a, x = .ok a → ErrIn J (f a)) : ErrIn J (x >>= f) := by
  intro e he
  rcases bind_eq_err.1 he with h1 | ⟨a, ha, h2⟩
  · exact h e h1
  · exact h' a ha e h2

theorem mapM {f : α → Out ε β} (l : List α) (h : ∀ a ∈ l, ErrIn J (f a)) : ErrIn J (l.mapM f) := by
  induction l with
  | nil => exact ok _
  | cons a l ih =>
    rw [List.mapM_cons]
    exact (h a (by simp)).bind fun _ _ => (ih fun a ha => h a (by simp [ha])).bind fun _ _ => ok _

theorem foldlM {f : β → α → Out ε β} (l : List α) (h : ∀ b, ∀ a ∈ l, ErrIn J (f b a)) (b : β) : ErrIn J (l.foldlM f b) := by
  induction l generalizing b with
  | nil => exact ok _
  | cons a l ih =>
    rw [List.foldlM_cons]
    exact (h b a (by simp)).bind fun _ _ => ih (fun b a ha => h b a (by simp [ha])) _

theorem ite {c : Prop} [Decidable c] {x y : Out ε α} (hx : c → ErrIn J x) (hy : ¬ c → ErrIn J y) : ErrIn J (if c then x else y) := by
  split
  · exact hx ‹_›
  · exact hy ‹_›

theorem unwrap (o : Option α) : ErrIn J (Out.unwrap o : Out ε α) := by cases o <;> nofun
theorem idx (l : List α) (i : Nat) : ErrIn J (idx l i : Out ε α) := unwrap _

theorem mono' {x : Out ε α} {e : ε} (h : ErrIn J x) (hx : x = .err e) : ErrIn J (.err e : Out ε β) := ErrIn.err (h e hx)

theorem mono {K : ε → Prop} {x : Out ε α} (h : ErrIn J x) (hJ : ∀ e, J e → K e) : ErrIn K x := fun e he => hJ e (h e he)

end ErrIn

theorem errIn_mapErr {ε ε' α : Type} {J : ε' → Prop} {f : ε → ε'} (hf : ∀ e, J (f e)) (x : Out ε α) : ErrIn J (x.mapErr f) := by
  cases x
  · exact ErrIn.ok _
  · exact ErrIn.err (hf _)
  · exact ErrIn.panic
  · exact ErrIn.timeout

section
variable {J : EvalError → Prop} (hJ : ∀ s, J (.mathError s))
include hJ

theorem errIn_lift {α : Type} (x : Out String α) : ErrIn J (liftMath x) := errIn_mapErr hJ x

theorem errIn_applyOp (op : SimpleOp) (i j : Value F) : ErrIn J (applyOp op i j) := by
  cases op <;>
    first
    | exact ErrIn.ok _
    | exact (errIn_lift hJ _).bind fun _ _ => ErrIn.ok _
    | exact (errIn_lift hJ _).bind fun _ _ => (errIn_lift hJ _).bind fun _ _ => ErrIn.ok _

theorem errIn_applyAll (op : SimpleOp) (lv rv : List (Value F)) : ErrIn J (applyAll op lv rv) :=
  (ErrIn.mapM _ fun _ _ => (ErrIn.mapM _ fun _ _ => errIn_applyOp hJ _ _ _).bind fun _ _ => ErrIn.ok _).bind fun _ _ => ErrIn.ok _

theorem errIn_accumulate (s e : List (Value F)) : ErrIn J (accumulate s e) := by
  induction e generalizing s with
  | nil => cases s <;> exact ErrIn.ok _
  | cons a e ih =>
    cases s with
    | nil => exact (ih []).bind fun _ _ => ErrIn.ok _
    | cons b s => exact (errIn_lift hJ _).bind fun _ _ => (ih s).bind fun _ _ => ErrIn.ok _

omit hJ in
theorem errIn_fromValue (cfg : Cfg) (v : Value F) (n : Nat) (ctx : Context F) (w : Str) : ErrIn J (evalRec cfg n (AST.fromValue v) ctx w) := by
  cases n with
  | zero => exact ErrIn.timeout
  | succ n =>
    cases v with
    | scalar s => exact ErrIn.ok _
    | vector v =>
      rw [AST.fromValue, evalRec.eq_def]
      refine ErrIn.bind (ErrIn.mapM _ fun a ha => ?_) fun _ _ => ErrIn.ok _
      obtain ⟨s, _, rfl⟩ := List.mem_map.1 ha
      cases n with
      | zero => exact ErrIn.timeout
      | succ n => exact ErrIn.ok _
    | matrix v =>
      rw [AST.fromValue, evalRec.eq_def]
      refine ErrIn.bind (ErrIn.mapM _ fun r hr => ErrIn.mapM _ fun a ha => ?_) fun _ _ => ErrIn.ok _
      obtain ⟨r, _, rfl⟩ := List.mem_map.1 hr
      obtain ⟨s, _, rfl⟩ := List.mem_map.1 ha
      cases n with
      | zero => exact ErrIn.timeout
      | succ n => exact ErrIn.ok _

theorem errIn_dq (cfg : Cfg) (a b : Value F) (n : Nat) (ctx : Context F) (w : Str) : ErrIn J (evalRec cfg n (differenceQuotient cfg a b) ctx w) := by
  cases n with
  | zero => exact ErrIn.timeout
  | succ n =>
    rw [differenceQuotient, evalRec.eq_def]
    refine ErrIn.bind ?_ fun _ _ => (errIn_fromValue cfg _ _ _ _).bind fun _ _ => errIn_applyAll hJ _ _ _
    cases n with
    | zero => exact ErrIn.timeout
    | succ n =>
      rw [evalRec.eq_def]
      exact (errIn_fromValue cfg _ _ _ _).bind fun _ _ => (errIn_fromValue cfg _ _ _ _).bind fun _ _ => errIn_applyAll hJ _ _ _

end

/-- The names of `N` are variables of the context, its functions are `funs`. -/
structure Scope (N : Str → Prop) (funs : List (Function F)) (c : Context F) : Prop where
  has : ∀ v, N v → ∃ u ∈ c.vars, u.name = v
  funs : c.funs = funs

section
variable {N : Str → Prop} {funs : List (Function F)} {c : Context F}

omit [FNum F] in
theorem Scope.addVar (h : Scope N funs c) (v : Variable F) : Scope N funs (c.addVar v) := by
  refine ⟨fun n hn => ?_, h.funs⟩
  obtain ⟨u, hu, rfl⟩ := h.has n hn
  by_cases he : u.name = v.name
  · exact ⟨v, by simp [Context.addVar], he.symm⟩
  · exact ⟨u, by simp [Context.addVar, hu, he], rfl⟩

omit [FNum F] in
theorem Scope.replace (h : Scope N funs c) (v : Variable F) {vs : List (Variable F)}
    (hvs : ∀ u ∈ c.vars, u.name ≠ v.name → ∃ u' ∈ vs, u'.name = u.name) : Scope N funs ⟨vs ++ [v], c.funs⟩ := by
  refine ⟨fun n hn => ?_, h.funs⟩
  obtain ⟨u, hu, rfl⟩ := h.has n hn
  by_cases he : u.name = v.name
  · exact ⟨v, by simp, he.symm⟩
  · obtain ⟨u', h1, h2⟩ := hvs u hu he
    exact ⟨u', by simp [h1], h2⟩

omit [FNum F] in
theorem Scope.removeAdd (h : Scope N funs c) (v : Variable F) : Scope N funs ((c.removeVar v.name).addVar v) := by
  refine ⟨fun n hn => ?_, h.funs⟩
  obtain ⟨u, hu, rfl⟩ := h.has n hn
  by_cases he : u.name = v.name
  · exact ⟨v, by simp [Context.addVar], he.symm⟩
  · exact ⟨u, by simp [Context.addVar, Context.removeVar, hu, he], rfl⟩

omit [FNum F] in
theorem Scope.dropAdd (h : Scope N funs c) (v : Variable F) : Scope N funs ((dropVar c v.name).addVar v) := by
  unfold dropVar
  split
  · exact h.removeAdd v
  · exact h.addVar v

omit [FNum F] in
theorem Scope.remove (h : Scope N funs c) {n : Str} (hn : ¬ N n) : Scope N funs (c.removeVar n) := by
  refine ⟨fun m hm => ?_, h.funs⟩
  obtain ⟨u, hu, rfl⟩ := h.has m hm
  exact ⟨u, by simp only [Context.removeVar, List.mem_filter, hu, true_and, bne_iff_ne]; rintro rfl; exact hn hm, rfl⟩

omit [FNum F] in
theorem Scope.addVars (h : Scope N funs c) (x : List (Variable F)) : Scope N funs (addVars c x) := by
  unfold MUL.addVars
  induction x generalizing c with
  | nil => exact h
  | cons v x ih => exact ih (h.addVar v)

omit [FNum F] in
theorem Scope.removeVars (h : Scope N funs c) (x : List (Variable F)) (hx : ∀ v ∈ x, ¬ N v.name) : Scope N funs (removeVars c x) := by
  unfold MUL.removeVars
  induction x generalizing c with
  | nil => exact h
  | cons v x ih => exact ih (h.remove (hx v (by simp))) fun v hv => hx v (by simp [hv])

omit [FNum F] in
theorem Scope.more (h : Scope N funs c) (vs : List (Variable F)) : Scope N funs ⟨c.vars ++ vs, c.funs⟩ := by
  refine ⟨fun n hn => ?_, h.funs⟩
  obtain ⟨u, hu, rfl⟩ := h.has n hn
  exact ⟨u, by simp [hu], rfl⟩

omit [FNum F] in
theorem callVars_has (vars acc : List (Variable F)) :
    (∀ u ∈ acc, ∃ w ∈ vars.foldl (fun acc i => if (acc.map (·.name)).contains i.name then acc else acc ++ [i]) acc, w.name = u.name) ∧
    ∀ u ∈ vars, ∃ w ∈ vars.foldl (fun acc i => if (acc.map (·.name)).contains i.name then acc else acc ++ [i]) acc, w.name = u.name := by
  induction vars generalizing acc with
  | nil => exact ⟨fun u hu => ⟨u, hu, rfl⟩, nofun⟩
  | cons v vars ih =>
    rw [List.foldl_cons]
    by_cases hc : (acc.map (·.name)).contains v.name = true
    · rw [if_pos hc]
      refine ⟨(ih acc).1, fun u hu => ?_⟩
      rcases List.mem_cons.1 hu with rfl | hu
      · obtain ⟨w, hw, he⟩ := List.mem_map.1 (List.contains_iff_mem.1 hc)
        obtain ⟨w', h1, h2⟩ := (ih acc).1 w hw
        exact ⟨w', h1, h2.trans he⟩
      · exact (ih acc).2 u hu
    · rw [if_neg hc]
      refine ⟨fun u hu => (ih _).1 u (by simp [hu]), fun u hu => ?_⟩
      rcases List.mem_cons.1 hu with rfl | hu
      · exact (ih _).1 u (by simp)
      · exact (ih _).2 u hu

omit [FNum F] in
theorem Scope.call (h : Scope N funs c) (inputs : List Str) (p : List (Value F)) : Scope N funs ⟨callVars inputs p c.vars, c.funs⟩ := by
  refine ⟨fun n hn => ?_, h.funs⟩
  obtain ⟨u, hu, rfl⟩ := h.has n hn
  obtain ⟨w, h1, h2⟩ := (callVars_has c.vars _).2 u hu
  exact ⟨w, h1, h2⟩

omit [FNum F] in
theorem Scope.integrand (h : Scope N funs c) (x : Str) (vs : List (Value F)) :
    Scope N funs ⟨eraseFirstVar c.vars x ++ [⟨x, vs⟩], c.funs⟩ := by
  refine h.replace ⟨x, vs⟩ fun u hu hne => ⟨u, ?_, rfl⟩
  have hp : ¬ (fun v : Variable F => v.name == x) u = true := by simpa using hne
  exact (List.mem_eraseP_of_neg (p := fun v : Variable F => v.name == x) hp).2 hu

end

theorem reports_length {ε α β : Type} {f : α → Out ε β} {l : List α} {m : List β} (h : l.mapM f = .ok m) : m.length = l.length := by
  have := (Post.mapM (np := False) (P := fun _ => True) (f := f) l fun a _ => by cases f a <;> simp).of_ok h
  exact this.1

theorem reports_mem {ε α β : Type} {f : α → Out ε β} {l : List α} {m : List β} (h : l.mapM f = .ok m) : ∀ b ∈ m, ∃ a ∈ l, f a = .ok b := by
  have := (Post.mapM (np := False) (P := fun b => ∃ a ∈ l, f a = .ok b) (f := f) l fun a ha => by
    cases hf : f a <;> simp
    exact ⟨a, ha, hf⟩).of_ok h
  exact this.2

/-- The evaluator reports only errors in `J` for the expression. -/
def Tells (N : Str → Prop) (funs : List (Function F)) (J : EvalError → Prop) (ev : Evaluator F) (e : AST F) : Prop :=
  ∀ c, Scope N funs c → ErrIn J (ev e c)

section
variable {J : EvalError → Prop} (hJ : ∀ s, J (.mathError s)) {N : Str → Prop} {funs : List (Function F)} {ev : Evaluator F}
include hJ

theorem errIn_integralLoop {e : AST F} (h : Tells N funs J ev e) (x : Str) {c : Context F} (hc : Scope N funs c) (ub dx : F) (n : Nat) (b : F)
    (sums : List (Value F)) : ErrIn J (integralLoop ev e x (eraseFirstVar c.vars x) c.funs ub dx n b sums) := by
  induction n generalizing b sums with
  | zero =>
    unfold integralLoop
    exact ErrIn.ite (fun _ => ErrIn.timeout) fun _ => ErrIn.ok _
  | succ n ih =>
    unfold integralLoop
    exact ErrIn.ite (fun _ => (h _ (hc.integrand x _)).bind fun _ _ => (errIn_accumulate hJ _ _).bind fun _ _ => ih _ _) fun _ => ErrIn.ok _

theorem errIn_integral (cfg : Cfg) {e : AST F} (h : Tells N funs J ev e) (fuel : Nat) (x : Str) (lo hi : Value F) {c : Context F}
    (hc : Scope N funs c) : ErrIn J (calculateIntegral cfg ev fuel e x lo hi c) := by
  unfold calculateIntegral
  cases lo <;> cases hi <;> try exact ErrIn.err (hJ _)
  exact ErrIn.ite (fun _ => ErrIn.ok _) fun _ => (errIn_integralLoop hJ h x hc _ _ _ _ _).bind fun _ _ =>
    ErrIn.mapM _ fun _ _ => errIn_lift hJ _

theorem errIn_derivative (cfg : Cfg) {e : AST F} (h : Tells N funs J ev e) (hdq : ∀ a b c, ErrIn J (ev (differenceQuotient cfg a b) c)) (x : Str)
    (at_ : Value F) {c : Context F} (hc : Scope N funs c) : ErrIn J (calculateDerivative cfg ev e x at_ c) := by
  unfold calculateDerivative
  cases at_ <;> try exact ErrIn.err (hJ _)
  dsimp only
  have h1 := fun vs => hc.dropAdd (v := ⟨x, vs⟩)
  refine (h _ (h1 _)).bind fun _ _ => (h _ ?_).bind fun _ _ => ErrIn.ite (fun _ => ErrIn.err (hJ _)) fun _ =>
    (ErrIn.mapM _ fun _ _ => (ErrIn.idx _ _).bind fun _ _ => (ErrIn.idx _ _).bind fun _ _ => hdq _ _ _).bind fun _ _ => ErrIn.ok _
  exact (h1 _).removeAdd ⟨x, _⟩

theorem errIn_derivativeNewton (cfg : Cfg) {e : AST F} (h : Tells N funs J ev e) (hdq : ∀ a b c, ErrIn J (ev (differenceQuotient cfg a b) c)) (x : Str)
    (at_ : Value F) (fx : Value F) {c : Context F} (hc : Scope N funs c) : ErrIn J (calculateDerivativeNewton cfg ev e x at_ (some fx) c) := by
  unfold calculateDerivativeNewton
  cases at_ <;> try exact ErrIn.err (hJ _)
  dsimp only
  simp only [ok_bind]
  exact (h _ (hc.dropAdd ⟨x, _⟩)).bind fun _ _ => (ErrIn.unwrap _).bind fun _ _ => (hdq _ _ _).bind fun _ _ => ErrIn.unwrap _

end

/-- Errors of a step of the search: also the internal ones. -/
def Inner (J : EvalError → Prop) (e : EvalError) : Prop :=
  J e ∨ e = .infiniteSolutions ∨ e = .naNOrInf ∨ e = .expressionCheckFailed

section
variable {J : EvalError → Prop}

omit [FNum F] in
theorem errIn_firstScalar (vs : List (Value F)) : ErrIn J (firstScalar vs : Out EvalError F) :=
  (ErrIn.unwrap _).bind fun _ _ => ErrIn.unwrap _

theorem errIn_eliminate {e : EvalError} (h : J e) (v : List (List F)) : ErrIn J (eliminate e v) := by
  refine ErrIn.foldlM _ (fun b a _ => ?_) _
  unfold elimStep
  refine ErrIn.bind (ErrIn.bind (ErrIn.idx _ _) fun _ _ => ErrIn.idx _ _) fun _ _ => ErrIn.bind (ErrIn.bind (ErrIn.idx _ _) fun _ _ => ErrIn.idx _ _) fun _ _ =>
    (ErrIn.idx _ _).bind fun _ _ => (ErrIn.idx _ _).bind fun _ _ => ErrIn.bind (ErrIn.mapM _ fun p _ => ?_) fun _ _ =>
      ErrIn.ite (fun _ => ErrIn.err h) fun _ => ErrIn.ok _
  exact ErrIn.ite (fun _ => ErrIn.ok _) fun _ => (ErrIn.idx _ _).bind fun _ _ => ErrIn.ok _

theorem errIn_gauss (v : List (List F)) (hv : ∀ r ∈ v, r.length = v.length + 1) : ErrIn (Inner J) (gaussAlgorithm v) := by
  unfold gaussAlgorithm
  have hi : Inner J .infiniteSolutions := Or.inr (Or.inl rfl)
  refine (ErrIn.idx _ _).bind fun r hr => ErrIn.ite (fun hne => ?_) fun _ => (errIn_eliminate hi _).bind fun _ _ => (errIn_eliminate hi _).bind fun _ _ =>
    (ErrIn.mapM _ fun _ _ => (ErrIn.idx _ _).bind fun _ _ => (ErrIn.idx _ _).bind fun _ _ => (ErrIn.idx _ _).bind fun _ _ => ErrIn.ok _).bind
      fun _ _ => ErrIn.ok _
  exact absurd (hv r (List.mem_of_getElem? (idx_eq_ok.1 hr))).symm hne

variable (hJ : ∀ s, J (.mathError s)) {N : Str → Prop} {funs : List (Function F)} {ev : Evaluator F}

omit [FNum F] in
theorem errIn_evalScalars {es : List (AST F)} (h : ∀ e ∈ es, Tells N funs J ev e) {c : Context F} (hc : Scope N funs c) : ErrIn J (evalScalars ev es c) :=
  ErrIn.mapM _ fun e he => (h e he c hc).bind fun _ _ => errIn_firstScalar _

include hJ in
theorem errIn_jacobi (cfg : Cfg) {es : List (AST F)} (h : ∀ e ∈ es, Tells N funs J ev e) (hdq : ∀ a b c, ErrIn J (ev (differenceQuotient cfg a b) c))
    (x : List (Variable F)) (hx : es.length = x.length) {c : Context F} (hc : Scope N funs c) (fx : List F) :
    ErrIn (Inner J) (jacobiAndGauss cfg ev es x c fx) := by
  unfold jacobiAndGauss
  have hin : ∀ e, J e → Inner J e := fun _ => Or.inl
  refine ErrIn.bind (ErrIn.mapM _ fun i _ => ErrIn.mapM _ fun j _ => (ErrIn.idx _ _).bind fun e he => (ErrIn.idx _ _).bind fun _ _ =>
    (ErrIn.unwrap _).bind fun _ _ => (ErrIn.idx _ _).bind fun _ _ =>
      ((errIn_derivativeNewton hJ cfg (h e (List.mem_of_getElem? (idx_eq_ok.1 he))) hdq _ _ _ (hc.more _)).mono hin).bind fun _ _ => ErrIn.unwrap _)
    fun jac hjac => ?_
  refine ErrIn.bind (ErrIn.mapM _ fun i _ => (ErrIn.idx _ _).bind fun _ _ => (ErrIn.idx _ _).bind fun _ _ => ErrIn.ok _) fun rows hrows => ?_
  refine (errIn_gauss rows fun r hr => ?_).bind fun _ _ =>
    ErrIn.mapM _ fun _ _ => (ErrIn.idx _ _).bind fun _ _ => (ErrIn.unwrap _).bind fun _ _ => (ErrIn.idx _ _).bind fun _ _ =>
      (errIn_firstScalar _).bind fun _ _ => ErrIn.ok _
  have hlen : ∀ r ∈ jac, r.length = x.length := by
    intro r hr
    obtain ⟨i, _, hi⟩ := reports_mem hjac r hr
    have := reports_length hi
    simpa using this
  have h1 : jac.length = es.length := by simpa using reports_length hjac
  have h2 : rows.length = jac.length := by simpa using reports_length hrows
  obtain ⟨i, _, hi⟩ := reports_mem hrows r hr
  obtain ⟨a, ha, hi⟩ := bind_eq_ok.1 hi
  obtain ⟨b, hb, hi⟩ := bind_eq_ok.1 hi
  cases hi
  rw [List.length_append, hlen a (List.mem_of_getElem? (idx_eq_ok.1 ha)), h2, h1, hx]
  rfl

theorem jacobi_unknowns (cfg : Cfg) {es : List (AST F)} {x y : List (Variable F)} {c : Context F} {fx : List F}
    (h : jacobiAndGauss cfg ev es x c fx = .ok y) : y.length = x.length ∧ ∀ v ∈ y, ∃ u ∈ x, u.name = v.name := by
  unfold jacobiAndGauss at h
  obtain ⟨_, _, h⟩ := bind_eq_ok.1 h
  obtain ⟨_, _, h⟩ := bind_eq_ok.1 h
  obtain ⟨_, _, h⟩ := bind_eq_ok.1 h
  refine ⟨by simpa using reports_length h, fun v hv => ?_⟩
  obtain ⟨i, _, hi⟩ := reports_mem h v hv
  obtain ⟨u, hu, hi⟩ := bind_eq_ok.1 hi
  obtain ⟨_, _, hi⟩ := bind_eq_ok.1 hi
  obtain ⟨_, _, hi⟩ := bind_eq_ok.1 hi
  obtain ⟨_, _, hi⟩ := bind_eq_ok.1 hi
  cases hi
  exact ⟨u, List.mem_of_getElem? (idx_eq_ok.1 hu), rfl⟩

/-- The variables of a search: as many as equations searched, with names that are not in the context. -/
structure Unknowns (N : Str → Prop) (n : Nat) (x : List (Variable F)) : Prop where
  len : x.length = n
  new : ∀ v ∈ x, ¬ N v.name

include hJ in
theorem errIn_newton (cfg : Cfg) {ss cs : List (AST F)} (hs : ∀ e ∈ ss, Tells N funs J ev e) (hcs : ∀ e ∈ cs, Tells N funs J ev e)
    (hdq : ∀ a b c, ErrIn J (ev (differenceQuotient cfg a b) c)) {x : List (Variable F)} (hx : Unknowns N ss.length x)
    {c : Context F} (hc : Scope N funs c) :
    ErrIn (Inner J) (newton cfg ev ss cs x c).1 ∧ Scope N funs (newton cfg ev ss cs x c).2 ∧
      ∀ y, (newton cfg ev ss cs x c).1 = .ok (.nextX y) → Unknowns N ss.length y := by
  have hin : ∀ e, J e → Inner J e := fun _ => Or.inl
  have h1 : Scope N funs (addVars c x) := hc.addVars x
  have h2 : Scope N funs (removeVars (addVars c x) x) := h1.removeVars x hx.new
  have h3 := h2.addVars x
  have h4 := h3.removeVars x hx.new
  have e1 := (errIn_evalScalars hs h1).mono hin
  have e3 := (errIn_evalScalars hcs h3).mono hin
  unfold newton
  dsimp only
  revert e1
  cases evalScalars ev ss (addVars c x) with
  | err e => exact fun e1 => ⟨e1.mono' rfl, h1, nofun⟩
  | panic => exact fun _ => ⟨ErrIn.panic, h1, nofun⟩
  | timeout => exact fun _ => ⟨ErrIn.timeout, h1, nofun⟩
  | ok fx =>
    intro _
    dsimp only
    split
    · revert e3
      cases evalScalars ev cs (addVars (removeVars (addVars c x) x) x) with
      | err e => exact fun e3 => ⟨e3.mono' rfl, h3, nofun⟩
      | panic => exact fun _ => ⟨ErrIn.panic, h3, nofun⟩
      | timeout => exact fun _ => ⟨ErrIn.timeout, h3, nofun⟩
      | ok r =>
        intro _
        dsimp only
        split
        · exact ⟨ErrIn.ok _, h4, nofun⟩
        · split
          · exact ⟨ErrIn.ok _, h4, nofun⟩
          · exact ⟨ErrIn.err (Or.inr (Or.inr (Or.inr rfl))), h4, nofun⟩
    · have e2 := errIn_jacobi hJ cfg hs hdq x hx.len.symm h2 fx
      revert e2
      cases hj : jacobiAndGauss cfg ev ss x (removeVars (addVars c x) x) fx with
      | err e => exact fun e2 => ⟨e2.mono' rfl, h2, nofun⟩
      | panic => exact fun _ => ⟨ErrIn.panic, h2, nofun⟩
      | timeout => exact fun _ => ⟨ErrIn.timeout, h2, nofun⟩
      | ok r =>
        intro _
        have hu : Unknowns N ss.length r := by
          obtain ⟨n1, n2⟩ := jacobi_unknowns cfg hj
          refine ⟨n1.trans hx.len, fun v hv => ?_⟩
          obtain ⟨u, hu, he⟩ := n2 v hv
          exact he ▸ hx.new u hu
        dsimp only
        have e5 : ErrIn (Inner J) (r.mapM (fun i => (Out.unwrap i.values[0]? : Out EvalError (Value F)))) := ErrIn.mapM _ fun _ _ => ErrIn.unwrap _
        revert e5
        cases r.mapM (fun i => (Out.unwrap i.values[0]? : Out EvalError (Value F))) with
        | err e => exact fun e5 => ⟨e5.mono' rfl, h2, nofun⟩
        | panic => exact fun _ => ⟨ErrIn.panic, h2, nofun⟩
        | timeout => exact fun _ => ⟨ErrIn.timeout, h2, nofun⟩
        | ok vs =>
          intro _
          dsimp only
          split
          · exact ⟨ErrIn.err (Or.inr (Or.inr (Or.inl rfl))), h2, nofun⟩
          · refine ⟨ErrIn.ok _, h2, ?_⟩
            rintro _ ⟨⟩
            exact hu

include hJ in
theorem errIn_solveLoop1 (cfg : Cfg) {ss cs : List (AST F)} (hs : ∀ e ∈ ss, Tells N funs J ev e) (hcs : ∀ e ∈ cs, Tells N funs J ev e)
    (hdq : ∀ a b c, ErrIn J (ev (differenceQuotient cfg a b) c)) (n : Nat) {x : List (Variable F)} (hx : Unknowns N ss.length x)
    {c : Context F} (hc : Scope N funs c) :
    ErrIn J (solveLoop1 cfg ev ss cs n x c) ∧ ∀ r, solveLoop1 cfg ev ss cs n x c = .ok r → Scope N funs r.ctx := by
  induction n generalizing x c with
  | zero =>
    refine ⟨ErrIn.ok _, ?_⟩
    rintro _ ⟨⟩
    exact hc
  | succ n ih =>
    have hnew := errIn_newton hJ cfg hs hcs hdq hx hc
    unfold solveLoop1
    revert hnew
    cases newton cfg ev ss cs x c with
    | mk a b =>
      rintro ⟨h1, h2, h3⟩
      simp only at h1 h2 h3
      cases a with
      | ok r =>
        cases r with
        | nextX y => exact ih (h3 y rfl) h2
        | finishedX y =>
          dsimp only
          have hr : ErrIn J (resultValue y : Out EvalError (Value F)) := by
            unfold resultValue
            refine (ErrIn.mapM _ fun _ _ => errIn_firstScalar _).bind fun r _ => ?_
            split <;> exact ErrIn.ok _
          refine ⟨hr.bind fun _ _ => ErrIn.ok _, fun r hr => ?_⟩
          obtain ⟨_, _, hr⟩ := bind_eq_ok.1 hr
          cases hr
          exact h2
      | panic => exact ⟨ErrIn.panic, nofun⟩
      | timeout => exact ⟨ErrIn.timeout, nofun⟩
      | err e =>
        have he : Inner J e := h1 e rfl
        rcases he with he | rfl | rfl | rfl
        · cases e <;> first
            | exact ⟨ErrIn.err he, nofun⟩
            | exact ⟨ErrIn.ok _, by rintro _ ⟨⟩; exact h2⟩
        all_goals exact ⟨ErrIn.ok _, by rintro _ ⟨⟩; exact h2⟩

include hJ in
theorem errIn_solveLoop0 (cfg : Cfg) {ss cs : List (AST F)} (hs : ∀ e ∈ ss, Tells N funs J ev e) (hcs : ∀ e ∈ cs, Tells N funs J ev e)
    (hdq : ∀ a b c, ErrIn J (ev (differenceQuotient cfg a b) c)) (names : List Str) (hl : names.length = ss.length) (hn : ∀ v ∈ names, ¬ N v)
    (js : List Int) {c : Context F} (hc : Scope N funs c) (results : List (Value F)) :
    ErrIn J (solveLoop0 cfg ev ss cs names js c results) := by
  induction js generalizing c results with
  | nil => exact ErrIn.ok _
  | cons j js ih =>
    unfold solveLoop0
    dsimp only
    have hx : Unknowns N ss.length (names.map fun k => (⟨k, [.scalar (ofInt j)]⟩ : Variable F)) := by
      refine ⟨by simpa using hl, fun v hv => ?_⟩
      obtain ⟨k, hk, rfl⟩ := List.mem_map.1 hv
      exact hn k hk
    have h1 := errIn_solveLoop1 hJ cfg hs hcs hdq 1000 hx hc
    exact h1.1.bind fun r hr => ErrIn.ite (fun _ => ErrIn.ok _) fun _ => ih (h1.2 r hr) _

theorem errIn_sortByKey (key : F → F) (l : List (Value F)) : ErrIn J (sortByKey key l : Out EvalError (List (Value F))) := by
  unfold sortByKey
  refine (ErrIn.mapM _ fun v _ => ErrIn.bind ?_ fun _ _ => ErrIn.ok _).bind fun _ _ => ErrIn.ite (fun _ => ErrIn.panic) fun _ => ErrIn.ok _
  cases v with
  | scalar s => exact ErrIn.ok _
  | vector v => exact ErrIn.idx _ _
  | matrix m => exact ErrIn.panic

theorem errIn_cleanResults (cfg : Cfg) (res : List (Value F)) : ErrIn J (cleanResults cfg res : Out EvalError (List (Value F))) := by
  unfold cleanResults
  cases res with
  | nil => exact ErrIn.ok _
  | cons r res =>
    dsimp only
    split
    · exact ErrIn.ok _
    · exact ErrIn.ite (fun _ => (errIn_sortByKey _ _).bind fun _ _ => errIn_sortByKey _ _) fun _ => ErrIn.ok _

theorem errIn_splitExprs {α : Type} (js : List Nat) (r : Nat) (s c : List α) : ErrIn J (splitExprs js r s c : Out EvalError (List α × List α)) := by
  induction js generalizing r s c with
  | nil => exact ErrIn.ok _
  | cons j js ih =>
    unfold splitExprs
    exact ErrIn.ite (fun _ => ErrIn.panic) fun _ => (ErrIn.idx _ _).bind fun _ _ => ih _ _ _

include hJ in
theorem errIn_findRoots (cfg : Cfg) (rf : RootFinder F) (h : ∀ e ∈ rf.expressions, Tells N funs J ev e)
    (hdq : ∀ a b c, ErrIn J (ev (differenceQuotient cfg a b) c)) (hn : ∀ v ∈ rf.searchVarsNames, ¬ N v) (hc : Scope N funs rf.context)
    (l : List (List Nat)) (hl : ∀ i ∈ l, i.length = rf.searchVarsNames.length) : ErrIn J (findRootsLoop cfg ev rf l) := by
  induction l with
  | nil => exact ErrIn.ok _
  | cons i l ih =>
    unfold findRootsLoop
    refine (errIn_splitExprs _ _ _ _).bind fun p hp => ?_
    obtain ⟨ss, cs⟩ := p
    obtain ⟨m1, m2⟩ := splitExprs_mem hp
    have hlen := (splitExprs_perm hp).2
    dsimp only
    refine (errIn_solveLoop0 hJ cfg (fun e he => h e (by simpa using m1 he)) (fun e he => h e (m2 he)) hdq _ ?_ hn _ hc _).bind fun _ _ =>
      (errIn_cleanResults cfg _).bind fun _ _ => ErrIn.ite (fun _ => ErrIn.ok _) fun _ => ih fun i hi => hl i (by simp [hi])
    rw [hlen, hl i (by simp)]
    simp

include hJ in
/-- Solving equations: the errors of the sides, and those of a request that makes no sense. -/
theorem errIn_solve (cfg : Cfg) (eqs : List (AST F × AST F)) (names : List Str)
    (h : ∀ e ∈ eqs, Tells N funs J ev (.simple .sub e.1 e.2)) (hdq : ∀ a b c, ErrIn J (ev (differenceQuotient cfg a b) c))
    (h1 : eqs = [] → J .nothingToDoEq) (h2 : names ≠ [] → J .searchVarsInVars) (h3 : eqs.length < names.length → J .underdeterminedSystem)
    (h4 : eqs ≠ [] → J .vectorInEq ∧ J .matrixInEq) {c : Context F} (hc : Scope N funs c) : ErrIn J (solveEquations cfg ev eqs c names) := by
  have hes : ∀ e ∈ eqs.map (fun i => AST.simple .sub i.1 i.2), Tells N funs J ev e := by
    intro e he
    obtain ⟨p, hp, rfl⟩ := List.mem_map.1 he
    exact h p hp
  unfold solveEquations
  dsimp only
  refine ErrIn.bind ?_ fun rf hrf => ?_
  · unfold RootFinder.new
    refine ErrIn.ite (fun h0 => ErrIn.err (h1 (by simpa using h0))) fun h0 => ErrIn.ite (fun h0 => ?_) fun _ => ErrIn.ite (fun h0 => ?_) fun h0 =>
      ErrIn.ite (fun h0 => ErrIn.err (h3 (by simpa using h0))) fun _ => (ErrIn.idx _ _).bind fun e0 he0 => ?_
    · exfalso
      obtain ⟨e, he, h⟩ := List.any_eq_true.1 h0
      obtain ⟨p, _, rfl⟩ := List.mem_map.1 he
      cases h
    · refine ErrIn.err (h2 ?_)
      rintro rfl
      cases h0
    · have hs : ∀ (l : List Str) {c : Context F}, Scope N funs c →
          Scope N funs (l.foldl (fun c i => c.addVar ⟨i, [.scalar (ofDec 821785 (-5))]⟩) c) := by
        intro l
        induction l with
        | nil => exact fun h => h
        | cons a l ih => exact fun h => ih (h.addVar _)
      refine (hes e0 (List.mem_of_getElem? (idx_eq_ok.1 he0)) _ (hs _ hc)).bind fun _ _ => (ErrIn.unwrap _).bind fun v _ => ?_
      have hne : eqs ≠ [] := by
        rintro rfl
        cases he0
      cases v with
      | scalar s => exact ErrIn.ok _
      | vector v => exact ErrIn.err (h4 hne).1
      | matrix m => exact ErrIn.err (h4 hne).2
  · obtain ⟨r1, r2, r3, _⟩ := C49_root_finder ev _ c names rf hrf
    have hdis : ∀ v ∈ names, ∀ u ∈ c.vars, u.name ≠ v := by
      unfold RootFinder.new at hrf
      split at hrf
      · cases hrf
      split at hrf
      · cases hrf
      split at hrf
      · cases hrf
      rename_i hnot
      intro v hv u hu he
      refine hnot (List.any_eq_true.2 ⟨v, hv, ?_⟩)
      simp only [List.contains_iff_mem, List.mem_map]
      exact ⟨u, hu, he⟩
    have hfresh : ∀ v ∈ rf.searchVarsNames, ¬ N v := by
      rw [r2]
      intro v hv hN
      obtain ⟨u, hu, he⟩ := hc.has v hN
      exact hdis v hv u hu he
    refine errIn_findRoots hJ cfg rf (by rw [r1]; exact hes) hdq hfresh ?_ _ fun i hi => ?_
    · have hinv := new_inv hrf
      refine ⟨fun v hv => ?_, hinv.funs.trans hc.funs⟩
      obtain ⟨u, hu, he⟩ := hc.has v hv
      rw [← hinv.vars] at hu
      exact ⟨u, (List.mem_filter.1 hu).1, he⟩
    · rw [r2]; exact ((r3 i).1 hi).2.2

end

/-! ## The evaluator -/

omit [FNum F] in
theorem PartOf.trans {s t u : AST F} (h : PartOf s t) (h' : PartOf t u) : PartOf s u := by
  induction h' with
  | whole => exact h
  | child c t hc _ ih => exact .child c _ hc ih

omit [FNum F] in
theorem PartOf.step {c t : AST F} (h : c ∈ children t) : PartOf c t := .child c t h .whole

/-- Not just an operation. -/
def Special : AST F → Prop
  | .simple .. => False
  | _ => True

/-- The operations aside, every part of the expression is one of the expression `t0` or of a function of `ctx0`. -/
def Made (t0 : AST F) (ctx0 : Context F) (t : AST F) : Prop := ∀ s, PartOf s t → Special s → Somewhere t0 ctx0 s

section
variable {t0 : AST F} {ctx0 : Context F}

omit [FNum F] in
theorem Made.child {c t : AST F} (h : Made t0 ctx0 t) (hc : c ∈ children t) : Made t0 ctx0 c := fun s hs h' => h s (.child c t hc hs) h'

omit [FNum F] in
theorem made_sub {l r : AST F} (hl : Made t0 ctx0 l) (hr : Made t0 ctx0 r) : Made t0 ctx0 (.simple .sub l r) := by
  intro s hs h
  cases hs with
  | whole => exact h.elim
  | child c _ hc hs =>
    rcases List.mem_cons.1 hc with rfl | hc
    · exact hl s hs h
    · rcases List.mem_cons.1 hc with rfl | hc
      · exact hr s hs h
      · cases hc

/-- The expression is evaluated at top level, or belongs to the body of the function last called. -/
def Within' (ctx0 : Context F) (t : AST F) (last : Str) : Prop := last = [] ∨ ∃ f ∈ ctx0.funs, f.name = last ∧ PartOf t f.ast

omit [FNum F] in
theorem Within'.child {c t : AST F} {last : Str} (h : Within' ctx0 t last) (hc : c ∈ children t) : Within' ctx0 c last := by
  rcases h with h | ⟨f, hf, hn, hp⟩
  · exact Or.inl h
  · exact Or.inr ⟨f, hf, hn, PartOf.trans (PartOf.step hc) hp⟩

/-- The names of the variables of the context. -/
def HasVar (ctx0 : Context F) (v : Str) : Prop := ∃ u ∈ ctx0.vars, u.name = v

omit [FNum F] in
theorem errIn_allScalars {J : EvalError → Prop} {e : EvalError} (h : J e) (vs : List (Value F)) : ErrIn J (allScalars e vs) := by
  refine ErrIn.mapM _ fun v _ => ?_
  cases v.getScalar
  · exact ErrIn.err h
  · exact ErrIn.ok _

theorem evalRec_reports (cfg : Cfg) (n : Nat) : ∀ (t : AST F) (c : Context F) (last : Str), Scope (HasVar ctx0) ctx0.funs c → Made t0 ctx0 t →
    Within' ctx0 t last → ErrIn (Justified t0 ctx0) (evalRec cfg n t c last) := by
  have hJ : ∀ s, Justified t0 ctx0 (.mathError s) := fun _ => trivial
  induction n with
  | zero => exact fun _ _ _ _ _ _ => ErrIn.timeout
  | succ n ih =>
    intro t c last hc ht hl
    have hch : ∀ a ∈ children t, ErrIn (Justified t0 ctx0) (evalRec cfg n a c last) := fun a ha => ih a c last hc (ht.child ha) (hl.child ha)
    have htell : ∀ a, Made t0 ctx0 a → Tells (HasVar ctx0) ctx0.funs (Justified t0 ctx0) (fun a c => evalRec cfg n a c []) a :=
      fun a ha c hc => ih a c [] hc ha (Or.inl rfl)
    have hdq : ∀ (a b : Value F) c, ErrIn (Justified t0 ctx0) (evalRec cfg n (differenceQuotient cfg a b) c []) := fun a b c => errIn_dq hJ cfg a b n c []
    rw [evalRec.eq_def]
    dsimp only
    cases t with
    | scalar s => exact ErrIn.ok _
    | vector v =>
      exact (ErrIn.mapM _ fun a ha => (hch a ha).bind fun _ _ => errIn_allScalars ⟨v, ht _ .whole trivial⟩ _).bind fun _ _ => ErrIn.ok _
    | matrix m =>
      exact (ErrIn.mapM _ fun r hr => ErrIn.mapM _ fun a ha => (hch a (List.mem_flatten.2 ⟨r, hr, ha⟩)).bind fun _ _ =>
        errIn_allScalars ⟨m, ht _ .whole trivial⟩ _).bind fun _ _ => ErrIn.ok _
    | list l => exact (ErrIn.mapM _ fun a ha => hch a ha).bind fun _ _ => ErrIn.ok _
    | «variable» v =>
      dsimp only
      cases hf : c.findVar v with
      | some vs => exact ErrIn.ok _
      | none =>
        refine ErrIn.err ⟨fun u hu he => ?_, ht _ .whole trivial⟩
        obtain ⟨w, hw, hwn⟩ := hc.has v ⟨u, hu, he⟩
        simp only [Context.findVar, Option.map_eq_none_iff, List.find?_eq_none] at hf
        exact hf w hw (by simpa using hwn)
    | function g args =>
      dsimp only
      refine ErrIn.ite (fun he => ErrIn.err ?_) fun _ => ?_
      · rcases hl with h0 | ⟨f, hf, hfn, hp⟩
        · subst h0
          subst he
          exact Or.inr ⟨args, ht _ .whole trivial⟩
        · subst he
          subst hfn
          exact Or.inl ⟨f, hf, args, hp⟩
      · cases hf : c.findFun g with
        | none =>
          refine ErrIn.err ⟨fun f hf' he => ?_, args, ht _ .whole trivial⟩
          simp only [Context.findFun, List.find?_eq_none, hc.funs] at hf
          exact hf f hf' (by simpa using he)
        | some f =>
          have hmem : f ∈ ctx0.funs := by
            have := List.mem_of_find?_eq_some hf
            rwa [hc.funs] at this
          have hname : f.name = g := by
            have := List.find?_some hf
            simpa using this
          dsimp only
          refine ErrIn.ite (fun hne => ErrIn.err ⟨fun h => hne h.symm, f, hmem, rfl, args, rfl, by rw [hname]; exact ht _ .whole trivial⟩) fun _ => ?_
          refine (ErrIn.mapM _ fun a ha => hch a ha).bind fun _ _ => (ErrIn.mapM _ fun p _ => ?_).bind fun _ _ => ErrIn.ok _
          exact ih f.ast _ g (hc.call _ _) (fun s hs _ => Or.inr ⟨f, hmem, hs⟩) (Or.inr ⟨f, hmem, hname, .whole⟩)
    | simple op l r =>
      exact (hch l (by simp [children])).bind fun _ _ => (hch r (by simp [children])).bind fun _ _ => errIn_applyAll hJ _ _ _
    | integral e x lo hi =>
      exact (hch lo (by simp [children])).bind fun _ _ => (hch hi (by simp [children])).bind fun _ _ =>
        (ErrIn.mapM _ fun _ _ => (ErrIn.mapM _ fun _ _ => errIn_integral hJ cfg (htell e (ht.child (by simp [children]))) _ _ _ _ hc).bind
          fun _ _ => ErrIn.ok _).bind fun _ _ => ErrIn.ok _
    | derivative e x a =>
      exact (hch a (by simp [children])).bind fun _ _ =>
        (ErrIn.mapM _ fun _ _ => errIn_derivative hJ cfg (htell e (ht.child (by simp [children]))) hdq _ _ hc).bind fun _ _ => ErrIn.ok _
    | equation eqs names =>
      have hw : Somewhere t0 ctx0 (.equation eqs names) := ht _ .whole trivial
      refine errIn_solve hJ cfg eqs names (fun e he => htell _ (made_sub (ht.child ?_) (ht.child ?_))) hdq ?_ ?_ ?_ ?_ hc
      · exact List.mem_flatMap.2 ⟨e, he, by simp⟩
      · exact List.mem_flatMap.2 ⟨e, he, by simp⟩
      · rintro rfl
        exact ⟨names, hw⟩
      · exact fun h => ⟨eqs, names, h, hw⟩
      · exact fun h => ⟨eqs, names, h, hw⟩
      · exact fun h => ⟨⟨eqs, names, h, hw⟩, ⟨eqs, names, h, hw⟩⟩

end

end MUL
