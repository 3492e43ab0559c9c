import Verif.Proofs.Replace
import Verif.Props.Reported
/-!
# Replacing parts of a tree by parts with the same results

As `Proofs/Replace.lean`, but the parts need agree only if they have results: how they fail does not matter.
-/

set_option linter.unusedSectionVars false

namespace MUL
open Out Spec

section
variable {F : Type} [FNum F]

variable {X : Str → Prop} {g : Str → Option (List (Value F))}

/-- An outcome that is no result and that the search for solutions does not catch. -/
def Fails {α : Type} : Out EvalError α → Prop
  | .ok _ => False
  | .err e => e ≠ .infiniteSolutions ∧ e ≠ .naNOrInf ∧ e ≠ .expressionCheckFailed
  | .panic => True
  | .timeout => True

theorem Fails.bind {α β : Type} {x : Out EvalError α} (h : Fails x) (f : α → Out EvalError β) : Fails (x >>= f) := by
  cases x with
  | ok a => exact absurd h id
  | err e => exact h
  | panic => trivial
  | timeout => trivial

/-- The first outcome is a failure, or both are equal. -/
def Lf {α : Type} (x y : Out EvalError α) : Prop := Fails x ∨ x = y

theorem Lf.refl {α : Type} (x : Out EvalError α) : Lf x x := Or.inr rfl

theorem Lf.of_le {α : Type} {x y : Out EvalError α} (h : Le x y) : Lf x y := by
  rcases h with rfl | rfl
  · exact Or.inl trivial
  · exact Or.inr rfl

theorem Lf.bind {α β : Type} {x y : Out EvalError α} {f g : α → Out EvalError β} (h : Lf x y) (h' : ∀ a, Lf (f a) (g a)) : Lf (x >>= f) (y >>= g) := by
  rcases h with h | rfl
  · exact Or.inl (h.bind f)
  · cases x with
    | ok a => exact h' a
    | _ => exact Lf.refl _

theorem Lf.ite {α : Type} {p : Prop} [Decidable p] {x x' y y' : Out EvalError α} (h : Lf x x') (h' : Lf y y') :
    Lf (if p then x else y) (if p then x' else y') := by
  split
  · exact h
  · exact h'

theorem Lf.mapM {α β : Type} {f g : α → Out EvalError β} (l : List α) (h : ∀ a ∈ l, Lf (f a) (g a)) : Lf (l.mapM f) (l.mapM g) := by
  induction l with
  | nil => exact Lf.refl _
  | cons a l ih =>
    simp only [List.mapM_cons]
    exact Lf.bind (h a (by simp)) fun b => Lf.bind (ih fun a ha => h a (by simp [ha])) fun _ => Lf.refl _

theorem lf_bind_ok {α β : Type} {x y : Out EvalError α} {f f' : α → Out EvalError β} (h : Lf x y) (h' : ∀ r, x = .ok r → Lf (f r) (f' r)) :
    Lf (x >>= f) (y >>= f') := by
  rcases h with h | h
  · exact Or.inl (h.bind f)
  · rw [← h]
    cases x with
    | ok r => exact h' r rfl
    | _ => exact Lf.refl _

theorem lf_err {α β : Type} (e : EvalError) (f f' : α → Out EvalError β) : Lf ((Out.err e : Out EvalError α) >>= f) ((Out.err e : Out EvalError α) >>= f') := by
  show Lf (Out.err e) (Out.err e)
  exact Lf.refl _

/-- On related trees, in contexts that fix the names, `ev'` finishes like `ev` does if `ev` finishes. -/
def Follows (T : AST F → AST F → Prop) (X : Str → Prop) (g : Str → Option (List (Value F))) (ev ev' : Evaluator F) : Prop :=
  ∀ a a' c, T a a' → Fixes X g c → Lf (ev a c) (ev' a' c)

theorem lf_mapM₂ {α β γ : Type} {P : α → β → Prop} {l : List α} {l' : List β} (hl : List.Forall₂ P l l') {f : α → Out EvalError γ} {f' : β → Out EvalError γ}
    (h : ∀ a b, P a b → Lf (f a) (f' b)) : Lf (l.mapM f) (l'.mapM f') := by
  induction hl with
  | nil => exact Lf.refl _
  | cons hab _ ih =>
    simp only [List.mapM_cons]
    exact Lf.bind (h _ _ hab) fun _ => Lf.bind ih fun _ => Lf.refl _

variable {T : AST F → AST F → Prop} (hT : ∀ a, T a a) {ev ev' : Evaluator F}

theorem lf_integralLoop (h : Follows T X g ev ev') {e e' : AST F} (he : T e e') {x : Str} (hx : ¬ X x) {c : Context F} (hc : Fixes X g c)
    (ub dx : F) {n m : Nat} (hnm : n ≤ m) (b : F) (sums : List (Value F)) :
    Lf (integralLoop ev e x c.vars c.funs ub dx n b sums) (integralLoop ev' e' x c.vars c.funs ub dx m b sums) := by
  induction n generalizing m b sums with
  | zero =>
    unfold integralLoop
    split
    · exact Or.inl trivial
    · right
      cases m <;> simp_all
  | succ n ih =>
    obtain ⟨m, rfl⟩ : ∃ k, m = k + 1 := ⟨m - 1, by omega⟩
    unfold integralLoop
    refine Lf.ite ?_ (Lf.refl _)
    refine Lf.bind (h _ _ _ he (hc.append fun v hv => ?_)) fun evals => Lf.bind (Lf.refl _) fun s => ih (by omega) _ _
    simp only [List.mem_singleton] at hv
    rw [hv]
    exact hx

theorem lf_integral (cfg : Cfg) (h : Follows T X g ev ev') {e e' : AST F} (he : T e e') {x : Str} (hx : ¬ X x) {c : Context F} (hc : Fixes X g c)
    {n m : Nat} (hnm : n ≤ m) (l u : Value F) :
    Lf (calculateIntegral cfg ev n e x l u c) (calculateIntegral cfg ev' m e' x l u c) := by
  unfold calculateIntegral
  cases l <;> cases u <;> try exact Lf.refl _
  refine Lf.ite (Lf.refl _) ?_
  exact Lf.bind (lf_integralLoop h he hx (hc.erase hx) _ _ hnm _ _) fun _ => Lf.refl _

include hT in
theorem lf_derivative (cfg : Cfg) (h : Follows T X g ev ev') {e e' : AST F} (he : T e e') {x : Str} (hx : ¬ X x) {c : Context F} (hc : Fixes X g c)
    (a : Value F) : Lf (calculateDerivative cfg ev e x a c) (calculateDerivative cfg ev' e' x a c) := by
  unfold calculateDerivative
  cases a <;> try exact Lf.refl _
  simp only [dropVar_eq]
  have h1 := fun v => (hc.removeVar hx).addVar (v := ⟨x, v⟩) hx
  have h2 := fun v w => ((h1 v).removeVar hx).addVar (v := ⟨x, w⟩) hx
  refine Lf.bind (h _ _ _ he (h1 _)) fun fxs => Lf.bind (h _ _ _ he (h2 _ _)) fun fxhs => Lf.ite (Lf.refl _) ?_
  refine Lf.bind (Lf.mapM _ fun i _ => ?_) fun _ => Lf.refl _
  exact Lf.bind (Lf.refl _) fun _ => Lf.bind (Lf.refl _) fun _ => h _ _ _ (hT _) (h2 _ _)

include hT in
theorem lf_derivativeNewton (cfg : Cfg) (h : Follows T X g ev ev') {e e' : AST F} (he : T e e') {x : Str} (hx : ¬ X x) {c : Context F}
    (hc : Fixes X g c) (a fx : Value F) :
    Lf (calculateDerivativeNewton cfg ev e x a (some fx) c) (calculateDerivativeNewton cfg ev' e' x a (some fx) c) := by
  unfold calculateDerivativeNewton
  cases a <;> try exact Lf.refl _
  simp only [dropVar_eq, ok_bind]
  have h1 := fun v => (hc.removeVar hx).addVar (v := ⟨x, v⟩) hx
  exact Lf.bind (h _ _ _ he (h1 _)) fun _ => Lf.bind (Lf.refl _) fun _ => Lf.bind (h _ _ _ (hT _) (h1 _)) fun _ => Lf.refl _

theorem lf_idx {α β γ : Type} {P : α → β → Prop} {l : List α} {l' : List β} (hl : List.Forall₂ P l l') (i : Nat) {f : α → Out EvalError γ} {f' : β → Out EvalError γ}
    (h : ∀ a b, P a b → Lf (f a) (f' b)) : Lf (idx l i >>= f) (idx l' i >>= f') := by
  unfold idx
  by_cases hi : i < l.length
  · have hi' : i < l'.length := by rw [← hl.length_eq]; exact hi
    rw [List.getElem?_eq_getElem hi, List.getElem?_eq_getElem hi']
    exact h _ _ (List.Forall₂.get hl hi hi')
  · have hi' : ¬ i < l'.length := by rw [← hl.length_eq]; exact hi
    rw [List.getElem?_eq_none (by omega), List.getElem?_eq_none (by omega)]
    exact Lf.refl _

include hT in
theorem lf_jacobi (cfg : Cfg) (h : Follows T X g ev ev') {es es' : List (AST F)} (he : List.Forall₂ T es es') {x : List (Variable F)}
    (hx : ∀ v ∈ x, ¬ X v.name) {c : Context F} (hc : Fixes X g c) (fx : List F) :
    Lf (jacobiAndGauss cfg ev es x c fx) (jacobiAndGauss cfg ev' es' x c fx) := by
  unfold jacobiAndGauss
  rw [← he.length_eq]
  refine Lf.bind (Lf.mapM _ fun i _ => Lf.mapM _ fun j _ => ?_) fun _ => Lf.refl _
  refine lf_idx he i fun e e' hee => ?_
  cases hj : x[j]? with
  | none => 
    have : (idx x j : Out EvalError _) = .panic := by unfold idx; rw [hj]; rfl
    rw [this]
    exact Lf.refl _
  | some xj =>
    have : (idx x j : Out EvalError _) = .ok xj := by unfold idx; rw [hj]; rfl
    rw [this, ok_bind, ok_bind]
    have hxj : ¬ X xj.name := hx _ (List.mem_of_getElem? hj)
    refine Lf.bind (Lf.refl _) fun _ => Lf.bind (Lf.refl _) fun _ => Lf.bind ?_ fun _ => Lf.refl _
    refine lf_derivativeNewton hT cfg h hee hxj (hc.append fun v hv => ?_) _ _
    obtain ⟨k, _, hk⟩ := List.mem_filterMap.1 hv
    exact hx _ (List.mem_of_getElem? hk)

theorem lf_evalScalars (h : Follows T X g ev ev') {es es' : List (AST F)} (he : List.Forall₂ T es es') {c : Context F} (hc : Fixes X g c) :
    Lf (evalScalars ev es c) (evalScalars ev' es' c) :=
  lf_mapM₂ he fun _ _ hab => Lf.bind (h _ _ _ hab hc) fun _ => Lf.refl _

include hT in
/-- Either the first call fails, or both agree completely. -/
theorem lf_newton (cfg : Cfg) (h : Follows T X g ev ev') {ss ss' cs cs' : List (AST F)} (hs : List.Forall₂ T ss ss') (hcs : List.Forall₂ T cs cs')
    {x : List (Variable F)} (hx : ∀ v ∈ x, ¬ X v.name) {c : Context F} (hc : Fixes X g c) :
    Fails (newton cfg ev ss cs x c).1 ∨ newton cfg ev ss cs x c = newton cfg ev' ss' cs' x c := by
  unfold newton
  dsimp only
  rcases lf_evalScalars h hs (hc.addVars hx) with h1 | h1
  · left
    revert h1
    cases evalScalars ev ss (addVars c x) with
    | ok r => exact fun h => absurd h id
    | _ => exact id
  · rw [← h1]
    cases hfx : evalScalars ev ss (addVars c x) with
    | err e => exact Or.inr rfl
    | panic => exact Or.inr rfl
    | timeout => exact Or.inr rfl
    | ok fx =>
      dsimp only
      split
      · rcases lf_evalScalars h hcs (((hc.addVars hx).removeVars hx).addVars hx) with h2 | h2
        · left
          revert h2
          cases evalScalars ev cs (addVars (removeVars (addVars c x) x) x) with
          | ok r => exact fun h => absurd h id
          | _ => exact id
        · rw [← h2]; exact Or.inr rfl
      · rcases lf_jacobi hT cfg h hs hx ((hc.addVars hx).removeVars hx) fx with h2 | h2
        · left
          revert h2
          cases jacobiAndGauss cfg ev ss x (removeVars (addVars c x) x) fx with
          | ok r => exact fun h => absurd h id
          | _ => exact id
        · rw [← h2]; exact Or.inr rfl

include hT in
theorem lf_solveLoop1 (cfg : Cfg) (h : Follows T X g ev ev') {ss ss' cs cs' : List (AST F)} (hs : List.Forall₂ T ss ss') (hcs : List.Forall₂ T cs cs')
    (n : Nat) {x : List (Variable F)} (hx : ∀ v ∈ x, ¬ X v.name) {c : Context F} (hc : Fixes X g c) :
    Lf (solveLoop1 cfg ev ss cs n x c) (solveLoop1 cfg ev' ss' cs' n x c) ∧
      ∀ r, solveLoop1 cfg ev ss cs n x c = .ok r → Fixes X g r.ctx := by
  induction n generalizing x c with
  | zero => exact ⟨Lf.refl _, by rintro r ⟨⟩; exact hc⟩
  | succ n ih =>
    unfold solveLoop1
    obtain ⟨k1, k2⟩ := newton_keeps cfg ev ss cs hx hc
    rcases lf_newton hT cfg h hs hcs hx hc with h1 | h1
    · revert h1
      cases newton cfg ev ss cs x c with
      | mk a b =>
        intro h1
        cases a with
        | ok r => exact absurd h1 id
        | panic => exact ⟨Or.inl trivial, nofun⟩
        | timeout => exact ⟨Or.inl trivial, nofun⟩
        | err e =>
          have h1 : e ≠ .infiniteSolutions ∧ e ≠ .naNOrInf ∧ e ≠ .expressionCheckFailed := h1
          cases e <;> first | exact absurd rfl h1.1 | exact absurd rfl h1.2.1 | exact absurd rfl h1.2.2 | exact ⟨Or.inl h1, nofun⟩
    · rw [← h1]
      clear h1
      cases hq : newton cfg ev ss cs x c with
      | mk a b =>
        rw [hq] at k1 k2
        simp only at k1 k2
        cases a with
        | ok r => cases r with
          | nextX x' => exact ih (k2 x' rfl) k1
          | finishedX x' =>
            refine ⟨Lf.refl _, fun r hr => ?_⟩
            obtain ⟨_, _, hr⟩ := bind_eq_ok.1 hr
            cases hr
            exact k1
        | err e => 
          refine ⟨by cases e <;> exact Lf.refl _, fun r hr => ?_⟩
          cases e <;> cases hr <;> exact k1
        | panic => exact ⟨Lf.refl _, nofun⟩
        | timeout => exact ⟨Lf.refl _, nofun⟩

include hT in
theorem lf_solveLoop0 (cfg : Cfg) (h : Follows T X g ev ev') {ss ss' cs cs' : List (AST F)} (hs : List.Forall₂ T ss ss') (hcs : List.Forall₂ T cs cs')
    {names : List Str} (hn : ∀ n ∈ names, ¬ X n) (js : List Int) {c : Context F} (hc : Fixes X g c) (acc : List (Value F)) :
    Lf (solveLoop0 cfg ev ss cs names js c acc) (solveLoop0 cfg ev' ss' cs' names js c acc) := by
  induction js generalizing c acc with
  | nil => exact Lf.refl _
  | cons j js ih =>
    unfold solveLoop0
    have hx : ∀ v ∈ names.map (fun k => (⟨k, [.scalar (FArith.ofInt j)]⟩ : Variable F)), ¬ X v.name := by
      intro v hv
      obtain ⟨m, hm, rfl⟩ := List.mem_map.1 hv
      exact hn m hm
    refine lf_bind_ok (lf_solveLoop1 hT cfg h hs hcs _ hx hc).1 fun r hr => ?_
    exact Lf.ite (Lf.refl _) (ih ((lf_solveLoop1 hT cfg h hs hcs _ hx hc).2 r hr) _)

theorem lf_step (cfg : Cfg) {A B : Out EvalError (List (Value F))} (h : Lf A B) {y y' : Out EvalError (List (Value F))} (h' : Lf y y') :
    Lf (A >>= fun r => cleanResults cfg r >>= fun r => if (!r.isEmpty) = true then Out.ok r else y)
      (B >>= fun r => cleanResults cfg r >>= fun r => if (!r.isEmpty) = true then Out.ok r else y') :=
  Lf.bind h fun _ => Lf.bind (Lf.refl _) fun _ => Lf.ite (Lf.refl _) h'

include hT in
theorem lf_findRootsLoop (cfg : Cfg) (h : Follows T X g ev ev') {rf rf' : RootFinder F} (he : List.Forall₂ T rf.expressions rf'.expressions)
    (hc' : rf'.context = rf.context) (hn' : rf'.searchVarsNames = rf.searchVarsNames)
    (hn : ∀ n ∈ rf.searchVarsNames, ¬ X n) (hc : Fixes X g rf.context) (l : List (List Nat)) :
    Lf (findRootsLoop cfg ev rf l) (findRootsLoop cfg ev' rf' l) := by
  induction l with
  | nil => exact Lf.refl _
  | cons i l ih =>
    unfold findRootsLoop
    rw [hc', hn']
    rcases splitExprs_forall₂ (ε := EvalError) i 0 (List.Forall₂.nil (R := T)) he with ⟨⟨p, q⟩, ⟨p', q'⟩, h1, h2, h3, h4⟩ | ⟨h1, h2⟩
    · rw [h1, h2, ok_bind, ok_bind]
      refine lf_step cfg ?_ ih
      exact lf_solveLoop0 hT cfg h h3 h4 hn _ hc _
    · rw [h1, h2]
      show Lf Out.panic Out.panic
      exact Lf.refl _

include hT in
theorem lf_findRoots (cfg : Cfg) (h : Follows T X g ev ev') {rf rf' : RootFinder F} (he : List.Forall₂ T rf.expressions rf'.expressions)
    (hc' : rf'.context = rf.context) (hn' : rf'.searchVarsNames = rf.searchVarsNames) (hcomb : rf'.combinations = rf.combinations)
    (hn : ∀ n ∈ rf.searchVarsNames, ¬ X n) (hc : Fixes X g rf.context) : Lf (rf.findRoots cfg ev) (rf'.findRoots cfg ev') := by
  unfold RootFinder.findRoots
  rw [hcomb]
  exact lf_findRootsLoop hT cfg h he hc' hn' hn hc _

include hT in
theorem lf_solveEquations (cfg : Cfg) (h : Follows T X g ev ev') (hop : ∀ l l' r r', T l l' → T r r' → T (.simple .sub l r) (.simple .sub l' r'))
    {es es' : List (AST F × AST F)} (h1 : List.Forall₂ T (es.map Prod.fst) (es'.map Prod.fst))
    (h2 : List.Forall₂ T (es.map Prod.snd) (es'.map Prod.snd)) {names : List Str} (hn : ∀ n ∈ names, ¬ X n) {c : Context F} (hc : Fixes X g c) :
    Lf (solveEquations cfg ev es c names) (solveEquations cfg ev' es' c names) := by
  unfold solveEquations
  simp only
  have he : List.Forall₂ T (es.map fun i => AST.simple .sub i.1 i.2) (es'.map fun i => AST.simple .sub i.1 i.2) := by
    clear hn hc h
    induction es generalizing es' with
    | nil =>
      cases es' with
      | nil => exact .nil
      | cons => cases h1
    | cons e es ih =>
      cases es' with
      | nil => cases h1
      | cons e' es' =>
        cases h1 with
        | cons a1 b1 =>
          cases h2 with
          | cons a2 b2 => exact .cons (hop _ _ _ _ a1 a2) (ih b1 b2)
  have hany : ∀ es : List (AST F × AST F), (es.map fun i => AST.simple .sub i.1 i.2).any (fun e => !e.isOperation) = false := by
    intro es
    simp [List.any_eq_false, AST.isOperation]
  unfold RootFinder.new
  rw [hany, hany, ← he.length_eq]
  simp only [Bool.false_eq_true, if_false]
  generalize hz : (es.map fun i => AST.simple .sub i.1 i.2).length = len
  by_cases c1 : len = 0
  · rw [if_pos c1, if_pos c1]; exact lf_err _ _ _
  rw [if_neg c1, if_neg c1]
  by_cases c2 : (names.any fun i => (c.vars.map (·.name)).contains i) = true
  · rw [if_pos c2, if_pos c2]; exact lf_err _ _ _
  rw [if_neg c2, if_neg c2]
  by_cases c3 : names.length > len
  · rw [if_pos c3, if_pos c3]; exact lf_err _ _ _
  rw [if_neg c3, if_neg c3]
  have k1 : ∀ (names : List Str) (c : Context F), (∀ n ∈ names, ¬ X n) → Fixes X g c →
      Fixes X g (names.foldl (fun c i => c.addVar ⟨i, [.scalar (FArith.ofDec 821785 (-5))]⟩) c) := by
    intro names
    induction names with
    | nil => intro c _ hc; exact hc
    | cons n names ih => intro c hn hc; exact ih _ (fun m hm => hn m (by simp [hm])) (hc.addVar (hn n (by simp)))
  have k2 : ∀ (names : List Str) (c : Context F), (∀ n ∈ names, ¬ X n) → Fixes X g c → Fixes X g (names.foldl (fun c i => c.removeVar i) c) := by
    intro names
    induction names with
    | nil => intro c _ hc; exact hc
    | cons n names ih => intro c hn hc; exact ih _ (fun m hm => hn m (by simp [hm])) (hc.removeVar (hn n (by simp)))
  simp only [bind_assoc]
  refine lf_idx he 0 fun e e' hee => ?_
  refine Lf.bind (h e e' _ hee (k1 _ _ hn hc)) fun r => Lf.bind (Lf.refl _) fun v => ?_
  cases v with
  | vector v => exact lf_err _ _ _
  | matrix v => exact lf_err _ _ _
  | scalar v =>
    dsimp only
    rw [ok_bind, ok_bind]
    exact lf_findRoots hT cfg h he rfl rfl rfl hn (k2 _ _ hn (k1 _ _ hn hc))

/-! ### Evaluation -/

omit hT

theorem lf_evalRec (cfg : Cfg) (k : Nat) {B : AST F → AST F → Prop}
    (hB : ∀ n a a' c, B a a' → Fixes X g c → Lf (evalRec cfg n a c []) (evalRec cfg (n + k) a' c [])) (n : Nat) :
    ∀ a a' c, Replaced B X a a' → Fixes X g c → Lf (evalRec cfg n a c []) (evalRec cfg (n + k) a' c []) := by
  induction n with
  | zero => intro a a' c _ _; exact Or.inl (by simp [evalRec, Fails])
  | succ n ih =>
    intro a a' c h hc
    have hev : Follows (Replaced B X) X g (fun a c => evalRec (F := F) cfg n a c []) (fun a c => evalRec cfg (n + k) a c []) :=
      fun a a' c h hc => ih a a' c h hc
    have hle : EvLe (fun a c => evalRec (F := F) cfg n a c []) (fun a c => evalRec cfg (n + k) a c []) :=
      fun a c => evalRec_le cfg (Nat.le_add_right n k) a c []
    have hnk : n ≤ n + k := Nat.le_add_right n k
    have hk : n + 1 + k = (n + k) + 1 := by omega
    cases h with
    | part _ _ h => exact hB (n + 1) a a' c h hc
    | same => exact .of_le (evalRec_le cfg (Nat.le_add_right _ k) a c [])
    | vector v v' h =>
      rw [hk]
      simp only [evalRec]
      exact Lf.bind (lf_mapM₂ h fun i j hij => Lf.bind (ih _ _ _ hij hc) fun _ => Lf.refl _) fun _ => Lf.refl _
    | matrix v v' h =>
      rw [hk]
      simp only [evalRec]
      exact Lf.bind (lf_mapM₂ h fun i j hij => lf_mapM₂ hij fun i j hij => Lf.bind (ih _ _ _ hij hc) fun _ => Lf.refl _) fun _ => Lf.refl _
    | list v v' h =>
      rw [hk]
      simp only [evalRec]
      exact Lf.bind (lf_mapM₂ h fun i j hij => ih _ _ _ hij hc) fun _ => Lf.refl _
    | function f as as' h =>
      rw [hk]
      simp only [evalRec]
      refine Lf.ite (Lf.refl _) ?_
      cases c.findFun f with
      | none => exact Lf.refl _
      | some f' =>
        simp only
        rw [← h.length_eq]
        refine Lf.ite (Lf.refl _) ?_
        exact Lf.bind (lf_mapM₂ h fun i j hij => ih _ _ _ hij hc) fun _ =>
          Lf.bind (Lf.mapM _ fun p _ => .of_le (evalRec_le cfg hnk _ _ _)) fun _ => Lf.refl _
    | simple op l l' r r' h1 h2 =>
      rw [hk]
      simp only [evalRec]
      exact Lf.bind (ih _ _ _ h1 hc) fun _ => Lf.bind (ih _ _ _ h2 hc) fun _ => Lf.refl _
    | integral e e' x lo lo' hi hi' hx h1 h2 h3 =>
      rw [hk]
      simp only [evalRec]
      exact Lf.bind (ih _ _ _ h2 hc) fun _ => Lf.bind (ih _ _ _ h3 hc) fun _ =>
        Lf.bind (Lf.mapM _ fun i _ => Lf.bind (Lf.mapM _ fun j _ => lf_integral cfg hev h1 hx hc hnk _ _) fun _ => Lf.refl _) fun _ => Lf.refl _
    | bounds e x lo lo' hi hi' h2 h3 =>
      rw [hk]
      simp only [evalRec]
      exact Lf.bind (ih _ _ _ h2 hc) fun _ => Lf.bind (ih _ _ _ h3 hc) fun _ =>
        Lf.bind (Lf.mapM _ fun i _ => Lf.bind (Lf.mapM _ fun j _ => Lf.of_le (calculateIntegral_le cfg hle hnk _ _ _ _ _)) fun _ => Lf.refl _) fun _ => Lf.refl _
    | derivative e e' x a a' hx h1 h2 =>
      rw [hk]
      simp only [evalRec]
      exact Lf.bind (ih _ _ _ h2 hc) fun _ => Lf.bind (Lf.mapM _ fun i _ =>
          lf_derivative .same cfg hev h1 hx hc _) fun _ => Lf.refl _
    | point e x a a' h2 =>
      rw [hk]
      simp only [evalRec]
      exact Lf.bind (ih _ _ _ h2 hc) fun _ => Lf.bind (Lf.mapM _ fun i _ =>
          Lf.of_le (calculateDerivative_le cfg hle _ _ _ _)) fun _ => Lf.refl _
    | equation es es' names hn h1 h2 =>
      rw [hk]
      simp only [evalRec]
      exact lf_solveEquations .same cfg hev (fun l l' r r' h h' => .simple _ _ _ _ _ h h') h1 h2 hn hc

end
end MUL
