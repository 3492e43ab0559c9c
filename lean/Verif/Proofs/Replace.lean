import Verif.Spec.Replace
import Verif.Proofs.EvalFuel
import Verif.Proofs.EvalCtx
/-!
# Replacing parts of a tree by parts that evaluate alike
-/

set_option linter.unusedSectionVars false

namespace MUL
open Out Spec

section
variable {F : Type} [FNum F]

variable {X : Str → Prop} {g : Str → Option (List (Value F))}

theorem Spec.Fixes.of_entries {c c' : Context F} (h : Fixes X g c) (he : ∀ y, X y → entries c'.vars y = entries c.vars y) : Fixes X g c' := by
  intro y hy
  rw [findVar_entries, he y hy, ← findVar_entries]
  exact h y hy

theorem Spec.Fixes.addVar {c : Context F} (h : Fixes X g c) {v : Variable F} (hv : ¬ X v.name) : Fixes X g (c.addVar v) := by
  refine h.of_entries fun y hy => ?_
  have : y ≠ v.name := fun h => hv (h ▸ hy)
  simp only [Context.addVar, entries_append, entries_filter_ne, if_neg this, entries_cons, if_neg (Ne.symm this)]
  simp [entries]

theorem Spec.Fixes.removeVar {c : Context F} (h : Fixes X g c) {n : Str} (hv : ¬ X n) : Fixes X g (c.removeVar n) := by
  refine h.of_entries fun y hy => ?_
  have : y ≠ n := fun h => hv (h ▸ hy)
  simp only [Context.removeVar, entries_filter_ne, if_neg this]

theorem Spec.Fixes.append {c : Context F} (h : Fixes X g c) {vs : List (Variable F)} (hv : ∀ v ∈ vs, ¬ X v.name) :
    Fixes X g ⟨c.vars ++ vs, c.funs⟩ := by
  refine h.of_entries fun y hy => ?_
  have : entries vs y = [] := by
    simp only [entries, List.filter_eq_nil_iff, beq_iff_eq]
    intro v hv' h
    exact hv v hv' (h ▸ hy)
  simp only [entries_append, this, List.append_nil]

theorem Spec.Fixes.erase {c : Context F} (h : Fixes X g c) {n : Str} (hv : ¬ X n) : Fixes X g ⟨eraseFirstVar c.vars n, c.funs⟩ := by
  refine h.of_entries fun y hy => ?_
  have : y ≠ n := fun h => hv (h ▸ hy)
  simp only [entries_eraseFirst, if_neg this]

theorem Spec.Fixes.addVars {c : Context F} (h : Fixes X g c) {vs : List (Variable F)} (hv : ∀ v ∈ vs, ¬ X v.name) : Fixes X g (addVars c vs) := by
  unfold MUL.addVars
  induction vs generalizing c with
  | nil => exact h
  | cons v vs ih => exact ih (h.addVar (hv v (by simp))) fun v hv' => hv v (by simp [hv'])

theorem Spec.Fixes.removeVars {c : Context F} (h : Fixes X g c) {vs : List (Variable F)} (hv : ∀ v ∈ vs, ¬ X v.name) : Fixes X g (removeVars c vs) := by
  unfold MUL.removeVars
  induction vs generalizing c with
  | nil => exact h
  | cons v vs ih => exact ih (h.removeVar (hv v (by simp))) fun v hv' => hv v (by simp [hv'])

theorem forall₂_mem_of {α β : Type} {R : α → β → Prop} {l : List α} {l' : List β} (h : List.Forall₂ R l l') : ∀ b ∈ l', ∃ a ∈ l, R a b := by
  induction h with
  | nil => simp
  | cons hab _ ih =>
    intro b hb
    rcases List.mem_cons.1 hb with rfl | hb
    · exact ⟨_, by simp, hab⟩
    · obtain ⟨a, ha, h⟩ := ih b hb
      exact ⟨a, by simp [ha], h⟩

theorem le_bind_ok {ε α β : Type} {x y : Out ε α} {f f' : α → Out ε β} (h : Le x y) (h' : ∀ r, x = .ok r → Le (f r) (f' r)) :
    Le (x >>= f) (y >>= f') := by
  rcases h with h | h
  · rw [h]; exact Or.inl rfl
  · rw [← h]
    cases x with
    | ok r => exact h' r rfl
    | _ => exact Le.refl _

theorem le_err {ε α β : Type} (e : ε) (f f' : α → Out ε β) : Le ((Out.err e : Out ε α) >>= f) ((Out.err e : Out ε α) >>= f') := by
  show Le (Out.err e) (Out.err e)
  exact Le.refl _

/-- On related trees, in contexts that fix the names, `ev'` finishes like `ev` does if `ev` finishes. -/
def Approx (T : AST F → AST F → Prop) (X : Str → Prop) (g : Str → Option (List (Value F))) (ev ev' : Evaluator F) : Prop :=
  ∀ a a' c, T a a' → Fixes X g c → Le (ev a c) (ev' a' c)

theorem le_mapM₂ {ε α β γ : Type} {P : α → β → Prop} {l : List α} {l' : List β} (hl : List.Forall₂ P l l') {f : α → Out ε γ} {f' : β → Out ε γ}
    (h : ∀ a b, P a b → Le (f a) (f' b)) : Le (l.mapM f) (l'.mapM f') := by
  induction hl with
  | nil => exact Le.refl _
  | cons hab _ ih =>
    simp only [List.mapM_cons]
    exact Le.bind (h _ _ hab) fun _ => Le.bind ih fun _ => Le.refl _

variable {T : AST F → AST F → Prop} (hT : ∀ a, T a a) {ev ev' : Evaluator F}

theorem le_integralLoop (h : Approx T X g ev ev') {e e' : AST F} (he : T e e') {x : Str} (hx : ¬ X x) {c : Context F} (hc : Fixes X g c)
    (ub dx : F) {n m : Nat} (hnm : n ≤ m) (b : F) (sums : List (Value F)) :
    Le (integralLoop ev e x c.vars c.funs ub dx n b sums) (integralLoop ev' e' x c.vars c.funs ub dx m b sums) := by
  induction n generalizing m b sums with
  | zero =>
    unfold integralLoop
    split
    · exact Or.inl rfl
    · right
      cases m <;> simp_all [integralLoop]
  | succ n ih =>
    obtain ⟨m, rfl⟩ : ∃ k, m = k + 1 := ⟨m - 1, by omega⟩
    unfold integralLoop
    refine Le.ite ?_ (Le.refl _)
    refine Le.bind (h _ _ _ he (hc.append fun v hv => ?_)) fun evals => Le.bind (Le.refl _) fun s => ih (by omega) _ _
    simp only [List.mem_singleton] at hv
    rw [hv]
    exact hx

theorem le_integral (cfg : Cfg) (h : Approx T X g ev ev') {e e' : AST F} (he : T e e') {x : Str} (hx : ¬ X x) {c : Context F} (hc : Fixes X g c)
    {n m : Nat} (hnm : n ≤ m) (l u : Value F) :
    Le (calculateIntegral cfg ev n e x l u c) (calculateIntegral cfg ev' m e' x l u c) := by
  unfold calculateIntegral
  cases l <;> cases u <;> try exact Le.refl _
  refine Le.ite (Le.refl _) ?_
  exact Le.bind (le_integralLoop h he hx (hc.erase hx) _ _ hnm _ _) fun _ => Le.refl _

include hT in
theorem le_derivative (cfg : Cfg) (h : Approx T X g ev ev') {e e' : AST F} (he : T e e') {x : Str} (hx : ¬ X x) {c : Context F} (hc : Fixes X g c)
    (a : Value F) : Le (calculateDerivative cfg ev e x a c) (calculateDerivative cfg ev' e' x a c) := by
  unfold calculateDerivative
  cases a <;> try exact Le.refl _
  simp only [dropVar_eq]
  have h1 := fun v => (hc.removeVar hx).addVar (v := ⟨x, v⟩) hx
  have h2 := fun v w => ((h1 v).removeVar hx).addVar (v := ⟨x, w⟩) hx
  refine Le.bind (h _ _ _ he (h1 _)) fun fxs => Le.bind (h _ _ _ he (h2 _ _)) fun fxhs => Le.ite (Le.refl _) ?_
  refine Le.bind (Le.mapM _ fun i _ => ?_) fun _ => Le.refl _
  exact Le.bind (Le.refl _) fun _ => Le.bind (Le.refl _) fun _ => h _ _ _ (hT _) (h2 _ _)

include hT in
theorem le_derivativeNewton (cfg : Cfg) (h : Approx T X g ev ev') {e e' : AST F} (he : T e e') {x : Str} (hx : ¬ X x) {c : Context F}
    (hc : Fixes X g c) (a fx : Value F) :
    Le (calculateDerivativeNewton cfg ev e x a (some fx) c) (calculateDerivativeNewton cfg ev' e' x a (some fx) c) := by
  unfold calculateDerivativeNewton
  cases a <;> try exact Le.refl _
  simp only [dropVar_eq, ok_bind]
  have h1 := fun v => (hc.removeVar hx).addVar (v := ⟨x, v⟩) hx
  exact Le.bind (h _ _ _ he (h1 _)) fun _ => Le.bind (Le.refl _) fun _ => Le.bind (h _ _ _ (hT _) (h1 _)) fun _ => Le.refl _

theorem le_idx {ε α β γ : Type} {P : α → β → Prop} {l : List α} {l' : List β} (hl : List.Forall₂ P l l') (i : Nat) {f : α → Out ε γ} {f' : β → Out ε γ}
    (h : ∀ a b, P a b → Le (f a) (f' b)) : Le (idx l i >>= f) (idx l' i >>= f') := by
  unfold idx
  by_cases hi : i < l.length
  · have hi' : i < l'.length := by rw [← hl.length_eq]; exact hi
    rw [List.getElem?_eq_getElem hi, List.getElem?_eq_getElem hi']
    exact h _ _ (List.Forall₂.get hl hi hi')
  · have hi' : ¬ i < l'.length := by rw [← hl.length_eq]; exact hi
    rw [List.getElem?_eq_none (by omega), List.getElem?_eq_none (by omega)]
    exact Le.refl _

include hT in
theorem le_jacobi (cfg : Cfg) (h : Approx T X g ev ev') {es es' : List (AST F)} (he : List.Forall₂ T es es') {x : List (Variable F)}
    (hx : ∀ v ∈ x, ¬ X v.name) {c : Context F} (hc : Fixes X g c) (fx : List F) :
    Le (jacobiAndGauss cfg ev es x c fx) (jacobiAndGauss cfg ev' es' x c fx) := by
  unfold jacobiAndGauss
  rw [← he.length_eq]
  refine Le.bind (Le.mapM _ fun i _ => Le.mapM _ fun j _ => ?_) fun _ => Le.refl _
  refine le_idx he i fun e e' hee => ?_
  cases hj : x[j]? with
  | none => 
    have : (idx x j : Out EvalError _) = .panic := by unfold idx; rw [hj]; rfl
    rw [this]
    exact Le.refl _
  | some xj =>
    have : (idx x j : Out EvalError _) = .ok xj := by unfold idx; rw [hj]; rfl
    rw [this, ok_bind, ok_bind]
    have hxj : ¬ X xj.name := hx _ (List.mem_of_getElem? hj)
    refine Le.bind (Le.refl _) fun _ => Le.bind (Le.refl _) fun _ => Le.bind ?_ fun _ => Le.refl _
    refine le_derivativeNewton hT cfg h hee hxj (hc.append fun v hv => ?_) _ _
    obtain ⟨k, _, hk⟩ := List.mem_filterMap.1 hv
    exact hx _ (List.mem_of_getElem? hk)

theorem le_evalScalars (h : Approx T X g ev ev') {es es' : List (AST F)} (he : List.Forall₂ T es es') {c : Context F} (hc : Fixes X g c) :
    Le (evalScalars ev es c) (evalScalars ev' es' c) :=
  le_mapM₂ he fun _ _ hab => Le.bind (h _ _ _ hab hc) fun _ => Le.refl _

include hT in
/-- Either the first call runs out of budget, or both agree completely. -/
theorem le_newton (cfg : Cfg) (h : Approx T X g ev ev') {ss ss' cs cs' : List (AST F)} (hs : List.Forall₂ T ss ss') (hcs : List.Forall₂ T cs cs')
    {x : List (Variable F)} (hx : ∀ v ∈ x, ¬ X v.name) {c : Context F} (hc : Fixes X g c) :
    (newton cfg ev ss cs x c).1 = .timeout ∨ newton cfg ev ss cs x c = newton cfg ev' ss' cs' x c := by
  unfold newton
  dsimp only
  rcases le_evalScalars h hs (hc.addVars hx) with h1 | h1
  · rw [h1]; exact Or.inl rfl
  · rw [← h1]
    cases hfx : evalScalars ev ss (addVars c x) with
    | err e => exact Or.inr rfl
    | panic => exact Or.inr rfl
    | timeout => exact Or.inr rfl
    | ok fx =>
      dsimp only
      split
      · rcases le_evalScalars h hcs (((hc.addVars hx).removeVars hx).addVars hx) with h2 | h2
        · rw [h2]; exact Or.inl rfl
        · rw [← h2]; exact Or.inr rfl
      · rcases le_jacobi hT cfg h hs hx ((hc.addVars hx).removeVars hx) fx with h2 | h2
        · rw [h2]; exact Or.inl rfl
        · rw [← h2]; exact Or.inr rfl

theorem jacobi_names_kept {cfg : Cfg} {ev : Evaluator F} {es : List (AST F)} {x y : List (Variable F)} {c : Context F} {fx : List F}
    (h : jacobiAndGauss cfg ev es x c fx = .ok y) : ∀ v ∈ y, ∃ u ∈ x, v.name = u.name := by
  unfold jacobiAndGauss at h
  obtain ⟨_, _, h⟩ := bind_eq_ok.1 h
  obtain ⟨_, _, h⟩ := bind_eq_ok.1 h
  obtain ⟨_, _, h⟩ := bind_eq_ok.1 h
  have hm := mapM_eq_ok.1 h
  intro v hv
  obtain ⟨i, _, hi⟩ := forall₂_mem_of hm v hv
  obtain ⟨xi, hxi, hi⟩ := bind_eq_ok.1 hi
  obtain ⟨_, _, hi⟩ := bind_eq_ok.1 hi
  obtain ⟨_, _, hi⟩ := bind_eq_ok.1 hi
  obtain ⟨_, _, hi⟩ := bind_eq_ok.1 hi
  cases hi
  exact ⟨xi, List.mem_of_getElem? (idx_eq_ok.1 hxi), rfl⟩

/-- A step of the search keeps the names of the search variables and the fixed names. -/
theorem newton_keeps (cfg : Cfg) (ev : Evaluator F) (ss cs : List (AST F)) {x : List (Variable F)} (hx : ∀ v ∈ x, ¬ X v.name) {c : Context F}
    (hc : Fixes X g c) : Fixes X g (newton cfg ev ss cs x c).2 ∧
      ∀ x', (newton cfg ev ss cs x c).1 = .ok (.nextX x') → ∀ v ∈ x', ¬ X v.name := by
  have h1 := hc.addVars hx
  have h2 := h1.removeVars hx
  have h3 := h2.addVars hx
  have h4 := h3.removeVars hx
  unfold newton
  dsimp only
  cases evalScalars ev ss (addVars c x) with
  | err e => exact ⟨h1, nofun⟩
  | panic => exact ⟨h1, nofun⟩
  | timeout => exact ⟨h1, nofun⟩
  | ok fx =>
    dsimp only
    split
    · cases evalScalars ev cs (addVars (removeVars (addVars c x) x) x) with
      | err e => exact ⟨h3, nofun⟩
      | panic => exact ⟨h3, nofun⟩
      | timeout => exact ⟨h3, nofun⟩
      | ok r =>
        dsimp only
        split
        · exact ⟨h4, nofun⟩
        · split
          · exact ⟨h4, nofun⟩
          · exact ⟨h4, nofun⟩
    · cases hj : jacobiAndGauss cfg ev ss x (removeVars (addVars c x) x) fx with
      | err e => exact ⟨h2, nofun⟩
      | panic => exact ⟨h2, nofun⟩
      | timeout => exact ⟨h2, nofun⟩
      | ok y =>
        dsimp only
        split
        · split
          · exact ⟨h2, nofun⟩
          · refine ⟨h2, fun x' hx' => ?_⟩
            cases hx'
            intro v hv
            obtain ⟨u, hu, he⟩ := jacobi_names_kept hj v hv
            rw [he]
            exact hx u hu
        · exact ⟨h2, nofun⟩
        · exact ⟨h2, nofun⟩
        · exact ⟨h2, nofun⟩

include hT in
theorem le_solveLoop1 (cfg : Cfg) (h : Approx T X g ev ev') {ss ss' cs cs' : List (AST F)} (hs : List.Forall₂ T ss ss') (hcs : List.Forall₂ T cs cs')
    (n : Nat) {x : List (Variable F)} (hx : ∀ v ∈ x, ¬ X v.name) {c : Context F} (hc : Fixes X g c) :
    Le (solveLoop1 cfg ev ss cs n x c) (solveLoop1 cfg ev' ss' cs' n x c) ∧
      ∀ r, solveLoop1 cfg ev ss cs n x c = .ok r → Fixes X g r.ctx := by
  induction n generalizing x c with
  | zero => exact ⟨Le.refl _, by rintro r ⟨⟩; exact hc⟩
  | succ n ih =>
    unfold solveLoop1
    obtain ⟨k1, k2⟩ := newton_keeps cfg ev ss cs hx hc
    rcases le_newton hT cfg h hs hcs hx hc with h1 | h1
    · revert h1
      cases newton cfg ev ss cs x c with
      | mk a b => intro h1; cases h1; exact ⟨Or.inl rfl, nofun⟩
    · rw [← h1]
      clear h1
      cases hq : newton cfg ev ss cs x c with
      | mk a b =>
        rw [hq] at k1 k2
        simp only at k1 k2
        cases a with
        | ok r => cases r with
          | nextX x' => exact ih (k2 x' rfl) k1
          | finishedX x' =>
            refine ⟨Le.refl _, fun r hr => ?_⟩
            obtain ⟨_, _, hr⟩ := bind_eq_ok.1 hr
            cases hr
            exact k1
        | err e => 
          refine ⟨by cases e <;> exact Le.refl _, fun r hr => ?_⟩
          cases e <;> cases hr <;> exact k1
        | panic => exact ⟨Le.refl _, nofun⟩
        | timeout => exact ⟨Le.refl _, nofun⟩

include hT in
theorem le_solveLoop0 (cfg : Cfg) (h : Approx T X g ev ev') {ss ss' cs cs' : List (AST F)} (hs : List.Forall₂ T ss ss') (hcs : List.Forall₂ T cs cs')
    {names : List Str} (hn : ∀ n ∈ names, ¬ X n) (js : List Int) {c : Context F} (hc : Fixes X g c) (acc : List (Value F)) :
    Le (solveLoop0 cfg ev ss cs names js c acc) (solveLoop0 cfg ev' ss' cs' names js c acc) := by
  induction js generalizing c acc with
  | nil => exact Le.refl _
  | cons j js ih =>
    unfold solveLoop0
    have hx : ∀ v ∈ names.map (fun k => (⟨k, [.scalar (FArith.ofInt j)]⟩ : Variable F)), ¬ X v.name := by
      intro v hv
      obtain ⟨m, hm, rfl⟩ := List.mem_map.1 hv
      exact hn m hm
    refine le_bind_ok (le_solveLoop1 hT cfg h hs hcs _ hx hc).1 fun r hr => ?_
    exact Le.ite (Le.refl _) (ih ((le_solveLoop1 hT cfg h hs hcs _ hx hc).2 r hr) _)

theorem splitExprs_forall₂ {ε α β : Type} {P : α → β → Prop} (js : List Nat) (k : Nat) {s c : List α} {s' c' : List β} (hs : List.Forall₂ P s s')
    (hc : List.Forall₂ P c c') :
    (∃ p p', splitExprs js k s c = (.ok p : Out ε _) ∧ splitExprs js k s' c' = (.ok p' : Out ε _) ∧ List.Forall₂ P p.1 p'.1 ∧ List.Forall₂ P p.2 p'.2) ∨
      (splitExprs js k s c = (.panic : Out ε _) ∧ splitExprs js k s' c' = (.panic : Out ε _)) := by
  induction js generalizing k s c s' c' with
  | nil => exact Or.inl ⟨_, _, rfl, rfl, hs, hc⟩
  | cons j js ih =>
    unfold splitExprs
    split
    · exact Or.inr ⟨rfl, rfl⟩
    · by_cases hi : j - k < c.length
      · have hi' : j - k < c'.length := by rw [← hc.length_eq]; exact hi
        rw [idx_lt hi, idx_lt hi', ok_bind, ok_bind]
        refine ih (k + 1) ?_ ?_
        · exact List.rel_append hs (.cons (List.Forall₂.get hc hi hi') .nil)
        · clear ih hi hi'
          generalize j - k = i
          induction hc generalizing i with
          | nil => exact .nil
          | cons hab hr ih =>
            cases i with
            | zero => exact hr
            | succ i => exact .cons hab (ih i)
      · have hi' : ¬ j - k < c'.length := by rw [← hc.length_eq]; exact hi
        rw [idx_ge (by omega), idx_ge (by omega)]
        exact Or.inr ⟨rfl, rfl⟩

theorem le_step (cfg : Cfg) {A B : Out EvalError (List (Value F))} (h : Le A B) {y y' : Out EvalError (List (Value F))} (h' : Le y y') :
    Le (A >>= fun r => cleanResults cfg r >>= fun r => if (!r.isEmpty) = true then Out.ok r else y)
      (B >>= fun r => cleanResults cfg r >>= fun r => if (!r.isEmpty) = true then Out.ok r else y') :=
  Le.bind h fun _ => Le.bind (Le.refl _) fun _ => Le.ite (Le.refl _) h'

include hT in
theorem le_findRootsLoop (cfg : Cfg) (h : Approx T X g ev ev') {rf rf' : RootFinder F} (he : List.Forall₂ T rf.expressions rf'.expressions)
    (hc' : rf'.context = rf.context) (hn' : rf'.searchVarsNames = rf.searchVarsNames)
    (hn : ∀ n ∈ rf.searchVarsNames, ¬ X n) (hc : Fixes X g rf.context) (l : List (List Nat)) :
    Le (findRootsLoop cfg ev rf l) (findRootsLoop cfg ev' rf' l) := by
  induction l with
  | nil => exact Le.refl _
  | cons i l ih =>
    unfold findRootsLoop
    rw [hc', hn']
    rcases splitExprs_forall₂ (ε := EvalError) i 0 (List.Forall₂.nil (R := T)) he with ⟨⟨p, q⟩, ⟨p', q'⟩, h1, h2, h3, h4⟩ | ⟨h1, h2⟩
    · rw [h1, h2, ok_bind, ok_bind]
      refine le_step cfg ?_ ih
      exact le_solveLoop0 hT cfg h h3 h4 hn _ hc _
    · rw [h1, h2]
      show Le Out.panic Out.panic
      exact Le.refl _

include hT in
theorem le_findRoots (cfg : Cfg) (h : Approx T X g ev ev') {rf rf' : RootFinder F} (he : List.Forall₂ T rf.expressions rf'.expressions)
    (hc' : rf'.context = rf.context) (hn' : rf'.searchVarsNames = rf.searchVarsNames) (hcomb : rf'.combinations = rf.combinations)
    (hn : ∀ n ∈ rf.searchVarsNames, ¬ X n) (hc : Fixes X g rf.context) : Le (rf.findRoots cfg ev) (rf'.findRoots cfg ev') := by
  unfold RootFinder.findRoots
  rw [hcomb]
  exact le_findRootsLoop hT cfg h he hc' hn' hn hc _

include hT in
theorem le_solveEquations (cfg : Cfg) (h : Approx T X g ev ev') (hop : ∀ l l' r r', T l l' → T r r' → T (.simple .sub l r) (.simple .sub l' r'))
    {es es' : List (AST F × AST F)} (h1 : List.Forall₂ T (es.map Prod.fst) (es'.map Prod.fst))
    (h2 : List.Forall₂ T (es.map Prod.snd) (es'.map Prod.snd)) {names : List Str} (hn : ∀ n ∈ names, ¬ X n) {c : Context F} (hc : Fixes X g c) :
    Le (solveEquations cfg ev es c names) (solveEquations cfg ev' es' c names) := by
  unfold solveEquations
  simp only
  have he : List.Forall₂ T (es.map fun i => AST.simple .sub i.1 i.2) (es'.map fun i => AST.simple .sub i.1 i.2) := by
    clear hn hc h
    induction es generalizing es' with
    | nil =>
      cases es' with
      | nil => exact .nil
      | cons => cases h1
    | cons e es ih =>
      cases es' with
      | nil => cases h1
      | cons e' es' =>
        cases h1 with
        | cons a1 b1 =>
          cases h2 with
          | cons a2 b2 => exact .cons (hop _ _ _ _ a1 a2) (ih b1 b2)
  have hany : ∀ es : List (AST F × AST F), (es.map fun i => AST.simple .sub i.1 i.2).any (fun e => !e.isOperation) = false := by
    intro es
    simp [List.any_eq_false, AST.isOperation]
  unfold RootFinder.new
  rw [hany, hany, ← he.length_eq]
  simp only [Bool.false_eq_true, if_false]
  generalize hz : (es.map fun i => AST.simple .sub i.1 i.2).length = len
  by_cases c1 : len = 0
  · rw [if_pos c1, if_pos c1]; exact le_err _ _ _
  rw [if_neg c1, if_neg c1]
  by_cases c2 : (names.any fun i => (c.vars.map (·.name)).contains i) = true
  · rw [if_pos c2, if_pos c2]; exact le_err _ _ _
  rw [if_neg c2, if_neg c2]
  by_cases c3 : names.length > len
  · rw [if_pos c3, if_pos c3]; exact le_err _ _ _
  rw [if_neg c3, if_neg c3]
  have k1 : ∀ (names : List Str) (c : Context F), (∀ n ∈ names, ¬ X n) → Fixes X g c →
      Fixes X g (names.foldl (fun c i => c.addVar ⟨i, [.scalar (FArith.ofDec 821785 (-5))]⟩) c) := by
    intro names
    induction names with
    | nil => intro c _ hc; exact hc
    | cons n names ih => intro c hn hc; exact ih _ (fun m hm => hn m (by simp [hm])) (hc.addVar (hn n (by simp)))
  have k2 : ∀ (names : List Str) (c : Context F), (∀ n ∈ names, ¬ X n) → Fixes X g c → Fixes X g (names.foldl (fun c i => c.removeVar i) c) := by
    intro names
    induction names with
    | nil => intro c _ hc; exact hc
    | cons n names ih => intro c hn hc; exact ih _ (fun m hm => hn m (by simp [hm])) (hc.removeVar (hn n (by simp)))
  simp only [bind_assoc]
  refine le_idx he 0 fun e e' hee => ?_
  refine Le.bind (h e e' _ hee (k1 _ _ hn hc)) fun r => Le.bind (Le.refl _) fun v => ?_
  cases v with
  | vector v => exact le_err _ _ _
  | matrix v => exact le_err _ _ _
  | scalar v =>
    dsimp only
    rw [ok_bind, ok_bind]
    exact le_findRoots hT cfg h he rfl rfl rfl hn (k2 _ _ hn (k1 _ _ hn hc))

/-! ### Evaluation -/

omit hT

theorem le_evalRec (cfg : Cfg) (k : Nat) {B : AST F → AST F → Prop}
    (hB : ∀ n a a' c, B a a' → Fixes X g c → Le (evalRec cfg n a c []) (evalRec cfg (n + k) a' c [])) (n : Nat) :
    ∀ a a' c, Replaced B X a a' → Fixes X g c → Le (evalRec cfg n a c []) (evalRec cfg (n + k) a' c []) := by
  induction n with
  | zero => intro a a' c _ _; exact Or.inl (by simp [evalRec])
  | succ n ih =>
    intro a a' c h hc
    have hev : Approx (Replaced B X) X g (fun a c => evalRec (F := F) cfg n a c []) (fun a c => evalRec cfg (n + k) a c []) :=
      fun a a' c h hc => ih a a' c h hc
    have hle : EvLe (fun a c => evalRec (F := F) cfg n a c []) (fun a c => evalRec cfg (n + k) a c []) :=
      fun a c => evalRec_le cfg (Nat.le_add_right n k) a c []
    have hnk : n ≤ n + k := Nat.le_add_right n k
    have hk : n + 1 + k = (n + k) + 1 := by omega
    cases h with
    | part _ _ h => exact hB (n + 1) a a' c h hc
    | same => exact evalRec_le cfg (Nat.le_add_right _ k) a c []
    | vector v v' h =>
      rw [hk]
      simp only [evalRec]
      exact Le.bind (le_mapM₂ h fun i j hij => Le.bind (ih _ _ _ hij hc) fun _ => Le.refl _) fun _ => Le.refl _
    | matrix v v' h =>
      rw [hk]
      simp only [evalRec]
      exact Le.bind (le_mapM₂ h fun i j hij => le_mapM₂ hij fun i j hij => Le.bind (ih _ _ _ hij hc) fun _ => Le.refl _) fun _ => Le.refl _
    | list v v' h =>
      rw [hk]
      simp only [evalRec]
      exact Le.bind (le_mapM₂ h fun i j hij => ih _ _ _ hij hc) fun _ => Le.refl _
    | function f as as' h =>
      rw [hk]
      simp only [evalRec]
      refine Le.ite (Le.refl _) ?_
      cases c.findFun f with
      | none => exact Le.refl _
      | some f' =>
        simp only
        rw [← h.length_eq]
        refine Le.ite (Le.refl _) ?_
        exact Le.bind (le_mapM₂ h fun i j hij => ih _ _ _ hij hc) fun _ =>
          Le.bind (Le.mapM _ fun p _ => evalRec_le cfg hnk _ _ _) fun _ => Le.refl _
    | simple op l l' r r' h1 h2 =>
      rw [hk]
      simp only [evalRec]
      exact Le.bind (ih _ _ _ h1 hc) fun _ => Le.bind (ih _ _ _ h2 hc) fun _ => Le.refl _
    | integral e e' x lo lo' hi hi' hx h1 h2 h3 =>
      rw [hk]
      simp only [evalRec]
      exact Le.bind (ih _ _ _ h2 hc) fun _ => Le.bind (ih _ _ _ h3 hc) fun _ =>
        Le.bind (Le.mapM _ fun i _ => Le.bind (Le.mapM _ fun j _ => le_integral cfg hev h1 hx hc hnk _ _) fun _ => Le.refl _) fun _ => Le.refl _
    | bounds e x lo lo' hi hi' h2 h3 =>
      rw [hk]
      simp only [evalRec]
      exact Le.bind (ih _ _ _ h2 hc) fun _ => Le.bind (ih _ _ _ h3 hc) fun _ =>
        Le.bind (Le.mapM _ fun i _ => Le.bind (Le.mapM _ fun j _ => calculateIntegral_le cfg hle hnk _ _ _ _ _) fun _ => Le.refl _) fun _ => Le.refl _
    | derivative e e' x a a' hx h1 h2 =>
      rw [hk]
      simp only [evalRec]
      exact Le.bind (ih _ _ _ h2 hc) fun _ => Le.bind (Le.mapM _ fun i _ =>
          le_derivative .same cfg hev h1 hx hc _) fun _ => Le.refl _
    | point e x a a' h2 =>
      rw [hk]
      simp only [evalRec]
      exact Le.bind (ih _ _ _ h2 hc) fun _ => Le.bind (Le.mapM _ fun i _ =>
          calculateDerivative_le cfg hle _ _ _ _) fun _ => Le.refl _
    | equation es es' names hn h1 h2 =>
      rw [hk]
      simp only [evalRec]
      exact le_solveEquations .same cfg hev (fun l l' r r' h h' => .simple _ _ _ _ _ h h') h1 h2 hn hc

end
end MUL
