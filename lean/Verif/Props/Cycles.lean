import Verif.Props.EvalCtx
import Verif.Props.Combinatorics
/-!
# C23: functions that depend on each other in a circle have no values
-/

set_option linter.unusedSectionVars false

namespace MUL
open Out Spec

variable {F : Type} [FNum F]

theorem mapM_empty {ε α β : Type} {f : α → Out ε (List β)} {l : List α} {r : List (List β)} (h : l.mapM f = .ok r)
    (hf : ∀ a ∈ l, ∀ b, f a = .ok b → b = []) : r.flatten = [] := by
  have := mapM_eq_ok.1 h
  clear h
  induction this with
  | nil => rfl
  | cons ha _ ih =>
    rw [List.flatten_cons, hf _ (by simp) _ ha, ih fun a ha => hf a (by simp [ha])]
    rfl

theorem mapM_mem_empty {ε α β : Type} {f : α → Out ε (List β)} {l : List α} {r : List (List β)} (h : l.mapM f = .ok r) {a : α} (ha : a ∈ l)
    (hf : ∀ b, f a = .ok b → b = []) : [] ∈ r := by
  have := mapM_eq_ok.1 h
  clear h
  induction this with
  | nil => cases ha
  | cons hb _ ih =>
    rcases List.mem_cons.1 ha with rfl | ha
    · rw [hf _ hb]; simp
    · exact List.mem_cons_of_mem _ (ih ha)

theorem allScalars_nil {e : EvalError} {r : List F} (h : allScalars e ([] : List (Value F)) = .ok r) : r = [] := by
  unfold allScalars at h
  rw [List.mapM_nil] at h
  cases h
  rfl

theorem applyAll_empty {op : SimpleOp} {lv rv vs : List (Value F)} (h : lv = [] ∨ rv = []) (hv : applyAll op lv rv = .ok vs) : vs = [] := by
  unfold applyAll at hv
  obtain ⟨r, hr, hv⟩ := bind_eq_ok.1 hv
  cases hv
  refine mapM_empty hr fun a ha b hb => ?_
  rcases h with rfl | rfl
  · cases ha
  · cases hb
    rfl

theorem new_fails {ev : Evaluator F} {e : AST F} {es : List (AST F)} {ctx : Context F} {names : List Str} {rf : RootFinder F}
    (h : ∀ c : Context F, c.funs = ctx.funs → ∀ vs, ev e c = .ok vs → vs = []) : RootFinder.new ev (e :: es) ctx names ≠ .ok rf := by
  intro hn
  unfold RootFinder.new at hn
  split at hn
  · cases hn
  split at hn
  · cases hn
  split at hn
  · cases hn
  split at hn
  · cases hn
  obtain ⟨e0, h0, hn⟩ := bind_eq_ok.1 hn
  obtain rfl : e = e0 := by
    simp only [idx, List.getElem?_cons_zero] at h0
    cases h0
    rfl
  obtain ⟨r, hr, hn⟩ := bind_eq_ok.1 hn
  have hfuns : ∀ (ns : List Str) (c : Context F) (g : Str → Variable F), (ns.foldl (fun c i => c.addVar (g i)) c).funs = c.funs := by
    intro ns
    induction ns with
    | nil => intros; rfl
    | cons a ns ih => intro c g; rw [List.foldl_cons, ih]; rfl
  rw [h _ (hfuns _ _ _) _ hr] at hn
  obtain ⟨v, hv, -⟩ := bind_eq_ok.1 hn
  cases hv

/-- C23: if every function in `S` needs a call of a function in `S` (itself, or others in a circle), an expression that needs such a call
never evaluates to a value: the evaluation fails, panics, never returns, or has an empty result (because an argument has no value). -/
theorem C23_cycle (cfg : Cfg) (S : Str → Prop) (funs : List (Function F))
    (hS : ∀ f, S f → ∀ g ∈ funs, g.name = f → NeedsCall S g.ast)
    {b : AST F} (h : NeedsCall S b) (n : Nat) (vars : List (Variable F)) (w : Str) (vs : List (Value F))
    (hv : evalRec cfg n b ⟨vars, funs⟩ w = .ok vs) : vs = [] := by
  induction n generalizing b vars w vs with
  | zero => simp [evalRec] at hv
  | succ n ih =>
    cases h with
    | here f args hf =>
      simp only [evalRec] at hv
      split at hv
      · cases hv
      · split at hv
        · cases hv
        · rename_i g hg
          split at hv
          · cases hv
          · obtain ⟨ins, _, hv⟩ := bind_eq_ok.1 hv
            obtain ⟨res, hres, hv⟩ := bind_eq_ok.1 hv
            cases hv
            refine mapM_empty hres fun p _ r hr => ?_
            have hm := List.mem_of_find?_eq_some hg
            have hn : g.name = f := by simpa using List.find?_some hg
            exact ih (hS f hf g hm hn) _ _ _ hr
    | vector v a ha h =>
      simp only [evalRec] at hv
      obtain ⟨fields, hfs, hv⟩ := bind_eq_ok.1 hv
      cases hv
      have : [] ∈ fields := mapM_mem_empty hfs ha fun r hr => by
        obtain ⟨ws, h1, h2⟩ := bind_eq_ok.1 hr
        rw [ih h _ _ _ h1] at h2
        exact allScalars_nil h2
      rw [(C03_empty fields).2 this]
      rfl
    | matrix m r a hr ha h =>
      simp only [evalRec] at hv
      obtain ⟨rows, hrs, hv⟩ := bind_eq_ok.1 hv
      cases hv
      have : [] ∈ rows.map cartProd := by
        obtain ⟨i, hi, rfl⟩ := List.getElem_of_mem hr
        have hf2 := List.forall₂_iff_get.1 (mapM_eq_ok.1 hrs)
        have hi' : i < rows.length := hf2.1 ▸ hi
        have := hf2.2 i hi hi'
        refine List.mem_map.2 ⟨rows[i], List.getElem_mem _, ?_⟩
        refine (C03_empty _).2 (mapM_mem_empty this ha fun r hr => ?_)
        obtain ⟨ws, h1, h2⟩ := bind_eq_ok.1 hr
        rw [ih h _ _ _ h1] at h2
        exact allScalars_nil h2
      rw [(C03_empty _).2 this]
      rfl
    | arg g args a ha h =>
      simp only [evalRec] at hv
      split at hv
      · cases hv
      · split at hv
        · cases hv
        · split at hv
          · cases hv
          · obtain ⟨ins, hins, hv⟩ := bind_eq_ok.1 hv
            have : [] ∈ ins := mapM_mem_empty hins ha fun r hr => ih h _ _ _ hr
            rw [(C03_empty _).2 this] at hv
            cases hv
            rfl
    | left op l r h =>
      simp only [evalRec] at hv
      obtain ⟨lv, h1, hv⟩ := bind_eq_ok.1 hv
      obtain ⟨rv, h2, hv⟩ := bind_eq_ok.1 hv
      exact applyAll_empty (Or.inl (ih h _ _ _ h1)) hv
    | right op l r h =>
      simp only [evalRec] at hv
      obtain ⟨lv, h1, hv⟩ := bind_eq_ok.1 hv
      obtain ⟨rv, h2, hv⟩ := bind_eq_ok.1 hv
      exact applyAll_empty (Or.inr (ih h _ _ _ h2)) hv
    | lower e x l u h =>
      simp only [evalRec] at hv
      obtain ⟨lv, h1, hv⟩ := bind_eq_ok.1 hv
      obtain ⟨rv, h2, hv⟩ := bind_eq_ok.1 hv
      rw [ih h _ _ _ h1] at hv
      cases hv
      rfl
    | upper e x l u h =>
      simp only [evalRec] at hv
      obtain ⟨lv, h1, hv⟩ := bind_eq_ok.1 hv
      obtain ⟨rv, h2, hv⟩ := bind_eq_ok.1 hv
      rw [ih h _ _ _ h2] at hv
      obtain ⟨res, hres, hv⟩ := bind_eq_ok.1 hv
      cases hv
      refine mapM_empty hres fun a _ b hb => ?_
      cases hb
      rfl
    | at_ e x a h =>
      simp only [evalRec] at hv
      obtain ⟨lv, h1, hv⟩ := bind_eq_ok.1 hv
      rw [ih h _ _ _ h1] at hv
      cases hv
      rfl
    | expr e x a h =>
      simp only [evalRec] at hv
      obtain ⟨lv, h1, hv⟩ := bind_eq_ok.1 hv
      obtain ⟨res, hres, hv⟩ := bind_eq_ok.1 hv
      cases hv
      refine mapM_empty hres fun s _ b hb => ?_
      cases s with
      | scalar s =>
        simp only [calculateDerivative, dropVar_eq] at hb
        obtain ⟨fxs, g1, hb⟩ := bind_eq_ok.1 hb
        obtain ⟨fxhs, g2, hb⟩ := bind_eq_ok.1 hb
        rw [ih h _ _ _ g1, ih h _ _ _ g2] at hb
        simp only [ne_eq, not_true_eq_false, if_false, List.length_nil, List.range_zero, List.mapM_nil] at hb
        cases hb
        rfl
      | vector v => cases hb
      | matrix m => cases hb
    | eqLeft l r eqs names h =>
      simp only [evalRec, solveEquations] at hv
      obtain ⟨rf, hrf, -⟩ := bind_eq_ok.1 hv
      exact absurd hrf (new_fails fun c hc vs hvs => ih (.left .sub l r h) c.vars [] vs (by
        have e : (⟨c.vars, funs⟩ : Context F) = c := by rw [← (show c.funs = funs from hc)]
        rw [e]; exact hvs))
    | eqRight l r eqs names h =>
      simp only [evalRec, solveEquations] at hv
      obtain ⟨rf, hrf, -⟩ := bind_eq_ok.1 hv
      exact absurd hrf (new_fails fun c hc vs hvs => ih (.right .sub l r h) c.vars [] vs (by
        have e : (⟨c.vars, funs⟩ : Context F) = c := by rw [← (show c.funs = funs from hc)]
        rw [e]; exact hvs))

/-- `f(x) = 1+g(x)` and `g(x) = D(f(x),x,x)`: `2*f(3)` has no value, whatever else is defined. -/
example (cfg : Cfg) (n : Nat) (vars : List (Variable F)) (one two three : F) (vs : List (Value F)) :
    eval cfg n (.simple .mult (.scalar two) (.function ['f'] [.scalar three]))
      ⟨vars, [⟨['f'], .simple .add (.scalar one) (.function ['g'] [.variable ['x']]), [['x']]⟩,
        ⟨['g'], .derivative (.function ['f'] [.variable ['x']]) ['x'] (.variable ['x']), [['x']]⟩]⟩ = .ok vs → vs = [] := by
  refine C23_cycle cfg (fun f => f = ['f'] ∨ f = ['g']) _ (fun f hf g hg hn => ?_) (.right _ _ _ (.here _ _ (Or.inl rfl))) n vars [] vs
  simp only [List.mem_cons, List.not_mem_nil, or_false] at hg
  rcases hg with rfl | rfl
  · exact .right _ _ _ (.here _ _ (Or.inr rfl))
  · exact .expr _ _ _ (.here _ _ (Or.inl rfl))

/-- C23: recursion through an equation ends, with an error: with `f(x) = eq(f(x)=y,y)` the inner call meets the search variable `y` as a
variable of the context. -/
theorem C23_equation_fails (cfg : Cfg) (v : Value F) :
    Finishes (fun n => eval cfg n (.function ['f'] [.variable ['x']])
      ⟨[⟨['x'], [v]⟩], [⟨['f'], .equation [(.function ['f'] [.variable ['x']], .variable ['y'])] [['y']], [['x']]⟩]⟩) (.err .searchVarsInVars) :=
  ⟨by simp, 8, rfl⟩

end MUL
