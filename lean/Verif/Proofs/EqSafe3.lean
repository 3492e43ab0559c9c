import Verif.Proofs.EqSafe2
/-!
# Trees with equations between formulas of numbers (for C80)
-/

namespace MUL
open Out Spec FArith

set_option linter.unusedSectionVars false

section
variable {F : Type} [FNum F]

theorem eqFree_number {Φ V : Str → Prop} {e : AST F} (h : NumberFormula Φ V e) : EqFree e := by
  induction h with
  | scalar s => exact .scalar s
  | list l _ _ ih => exact .list l ih
  | «variable» n _ => exact .variable n
  | function g args _ _ ih => exact .function g args ih
  | simple op l r _ _ il ir => exact .simple op l r il ir
  | integral e x a b _ _ ie => exact .integral e x _ _ ie (.scalar a) (.scalar b)
  | derivative e x a _ _ ie ia => exact .derivative e x a ie ia

theorem integralLoop_safe' {ev : Evaluator F} {expr : AST F} (x : Str) {vars : List (Variable F)} {funs : List (Function F)}
    (hev : ∀ s : F, Safe (fun vs => ∀ v ∈ vs, WFValue v) (ev expr ⟨vars ++ [⟨x, [.scalar s]⟩], funs⟩))
    (ub dx : F) (n : Nat) (b : F) (sums : List (Value F)) (hs : ∀ v ∈ sums, WFValue v) :
    Safe (fun vs => ∀ v ∈ vs, WFValue v) (integralLoop ev expr x vars funs ub dx n b sums) := by
  induction n generalizing b sums with
  | zero =>
    unfold integralLoop
    split
    · trivial
    · exact hs
  | succ n ih =>
    unfold integralLoop
    split
    · exact Post.bind (hev _) fun es he => Post.bind (accumulate_safe hs he) fun s hs => ih _ s hs
    · exact hs

theorem calculateIntegral_safe' (cfg : Cfg) {ev : Evaluator F} (fuel : Nat) {expr : AST F} (x : Str) (l u : Value F) {c : Context F}
    (hev : ∀ s : F, Safe (fun vs => ∀ v ∈ vs, WFValue v) (ev expr ⟨eraseFirstVar c.vars x ++ [⟨x, [.scalar s]⟩], c.funs⟩)) :
    Safe (fun vs => ∀ v ∈ vs, WFValue v) (calculateIntegral cfg ev fuel expr x l u c) := by
  unfold calculateIntegral
  cases l <;> cases u <;> try exact safe_err
  simp only
  split
  · refine safe_ok ?_
    intro v hv
    simp only [List.mem_cons, List.not_mem_nil, or_false] at hv; subst hv; trivial
  · refine Post.bind (integralLoop_safe' x hev _ _ _ _ [] (by simp)) fun s hs => ?_
    refine Post.mono (Post.mapM (P := WFValue) _ fun v hv => ?_) fun r hr => hr.2
    exact liftMath_safe (vMult_safe (hs v hv) trivial)

/-- What trees need of the context. -/
structure BothCtx (Φ V : Str → Prop) (c : Context F) : Prop where
  wf : WFCtx c
  num : NumberContext Φ V c

theorem bothCtx_bind {Φ V : Str → Prop} {c c' : Context F} (hc : BothCtx Φ V c) (x : Str) (s : F) (hf : c'.funs = c.funs)
    (hv : ∀ v ∈ c'.vars, v ∈ c.vars ∨ v.name = x ∧ Numbers v.values ∧ ∀ y ∈ v.values, WFValue y) :
    BothCtx Φ (fun n => V n ∨ n = x) ((c'.removeVar x).addVar ⟨x, [.scalar s]⟩) := by
  refine ⟨?_, numberContext_bind hc.num x s hf fun v h => (hv v h).imp id fun h => ⟨h.1, h.2.1⟩⟩
  refine (Spec.WFCtx.removeVar (c := c') ⟨fun v h => ?_, fun f h => ?_⟩ x).addVar ?_
  · rcases hv v h with h | h
    · exact hc.wf.vals v h
    · exact h.2.2
  · exact hc.wf.funs f (hf ▸ h)
  · intro y hy
    simp only [List.mem_cons, List.not_mem_nil, or_false] at hy; subst hy; trivial

theorem harmless_eqFree {Φ V : Str → Prop} {e : AST F} (h : EqFree e) : Harmless Φ V e := by
  induction h generalizing V with
  | scalar s => exact .scalar s
  | vector v hv _ ih => exact .vector v hv fun a ha => ih a ha
  | matrix m n h1 h2 h3 _ ih => exact .matrix m n h1 h2 h3 fun l hl a ha => ih l hl a ha
  | list l _ ih => exact .list l fun a ha => ih a ha
  | «variable» n => exact .variable n
  | function g args _ ih => exact .function g args fun a ha => ih a ha
  | simple op l r _ _ il ir => exact .simple op l r il ir
  | integral e x a b _ _ _ ie ia ib => exact .integral e x a b ie ia ib
  | derivative e x a _ _ ie ia => exact .derivative e x a ie ia

theorem calculateDerivative_safe' (cfg : Cfg) {Φ V : Str → Prop} {ev : Evaluator F} {expr : AST F} (x : Str)
    (hev : ∀ c', BothCtx Φ (fun n => V n ∨ n = x) c' → Safe (fun vs => ∀ v ∈ vs, WFValue v) (ev expr c'))
    (hsafe : SafeEv ev) (a : Value F) {c : Context F} (hc : BothCtx Φ V c) :
    Safe (fun vs => ∀ v ∈ vs, WFValue v) (calculateDerivative cfg ev expr x a c) := by
  unfold calculateDerivative
  cases a <;> try exact safe_err
  simp only [dropVar_eq]
  rename_i s
  have h1 := bothCtx_bind hc x s (c' := c) rfl fun v hv => Or.inl hv
  refine Post.bind (hev _ h1) fun fxs hfx => ?_
  have h2 := bothCtx_bind hc x (add s (powi (ofInt 10) (-(cfg.prec : Int))))
    (c' := (c.removeVar x).addVar ⟨x, [.scalar s]⟩) (by simp [Context.addVar, Context.removeVar]) fun v hv => by
      simp only [Context.addVar, Context.removeVar, List.mem_append, List.mem_filter, List.mem_singleton] at hv
      rcases hv with ⟨⟨h1, _⟩, _⟩ | rfl
      · exact Or.inl h1
      · exact Or.inr ⟨rfl, numbers_one _, by
          intro y hy
          simp only [List.mem_cons, List.not_mem_nil, or_false] at hy; subst hy; trivial⟩
  refine Post.bind (hev _ h2) fun fxhs hfxh => ?_
  split
  · exact safe_err
  · rename_i hlen
    have hlen : fxs.length = fxhs.length := by simpa using hlen
    refine Post.bind (Post.mapM (P := fun vs => ∀ v ∈ vs, WFValue v) _ fun i hi => ?_) fun r hr => ?_
    · have hi : i < fxs.length := List.mem_range.1 hi
      rw [idx_lt (show i < fxhs.length by omega), ok_bind, idx_lt hi, ok_bind]
      exact hsafe _ _ (eqFree_dq cfg (hfxh _ (List.getElem_mem _)) (hfx _ (List.getElem_mem _))) h2.wf
    · exact mem_flatten_forall hr.2

theorem equation_safe (cfg : Cfg) {Φ V : Str → Prop} {c : Context F} {es : List (AST F × AST F)} {names : List Str}
    (habs : ∀ a : F, IsFinite a → isNaN (FArith.abs a) = false) (hjs : ∀ j ∈ startValues, IsFinite (FArith.ofInt j : F))
    (n : Nat) (hc : NumberContext Φ V c) (hne : names ≠ [])
    (h1 : ∀ p ∈ es, NumberFormula Φ (fun n => V n ∨ n ∈ names) p.1)
    (h2 : ∀ p ∈ es, NumberFormula Φ (fun n => V n ∨ n ∈ names) p.2) :
    Safe (fun vs => ∀ v ∈ vs, WFValue v) (solveEquations cfg (fun a c => evalRec cfg n a c []) es c names) := by
  have hs := solveEquations_safe (cfg := cfg) (fun W a c ha hc => evalRec_numbers cfg Φ n W ha hc []) hc habs hjs hne h1 h2
  have he : eval cfg (n + 1) (.equation es names) c = solveEquations cfg (fun a c => evalRec cfg n a c []) es c names := by
    unfold eval
    rw [evalRec.eq_def]
  generalize solveEquations cfg (fun a c => evalRec cfg n a c []) es c names = r at hs he
  cases r with
  | panic => exact hs
  | err e => trivial
  | timeout => trivial
  | ok vs =>
    show ∀ v ∈ vs, WFValue v
    rcases equation_spec hjs he with rfl | ⟨search, check, results, _, _, hclean, m, hres⟩
    · simp
    · intro v hv
      obtain ⟨l, rfl, ha⟩ := hres v (cleanResults_sub hclean v hv)
      have hl := ha.len
      have hpos := List.length_pos_iff.2 hne
      rcases l with _ | ⟨a, _ | ⟨b, l⟩⟩
      · simp only [List.length_nil] at hl
        omega
      · trivial
      · exact List.cons_ne_nil _ _

theorem evalRec_harmless (cfg : Cfg) (Φ : Str → Prop)
    (habs : ∀ a : F, IsFinite a → isNaN (FArith.abs a) = false) (hjs : ∀ j ∈ startValues, IsFinite (FArith.ofInt j : F))
    (n : Nat) (V : Str → Prop) {b : AST F} (hb : Harmless Φ V b) {c : Context F} (hc : BothCtx Φ V c) (w : Str) :
    Safe (fun vs => ∀ v ∈ vs, WFValue v) (evalRec cfg n b c w) := by
  induction n generalizing b c w V with
  | zero => simp [evalRec]
  | succ n ih =>
    cases hb with
    | scalar s => exact evalRec_safe cfg _ (.scalar s) hc.wf w
    | vector v hne h =>
      simp only [evalRec]
      refine Post.bind (Post.mapM (P := fun _ => True) _ fun a ha => ?_) fun fields hf => ?_
      · exact Post.bind (ih V (h a ha) hc w) fun vs _ => allScalars_safe _ vs
      · rw [post_ok]
        intro x hx
        obtain ⟨p, hp, rfl⟩ := List.mem_map.1 hx
        rw [cartProd_eq_choices] at hp
        refine wf_vec ?_
        rw [(choices_forall₂ hp).length_eq, hf.1]
        exact List.length_pos_iff.2 hne
    | matrix m k hne hk hrect h =>
      simp only [evalRec]
      refine Post.bind (Post.mapM (P := fun (r : List (List F)) => r.length = k) _ fun l hl => ?_) fun rows hr => ?_
      · refine Post.mono (Post.mapM (P := fun _ => True) _ fun a ha => ?_) fun r hr => ?_
        · exact Post.bind (ih V (h l hl a ha) hc w) fun vs _ => allScalars_safe _ vs
        · rw [hr.1, hrect l hl]
      · rw [post_ok]
        intro x hx
        obtain ⟨p, hp, rfl⟩ := List.mem_map.1 hx
        rw [cartProd_eq_choices] at hp
        refine wf_rect (r := m.length) (c := k) (List.length_pos_iff.2 hne) hk ⟨?_, ?_⟩
        · rw [(choices_forall₂ hp).length_eq, List.length_map, hr.1]
        · refine choices_forall hp fun l hl => ?_
          obtain ⟨row, hrow, rfl⟩ := List.mem_map.1 hl
          intro q hq
          rw [cartProd_eq_choices] at hq
          rw [(choices_forall₂ hq).length_eq, hr.2 row hrow]
    | list l h =>
      simp only [evalRec]
      refine Post.bind (Post.mapM (P := fun vs => ∀ v ∈ vs, WFValue v) _ fun a ha => ih V (h a ha) hc w) fun vs hvs => ?_
      exact mem_flatten_forall hvs.2
    | «variable» x => exact evalRec_safe cfg _ (.variable x) hc.wf w
    | function f args h =>
      simp only [evalRec]
      split
      · trivial
      · split
        · trivial
        · rename_i g hg
          split
          · trivial
          · refine Post.bind (Post.mapM (P := fun vs => ∀ v ∈ vs, WFValue v) _ fun a ha => ih V (h a ha) hc w) fun vals hvals => ?_
            refine Post.bind (Post.mapM (P := fun vs => ∀ v ∈ vs, WFValue v) _ fun p hp => ?_) fun r hr => ?_
            · refine evalRec_safe cfg n (c := ⟨callVars g.inputs p c.vars, c.funs⟩) (hc.wf.funs g (List.mem_of_find?_eq_some hg))
                ⟨?_, hc.wf.funs⟩ _
              refine callVars_mem ?_ hc.wf.vals
              rintro ⟨nm, v⟩ hnv y hy
              simp only [List.mem_cons, List.not_mem_nil, or_false] at hy; subst hy
              rw [cartProd_eq_choices] at hp
              exact choices_forall hp hvals.2 _ (List.of_mem_zip hnv).2
            · exact mem_flatten_forall hr.2
    | simple op l r hl hr =>
      simp only [evalRec]
      refine Post.bind (ih V hl hc w) fun lv hlv => ?_
      refine Post.bind (ih V hr hc w) fun rv hrv => ?_
      exact applyAll_safe op hlv hrv
    | integral e x lo hi he hlo hhi =>
      simp only [evalRec]
      refine Post.bind (ih V hlo hc w) fun lv _ => ?_
      refine Post.bind (ih V hhi hc w) fun rv _ => ?_
      refine Post.bind (Post.mapM (P := fun vs => ∀ v ∈ vs, WFValue v) _ fun i _ => ?_) fun r hr => ?_
      · refine Post.bind (Post.mapM (P := fun vs => ∀ v ∈ vs, WFValue v) _ fun j _ => ?_) fun r hr => ?_
        · refine calculateIntegral_safe' cfg n x i j fun s => ih V he (c := ⟨eraseFirstVar c.vars x ++ [⟨x, [.scalar s]⟩], c.funs⟩)
            ⟨⟨fun v hv => ?_, hc.wf.funs⟩, ?_⟩ []
          · rcases List.mem_append.1 hv with hv | hv
            · exact hc.wf.vals v (List.mem_of_mem_eraseP hv)
            · simp only [List.mem_cons, List.not_mem_nil, or_false] at hv; subst hv
              intro y hy
              simp only [List.mem_cons, List.not_mem_nil, or_false] at hy; subst hy; trivial
          · refine hc.num.change rfl (fun _ h => h) fun v hv hV => ?_
            rcases List.mem_append.1 hv with hv | hv
            · exact Or.inl ⟨hV, List.mem_of_mem_eraseP hv⟩
            · simp only [List.mem_cons, List.not_mem_nil, or_false] at hv; subst hv
              exact Or.inr (numbers_one s)
        · exact mem_flatten_forall hr.2
      · exact mem_flatten_forall hr.2
    | derivative e x a he ha =>
      simp only [evalRec]
      refine Post.bind (ih V ha hc w) fun lv _ => ?_
      refine Post.bind (Post.mapM (P := fun vs => ∀ v ∈ vs, WFValue v) _ fun i _ => ?_) fun r hr => ?_
      · exact calculateDerivative_safe' cfg x (fun c' hc' => ih _ he hc' []) (fun a c ha hc => evalRec_safe cfg n ha hc []) i hc
      · exact mem_flatten_forall hr.2
    | equation es names hne h1 h2 =>
      simp only [evalRec]
      exact equation_safe cfg habs hjs n hc.num hne h1 h2

end
end MUL
