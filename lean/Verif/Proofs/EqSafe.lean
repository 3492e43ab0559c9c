import Verif.Spec.Safe
import Verif.Proofs.EvalSafe
import Verif.Proofs.Roots
/-!
# Equations between formulas of numbers do not panic (for C80)
-/

namespace MUL
open Out Spec FArith

set_option linter.unusedSectionVars false

section
variable {F : Type} [FNum F]

theorem Spec.NumberFormula.mono {Φ V W : Str → Prop} {e : AST F} (h : NumberFormula Φ V e) (hVW : ∀ n, V n → W n) :
    NumberFormula Φ W e := by
  induction h generalizing W with
  | scalar s => exact .scalar s
  | list l hl _ ih => exact .list l hl fun a ha => ih a ha hVW
  | «variable» n hn => exact .variable n (hVW n hn)
  | function g args hg _ ih => exact .function g args hg fun a ha => ih a ha hVW
  | simple op l r _ _ il ir => exact .simple op l r (il hVW) (ir hVW)
  | integral e x a b _ hab ie => exact .integral e x a b (ie hVW) hab
  | derivative e x a _ _ ie ia => exact .derivative e x a (ie fun n hn => hn.imp (hVW n) id) (ia hVW)

/-- Changing some variables to numbers keeps a context a context of numbers. -/
theorem Spec.NumberContext.change {Φ V W : Str → Prop} {c c' : Context F} (h : NumberContext Φ V c) (hf : c'.funs = c.funs)
    (hVW : ∀ n, V n → W n)
    (hv : ∀ v ∈ c'.vars, W v.name → (V v.name ∧ v ∈ c.vars) ∨ Numbers v.values) : NumberContext Φ W c' := by
  refine ⟨fun v hv' hW => ?_, fun f hf' hΦ => ?_⟩
  · rcases hv v hv' hW with ⟨h1, h2⟩ | h1
    · exact h.vars v h2 h1
    · exact h1
  · rw [hf] at hf'
    exact (h.funs f hf' hΦ).mono fun n hn => hn.imp (hVW n) id

theorem numbers_one (s : F) : Numbers [Value.scalar s] := ⟨by simp, by simp⟩

/-- An evaluator that maps formulas of numbers to numbers. -/
def NumEv (Φ : Str → Prop) (ev : Evaluator F) : Prop :=
  ∀ (W : Str → Prop) a c, NumberFormula Φ W a → NumberContext Φ W c → Safe Numbers (ev a c)

theorem numbers_flatten {r : List (List (Value F))} (hne : r ≠ []) (h : ∀ x ∈ r, Numbers x) : Numbers r.flatten := by
  refine ⟨?_, mem_flatten_forall fun x hx => (h x hx).2⟩
  obtain ⟨a, l, rfl⟩ := List.exists_cons_of_ne_nil hne
  have := (h a (by simp)).1
  simp [this]

theorem ne_nil_of_length {α β : Type} {l : List α} {r : List β} (h : r.length = l.length) (hl : l ≠ []) : r ≠ [] := by
  intro hr
  rw [hr] at h
  exact hl (List.length_eq_zero_iff.1 h.symm)

theorem applyOp_numbers (op : SimpleOp) (a b : F) : Safe Numbers (applyOp op (.scalar a) (.scalar b)) := by
  rcases h : lt a (ofInt 0) <;> cases op <;> simp [h, applyOp, vGet, vAdd, vSub, vMult, vNeg, vDiv, vCross, vPow, vSin, vCos, vTan, vAbs, vSqrt, vRoot, vLn, vArcsin,
    vArccos, vArctan, vDet, vInv, liftMath, sadd, ssmult, ssdiv, Out.mapErr, Numbers, ok_bind]

theorem applyAll_numbers (op : SimpleOp) {l r : List (Value F)} (hl : Numbers l) (hr : Numbers r) : Safe Numbers (applyAll op l r) := by
  unfold applyAll
  refine Post.bind (Post.mapM (P := Numbers) _ fun i hi => ?_) fun res hres => ?_
  · refine Post.bind (Post.mapM (P := Numbers) _ fun j hj => ?_) fun res hres => ?_
    · obtain ⟨a, rfl⟩ := hl.2 i hi
      obtain ⟨b, rfl⟩ := hr.2 j hj
      exact applyOp_numbers op a b
    · exact numbers_flatten (ne_nil_of_length hres.1 hr.1) hres.2
  · exact numbers_flatten (ne_nil_of_length hres.1 hl.1) hres.2

theorem accumulate_numbers {sums es : List (Value F)} (hs : ∀ v ∈ sums, ∃ s, v = .scalar s) (he : Numbers es) :
    Safe Numbers (accumulate sums es) := by
  obtain ⟨hne, he⟩ := he
  suffices h : ∀ sums : List (Value F), (∀ v ∈ sums, ∃ s, v = .scalar s) → ∀ es : List (Value F), (∀ v ∈ es, ∃ s, v = .scalar s) →
      Safe (fun r => (es ≠ [] → r ≠ []) ∧ ∀ v ∈ r, ∃ s, v = .scalar s) (accumulate sums es) from
    Post.mono (h sums hs es he) fun r hr => ⟨hr.1 hne, hr.2⟩
  clear hs hne he sums es
  intro sums hs es he
  induction es generalizing sums with
  | nil =>
    have : accumulate sums ([] : List (Value F)) = .ok sums := by cases sums <;> rfl
    rw [this]
    exact ⟨fun h => absurd rfl h, hs⟩
  | cons e es ih =>
    cases sums with
    | nil =>
      unfold accumulate
      refine Post.bind (ih [] (by simp) fun v hv => he v (by simp [hv])) fun r hr => ?_
      refine ⟨by simp, fun v hv => ?_⟩
      rcases List.mem_cons.1 hv with rfl | hv
      · exact he _ (by simp)
      · exact hr.2 v hv
    | cons s ss =>
      unfold accumulate
      obtain ⟨a, rfl⟩ := hs s (by simp)
      obtain ⟨b, rfl⟩ := he e (by simp)
      simp only [vAdd, sadd, liftMath, Out.mapErr, ok_bind]
      refine Post.bind (ih ss (fun v hv => hs v (by simp [hv])) fun v hv => he v (by simp [hv])) fun r hr => ?_
      refine ⟨by simp, fun v hv => ?_⟩
      rcases List.mem_cons.1 hv with rfl | hv
      · exact ⟨_, rfl⟩
      · exact hr.2 v hv

theorem integralLoop_numbers {Φ V : Str → Prop} {ev : Evaluator F} (hev : NumEv Φ ev) {e : AST F} (x : Str) (he : NumberFormula Φ V e)
    {c : Context F} (hc : NumberContext Φ V c) (ub dx : F) (n : Nat) (b : F) (sums : List (Value F))
    (hs : ∀ v ∈ sums, ∃ s, v = .scalar s) (hne : sums ≠ [] ∨ lt b ub = true) :
    Safe Numbers (integralLoop ev e x c.vars c.funs ub dx n b sums) := by
  induction n generalizing b sums with
  | zero =>
    unfold integralLoop
    split
    · trivial
    · rename_i hlt
      exact ⟨hne.resolve_right hlt, hs⟩
  | succ n ih =>
    unfold integralLoop
    split
    · refine Post.bind (hev V e _ he (hc.change rfl (fun _ h => h) fun v hv hV => ?_)) fun es hes => ?_
      · rcases List.mem_append.1 hv with hv | hv
        · exact Or.inl ⟨hV, hv⟩
        · rw [List.mem_singleton] at hv
          subst hv
          exact Or.inr (numbers_one _)
      · exact Post.bind (accumulate_numbers hs hes) fun s hs => ih _ s hs.2 (Or.inl hs.1)
    · rename_i hlt
      exact ⟨hne.resolve_right hlt, hs⟩

theorem calculateIntegral_numbers {Φ V : Str → Prop} (cfg : Cfg) {ev : Evaluator F} (hev : NumEv Φ ev) (fuel : Nat) {e : AST F} (x : Str)
    (he : NumberFormula Φ V e) {a b : F} (hab : beq a b = true ∨ lt a b = true ∨ lt b a = true) {c : Context F}
    (hc : NumberContext Φ V c) : Safe Numbers (calculateIntegral cfg ev fuel e x (.scalar a) (.scalar b) c) := by
  unfold calculateIntegral
  simp only
  split
  · exact numbers_one _
  · rename_i hne
    refine Post.bind (integralLoop_numbers hev x he (c := ⟨eraseFirstVar c.vars x, c.funs⟩)
      (hc.change rfl (fun _ h => h) fun v hv hV => Or.inl ⟨hV, List.mem_of_mem_eraseP hv⟩) _ _ _ _ [] (by simp) ?_) fun s hs => ?_
    · right
      by_cases h : lt b a = true
      · rw [if_pos h, if_pos h]; exact h
      · rw [if_neg h, if_neg h]
        exact (hab.resolve_left hne).resolve_right h
    · refine Post.mono (Post.mapM (P := fun v => ∃ s, v = .scalar s) _ fun v hv => ?_) fun r hr =>
        ⟨ne_nil_of_length hr.1 hs.1, hr.2⟩
      obtain ⟨y, rfl⟩ := hs.2 v hv
      exact ⟨_, rfl⟩

theorem numberFormula_dq {Φ V : Str → Prop} (cfg : Cfg) (a b : F) : NumberFormula Φ V (differenceQuotient cfg (.scalar a) (.scalar b)) :=
  .simple _ _ _ (.simple _ _ _ (.scalar _) (.scalar _)) (.scalar _)

theorem numberContext_bind {Φ V : Str → Prop} {c c' : Context F} (hc : NumberContext Φ V c) (x : Str) (s : F) (hf : c'.funs = c.funs)
    (hv : ∀ v ∈ c'.vars, v ∈ c.vars ∨ v.name = x ∧ Numbers v.values) :
    NumberContext Φ (fun n => V n ∨ n = x) ((c'.removeVar x).addVar ⟨x, [.scalar s]⟩) := by
  refine hc.change (by simp [Context.addVar, Context.removeVar, hf]) (fun _ h => Or.inl h) fun v hv' hV => ?_
  simp only [Context.addVar, Context.removeVar, List.mem_append, List.mem_filter, List.mem_singleton] at hv'
  rcases hv' with ⟨⟨h1, h2⟩, h3⟩ | rfl
  · have hx : v.name ≠ x := by simpa using h2
    rcases hv v h1 with h | h
    · exact Or.inl ⟨hV.resolve_right hx, h⟩
    · exact Or.inr h.2
  · exact Or.inr (numbers_one _)

theorem calculateDerivative_numbers {Φ V : Str → Prop} (cfg : Cfg) {ev : Evaluator F} (hev : NumEv Φ ev) {e : AST F} (x : Str)
    (he : NumberFormula Φ (fun n => V n ∨ n = x) e) (s : F) {c : Context F} (hc : NumberContext Φ V c) :
    Safe Numbers (calculateDerivative cfg ev e x (.scalar s) c) := by
  unfold calculateDerivative
  simp only [dropVar_eq]
  have h1 := numberContext_bind hc x s (c' := c) rfl fun v hv => Or.inl hv
  refine Post.bind (hev _ _ _ he h1) fun fxs hfx => ?_
  have h2 := numberContext_bind hc x (add s (powi (ofInt 10) (-(cfg.prec : Int))))
    (c' := (c.removeVar x).addVar ⟨x, [.scalar s]⟩) (by simp [Context.addVar, Context.removeVar]) fun v hv => by
      simp only [Context.addVar, Context.removeVar, List.mem_append, List.mem_filter, List.mem_singleton] at hv
      rcases hv with ⟨⟨h1, _⟩, _⟩ | rfl
      · exact Or.inl h1
      · exact Or.inr ⟨rfl, numbers_one _⟩
  refine Post.bind (hev _ _ _ he h2) fun fxhs hfxh => ?_
  split
  · exact safe_err
  · rename_i hlen
    have hlen : fxs.length = fxhs.length := by simpa using hlen
    refine Post.bind (Post.mapM (P := Numbers) _ fun i hi => ?_) fun r hr => ?_
    · have hi : i < fxs.length := List.mem_range.1 hi
      rw [idx_lt (show i < fxhs.length by omega), ok_bind, idx_lt hi, ok_bind]
      obtain ⟨u, hu⟩ := hfx.2 _ (List.getElem_mem hi)
      obtain ⟨w, hw⟩ := hfxh.2 _ (List.getElem_mem (show i < fxhs.length by omega))
      rw [hu, hw]
      exact hev _ _ _ (numberFormula_dq cfg _ _) h2
    · refine numbers_flatten (ne_nil_of_length hr.1 ?_) hr.2
      intro h0
      have := congrArg List.length h0
      simp only [List.length_range, List.length_nil] at this
      exact hfx.1 (List.length_eq_zero_iff.1 this)

theorem choices_ne_nil {α : Type} {l : List (List α)} (h : ∀ x ∈ l, x ≠ []) : choices l ≠ [] := by
  induction l with
  | nil => simp [choices]
  | cons a l ih =>
    have h1 := h a (by simp)
    have h2 := ih fun x hx => h x (by simp [hx])
    obtain ⟨y, a, rfl⟩ := List.exists_cons_of_ne_nil h1
    obtain ⟨z, m, hm⟩ := List.exists_cons_of_ne_nil h2
    simp [choices, hm]

/-- The variables of a call: the parameters, and the other variables of the context. -/
theorem callVars_param {inputs : List Str} {p : List (Value F)} {vars : List (Variable F)} (hlen : inputs.length = p.length) :
    ∀ v ∈ callVars inputs p vars, (∃ np ∈ inputs.zip p, v = ⟨np.1, [np.2]⟩) ∨ (v ∈ vars ∧ v.name ∉ inputs) := by
  unfold callVars
  have : ∀ (vs acc : List (Variable F)), (∀ n ∈ inputs, n ∈ acc.map (·.name)) → (∀ v ∈ vs, v ∈ vars) →
      (∀ v ∈ acc, (∃ np ∈ inputs.zip p, v = ⟨np.1, [np.2]⟩) ∨ (v ∈ vars ∧ v.name ∉ inputs)) →
      ∀ v ∈ vs.foldl (fun acc i => if (acc.map (·.name)).contains i.name then acc else acc ++ [i]) acc,
        (∃ np ∈ inputs.zip p, v = ⟨np.1, [np.2]⟩) ∨ (v ∈ vars ∧ v.name ∉ inputs) := by
    intro vs
    induction vs with
    | nil => intro acc _ _ h; exact h
    | cons u us ih =>
      intro acc h1 h2 h3
      simp only [List.foldl_cons]
      refine ih _ ?_ (fun v hv => h2 v (by simp [hv])) ?_
      · split
        · exact h1
        · intro n hn
          rw [List.map_append]
          exact List.mem_append_left _ (h1 n hn)
      · split
        · exact h3
        · rename_i hnc
          intro v hv
          rcases List.mem_append.1 hv with hv | hv
          · exact h3 v hv
          · rw [List.mem_singleton] at hv
            subst hv
            refine Or.inr ⟨h2 _ (by simp), fun hn => hnc ?_⟩
            exact List.contains_iff_mem.2 (h1 _ hn)
  refine this vars _ ?_ (fun v hv => hv) ?_
  · intro n hn
    rw [List.map_map]
    have : (inputs.zip p).map Prod.fst = inputs := List.map_fst_zip (by omega)
    rw [← this] at hn
    exact hn
  · intro v hv
    obtain ⟨np, hnp, rfl⟩ := List.mem_map.1 hv
    exact Or.inl ⟨np, hnp, rfl⟩

theorem evalRec_numbers (cfg : Cfg) (Φ : Str → Prop) (n : Nat) (W : Str → Prop) {b : AST F} (hb : NumberFormula Φ W b) {c : Context F}
    (hc : NumberContext Φ W c) (w : Str) : Safe Numbers (evalRec cfg n b c w) := by
  induction n generalizing b c w W with
  | zero => simp [evalRec]
  | succ n ih =>
    have hev : NumEv Φ (fun a c => evalRec (F := F) cfg n a c []) := fun W a c ha hc => ih W ha hc []
    cases hb with
    | scalar s =>
      simp only [evalRec]
      exact numbers_one _
    | list l hne h =>
      simp only [evalRec]
      refine Post.bind (Post.mapM (P := Numbers) _ fun a ha => ih W (h a ha) hc w) fun vs hvs => ?_
      exact numbers_flatten (ne_nil_of_length hvs.1 hne) hvs.2
    | «variable» x hx =>
      simp only [evalRec]
      cases hf : c.findVar x with
      | none => trivial
      | some vs =>
        simp only [Context.findVar, Option.map_eq_some_iff] at hf
        obtain ⟨v, hv, rfl⟩ := hf
        have hn : v.name = x := by simpa using List.find?_some hv
        exact hc.vars v (List.mem_of_find?_eq_some hv) (hn ▸ hx)
    | function f args hΦ h =>
      simp only [evalRec]
      split
      · trivial
      · split
        · trivial
        · rename_i g hg
          have hgn : g.name = f := by simpa using List.find?_some hg
          split
          · trivial
          · rename_i hlen
            refine Post.bind (Post.mapM (P := Numbers) _ fun a ha => ih W (h a ha) hc w) fun vals hvals => ?_
            refine Post.bind (Post.mapM (P := Numbers) _ fun p hp => ?_) fun r hr => ?_
            · rw [cartProd_eq_choices] at hp
              have hpl : p.length = vals.length := (choices_forall₂ hp).length_eq
              refine ih (fun n => W n ∨ n ∈ g.inputs) (c := ⟨callVars g.inputs p c.vars, c.funs⟩)
                (hc.funs g (List.mem_of_find?_eq_some hg) (hgn ▸ hΦ)) (hc.change rfl (fun _ h => Or.inl h) fun v hv hV => ?_) _
              rcases callVars_param (by rw [hpl, hvals.1]; exact (not_not.1 hlen).symm) v hv with ⟨np, hnp, rfl⟩ | ⟨h1, h2⟩
              · obtain ⟨s, hs⟩ := choices_forall hp (P := fun v => ∃ s, v = .scalar s) (fun l hl => (hvals.2 l hl).2) _
                  (List.of_mem_zip (a := np.1) (b := np.2) hnp).2
                right
                simp only [hs]
                exact numbers_one _
              · exact Or.inl ⟨hV.resolve_right h2, h1⟩
            · refine numbers_flatten (ne_nil_of_length hr.1 ?_) hr.2
              rw [cartProd_eq_choices]
              exact choices_ne_nil fun x hx => (hvals.2 x hx).1
    | simple op l r hl hr =>
      simp only [evalRec]
      refine Post.bind (ih W hl hc w) fun lv hlv => ?_
      refine Post.bind (ih W hr hc w) fun rv hrv => ?_
      exact applyAll_numbers op hlv hrv
    | integral e x lo hi he hab =>
      cases n with
      | zero => simp [evalRec]
      | succ n =>
        rw [evalRec.eq_def]
        simp only
        have h1 : ∀ a : F, evalRec cfg (n + 1) (.scalar a) c w = .ok [.scalar a] := fun a => by simp [evalRec]
        rw [h1, h1, ok_bind, ok_bind]
        refine Post.bind (Post.mapM (P := Numbers) _ fun i hi' => ?_) fun r hr => ?_
        · refine Post.bind (Post.mapM (P := Numbers) _ fun j hj => ?_) fun r hr => ?_
          · rw [List.mem_singleton] at hi' hj
            subst hi' hj
            exact calculateIntegral_numbers cfg hev _ x he hab hc
          · exact numbers_flatten (ne_nil_of_length hr.1 (by simp)) hr.2
        · exact numbers_flatten (ne_nil_of_length hr.1 (by simp)) hr.2
    | derivative e x a he ha =>
      simp only [evalRec]
      refine Post.bind (ih W ha hc w) fun lv hlv => ?_
      refine Post.bind (Post.mapM (P := Numbers) _ fun i hi => ?_) fun r hr => ?_
      · obtain ⟨s, rfl⟩ := hlv.2 i hi
        exact calculateDerivative_numbers cfg hev x he s hc
      · exact numbers_flatten (ne_nil_of_length hr.1 hlv.1) hr.2

end
end MUL
