import Verif.Proofs.Reread
import Verif.Proofs.AstInd
/-!
# C59: printed trees and what they mean when read back
-/

set_option linter.unusedSectionVars false
set_option linter.unusedSimpArgs false

namespace MUL
open Spec Out FArith

section
variable [UTable] {F : Type} [FNum F] [TextLaws F]

/-- **C59.** Reading back the printed form of any tree of the readable fragment (numbers, names, parentheses, calls,
vectors, matrices, lists, `+ - * / ^`, juxtaposition, unary minus, the built-in functions except `abs`, `root`,
integrals, derivatives) gives that tree, with the numbers rounded to the printed precision, exponents in parentheses
and, without the `row-major` feature, matrices transposed. -/
theorem C59_tree (cfg : Cfg) (e : Ex) (hw : e.WF) (hr : e.Readable F cfg) :
    parse cfg ((e.tree cfg : AST F).asString cfg) = .ok (reread cfg (e.tree cfg : AST F)) := by
  obtain ⟨e', h⟩ := rr_exists (F := F) cfg e hw hr
  rw [← h.tree]
  exact C09_parse_text_blanks cfg e' h.wf _ h.text

end

section
variable {F : Type} [FNum F]

/-- Equal up to parentheses around exponents. -/
inductive ParenEq : AST F → AST F → Prop
  | scalar (s : F) : ParenEq (.scalar s) (.scalar s)
  | vector (v v' : List (AST F)) : List.Forall₂ ParenEq v v' → ParenEq (.vector v) (.vector v')
  | matrix (m m' : List (List (AST F))) : List.Forall₂ (List.Forall₂ ParenEq) m m' → ParenEq (.matrix m) (.matrix m')
  | list (v v' : List (AST F)) : List.Forall₂ ParenEq v v' → ParenEq (.list v) (.list v')
  | variable (n : Str) : ParenEq (.variable n) (.variable n)
  | function (n : Str) (v v' : List (AST F)) : List.Forall₂ ParenEq v v' → ParenEq (.function n v) (.function n v')
  | simple (op : SimpleOp) (l r l' r' : AST F) : ParenEq l l' → ParenEq r r' → ParenEq (.simple op l r) (.simple op l' r')
  | pow (l r l' r' : AST F) (z : F) : ParenEq l l' → ParenEq r r' →
      ParenEq (.simple .pow l r) (.simple .pow l' (.simple .parenths r' (.scalar z)))
  | integral (e : AST F) (x : Str) (lo hi e' lo' hi' : AST F) : ParenEq e e' → ParenEq lo lo' → ParenEq hi hi' →
      ParenEq (.integral e x lo hi) (.integral e' x lo' hi')
  | derivative (e : AST F) (x : Str) (a e' a' : AST F) : ParenEq e e' → ParenEq a a' → ParenEq (.derivative e x a) (.derivative e' x a')
  | equation (es : List (AST F × AST F)) (vs : List Str) : ParenEq (.equation es vs) (.equation es vs)

theorem ParenEq.refl (t : AST F) : ParenEq t t := by
  induction t using AST.ind with
  | scalar s => exact .scalar s
  | vector v ih => exact .vector _ _ (List.forall₂_same.2 ih)
  | matrix m ih => exact .matrix _ _ (List.forall₂_same.2 fun r hr => List.forall₂_same.2 (ih r hr))
  | list v ih => exact .list _ _ (List.forall₂_same.2 ih)
  | var n => exact .variable n
  | function n v ih => exact .function _ _ _ (List.forall₂_same.2 ih)
  | simple op l r hl hr => exact .simple _ _ _ _ _ hl hr
  | integral e x l u he hl hu => exact .integral _ _ _ _ _ _ _ he hl hu
  | derivative e x a he ha => exact .derivative _ _ _ _ _ he ha
  | equation es vs _ => exact .equation es vs

theorem forall₂_rereadAll {cfg : Cfg} {v : List (AST F)} (h : ∀ a ∈ v, ParenEq a (reread cfg a)) :
    List.Forall₂ ParenEq v (rereadAll cfg v) := by
  induction v with
  | nil => exact .nil
  | cons a v ih => exact .cons (h a (by simp)) (ih fun b hb => h b (by simp [hb]))

theorem forall₂_rereadRows {cfg : Cfg} {v : List (List (AST F))} (h : ∀ r ∈ v, ∀ a ∈ r, ParenEq a (reread cfg a)) :
    List.Forall₂ (List.Forall₂ ParenEq) v (rereadRows cfg v) := by
  induction v with
  | nil => exact .nil
  | cons a v ih => exact .cons (forall₂_rereadAll (h a (by simp))) (ih fun b hb => h b (by simp [hb]))

theorem parenEq_reread {cfg : Cfg} {t : AST F} (h : Unrounded cfg t) : ParenEq t (reread cfg t) := by
  induction h with
  | scalar s h => simp only [reread, h]; exact .scalar s
  | vector v _ ih => exact .vector _ _ (forall₂_rereadAll ih)
  | matrix m hc _ ih => simp only [reread, hc, if_true]; exact .matrix _ _ (forall₂_rereadRows ih)
  | list v _ ih => exact .list _ _ (forall₂_rereadAll ih)
  | «variable» n => exact .variable n
  | function n l _ ih => exact .function _ _ _ (forall₂_rereadAll ih)
  | neg z r _ ih => simp only [reread, if_true]; exact .simple _ _ _ _ _ (.refl z) ih
  | one op l z ho _ ih =>
    have : op ≠ .neg := by rintro rfl; revert ho; decide
    simp only [reread, if_neg this, if_pos ho]
    exact .simple _ _ _ _ _ ih (.refl z)
  | two op l r ho hn _ _ ihl ihr =>
    simp only [reread, if_neg ho, if_neg hn]
    split
    · rename_i h
      subst h
      exact .pow _ _ _ _ _ ihl ihr
    · exact .simple _ _ _ _ _ ihl ihr
  | integral e x lo hi _ _ _ h1 h2 h3 => exact .integral _ _ _ _ _ _ _ h1 h2 h3
  | derivative e x a _ _ h1 h2 => exact .derivative _ _ _ _ _ h1 h2

/-! Evaluation up to parentheses around exponents -/

theorem Le.mapM₂ {ε α α' β : Type} {f : α → Out ε β} {g : α' → Out ε β} {l : List α} {l' : List α'} {R : α → α' → Prop}
    (h : List.Forall₂ R l l') (hfg : ∀ a a', R a a' → Le (f a) (g a')) : Le (l.mapM f) (l'.mapM g) := by
  induction h with
  | nil => exact Le.refl _
  | cons h1 _ ih =>
    simp only [List.mapM_cons]
    exact Le.bind (hfg _ _ h1) fun _ => Le.bind ih fun _ => Le.refl _

theorem integralLoop_le₂ {ev ev' : Evaluator F} {e e' : AST F} (h : ∀ c, Le (ev e c) (ev' e' c)) (x : Str)
    (vars : List (Variable F)) (funs : List (Function F)) (ub dx : F) {n m : Nat} (hnm : n ≤ m) (b : F)
    (sums : List (Value F)) :
    Le (integralLoop ev e x vars funs ub dx n b sums) (integralLoop ev' e' x vars funs ub dx m b sums) := by
  induction n generalizing m b sums with
  | zero =>
    unfold integralLoop
    split
    · exact Or.inl rfl
    · right
      cases m <;> simp_all [integralLoop]
  | succ n ih =>
    obtain ⟨m, rfl⟩ : ∃ k, m = k + 1 := ⟨m - 1, by omega⟩
    unfold integralLoop
    refine Le.ite ?_ (Le.refl _)
    refine Le.bind (h _) fun evals => Le.bind (Le.refl _) fun s => ih (by omega) _ _

theorem calculateIntegral_le₂ (cfg : Cfg) {ev ev' : Evaluator F} {e e' : AST F} (h : ∀ c, Le (ev e c) (ev' e' c))
    {n m : Nat} (hnm : n ≤ m) (x : Str) (l u : Value F) (ctx : Context F) :
    Le (calculateIntegral cfg ev n e x l u ctx) (calculateIntegral cfg ev' m e' x l u ctx) := by
  unfold calculateIntegral
  cases l <;> cases u <;> try exact Le.refl _
  refine Le.ite (Le.refl _) ?_
  exact Le.bind (integralLoop_le₂ h _ _ _ _ _ hnm _ _) fun _ => Le.refl _

theorem calculateDerivative_le₂ (cfg : Cfg) {ev ev' : Evaluator F} {e e' : AST F} (h : ∀ c, Le (ev e c) (ev' e' c))
    (h2 : EvLe ev ev') (x : Str) (at_ : Value F) (ctx : Context F) :
    Le (calculateDerivative cfg ev e x at_ ctx) (calculateDerivative cfg ev' e' x at_ ctx) := by
  unfold calculateDerivative
  cases at_ <;> try exact Le.refl _
  refine Le.bind (h _) fun fxs => Le.bind (h _) fun fxhs => Le.ite (Le.refl _) ?_
  refine Le.bind (Le.mapM _ fun i _ => ?_) fun _ => Le.refl _
  exact Le.bind (Le.refl _) fun _ => Le.bind (Le.refl _) fun _ => h2 _ _

theorem applyAll_parenths (vs : List (Value F)) (z : F) : applyAll .parenths vs [.scalar z] = .ok vs := by
  unfold applyAll
  have hm : (vs.mapM fun i => do
      let r ← [Value.scalar z].mapM fun j => applyOp .parenths i j
      .ok r.flatten) = .ok (vs.map fun i => [i]) := mapM_ok_of_forall fun i _ => rfl
  rw [hm, ok_bind]
  clear hm
  congr 1
  induction vs with
  | nil => rfl
  | cons v vs ih => simpa using ih

theorem parenEq_le (cfg : Cfg) (n : Nat) : ∀ {t t' : AST F}, ParenEq t t' → ∀ (ctx : Context F) (w : Str),
    Le (evalRec cfg n t ctx w) (evalRec cfg (2 * n) t' ctx w) ∧ Le (evalRec cfg n t' ctx w) (evalRec cfg n t ctx w) := by
  induction n with
  | zero => intro t t' _ ctx w; exact ⟨Or.inl (by simp [evalRec]), Or.inl (by simp [evalRec])⟩
  | succ n ih =>
    intro t t' h ctx w
    have ih1 : ∀ {t t' : AST F}, ParenEq t t' → ∀ (ctx : Context F) (w : Str),
        Le (evalRec cfg n t ctx w) (evalRec cfg (2 * n + 1) t' ctx w) := fun h ctx w =>
      ((ih h ctx w).1).trans (evalRec_le cfg (by omega) _ _ _)
    have ih2 : ∀ {t t' : AST F}, ParenEq t t' → ∀ (ctx : Context F) (w : Str),
        Le (evalRec cfg n t' ctx w) (evalRec cfg n t ctx w) := fun h ctx w => (ih h ctx w).2
    have hev : EvLe (fun a c => evalRec (F := F) cfg n a c []) (fun a c => evalRec cfg (2 * n + 1) a c []) :=
      fun a c => evalRec_le cfg (by omega) _ _ _
    rw [show 2 * (n + 1) = 2 * n + 1 + 1 by omega]
    cases h with
    | scalar s => simp only [evalRec]; exact ⟨Le.refl _, Le.refl _⟩
    | vector v v' hv =>
      simp only [evalRec]
      exact ⟨Le.bind (Le.mapM₂ hv fun a a' h => Le.bind (ih1 h _ _) fun _ => Le.refl _) fun _ => Le.refl _,
        Le.bind (Le.mapM₂ hv.flip fun a a' h => Le.bind (ih2 h _ _) fun _ => Le.refl _) fun _ => Le.refl _⟩
    | matrix m m' hv =>
      simp only [evalRec]
      refine ⟨Le.bind (Le.mapM₂ hv fun a a' h => Le.mapM₂ h fun a a' h => Le.bind (ih1 h _ _) fun _ => Le.refl _) fun _ => Le.refl _,
        Le.bind (Le.mapM₂ hv.flip fun a a' h => ?_) fun _ => Le.refl _⟩
      exact Le.mapM₂ h.flip fun a a' h => Le.bind (ih2 h _ _) fun _ => Le.refl _
    | list v v' hv =>
      simp only [evalRec]
      exact ⟨Le.bind (Le.mapM₂ hv fun a a' h => ih1 h _ _) fun _ => Le.refl _,
        Le.bind (Le.mapM₂ hv.flip fun a a' h => ih2 h _ _) fun _ => Le.refl _⟩
    | «variable» v => simp only [evalRec]; exact ⟨Le.refl _, Le.refl _⟩
    | function name v v' hv =>
      simp only [evalRec, hv.length_eq]
      split
      · exact ⟨Le.refl _, Le.refl _⟩
      cases ctx.findFun name with
      | none => exact ⟨Le.refl _, Le.refl _⟩
      | some f =>
        refine ⟨Le.ite (Le.refl _) ?_, Le.ite (Le.refl _) ?_⟩
        · exact Le.bind (Le.mapM₂ hv fun a a' h => ih1 h _ _) fun _ =>
            Le.bind (Le.mapM _ fun p _ => ih1 (.refl _) _ _) fun _ => Le.refl _
        · exact Le.bind (Le.mapM₂ hv.flip fun a a' h => ih2 h _ _) fun _ => Le.refl _
    | simple op l r l' r' hl hr =>
      simp only [evalRec]
      exact ⟨Le.bind (ih1 hl _ _) fun _ => Le.bind (ih1 hr _ _) fun _ => Le.refl _,
        Le.bind (ih2 hl _ _) fun _ => Le.bind (ih2 hr _ _) fun _ => Le.refl _⟩
    | pow l r l' r' z hl hr =>
      have hp : ∀ k, evalRec cfg (k + 2) (.simple .parenths r' (.scalar z)) ctx w = evalRec cfg (k + 1) r' ctx w := by
        intro k
        rw [evalRec.eq_def]
        simp only
        cases hk : evalRec cfg (k + 1) r' ctx w with
        | ok rv =>
          have : evalRec cfg (k + 1) (.scalar z) ctx w = .ok [.scalar z] := by simp only [evalRec]
          rw [ok_bind, this, ok_bind, applyAll_parenths]
        | _ => rfl
      constructor
      · rw [evalRec.eq_def, evalRec.eq_def cfg (2 * n + 1 + 1)]
        simp only
        refine Le.bind (ih1 hl _ _) fun lv => Le.bind ?_ fun _ => Le.refl _
        cases n with
        | zero => exact Or.inl (by simp [evalRec])
        | succ k =>
          rw [show 2 * (k + 1) + 1 = (2 * k + 1) + 2 by omega, hp]
          exact ((ih hr ctx w).1).trans (evalRec_le cfg (by omega) _ _ _)
      · rw [evalRec.eq_def, evalRec.eq_def cfg (n + 1)]
        simp only
        refine Le.bind (ih2 hl _ _) fun lv => Le.bind ?_ fun _ => Le.refl _
        cases n with
        | zero => exact Or.inl (by simp [evalRec])
        | succ k =>
          cases k with
          | zero =>
            left
            rw [evalRec.eq_def]
            simp [evalRec]
          | succ k =>
            rw [hp]
            exact (evalRec_le cfg (by omega) _ _ _).trans (ih2 hr ctx w)
    | integral e x lo hi e' lo' hi' he hlo hhi =>
      simp only [evalRec]
      refine ⟨Le.bind (ih1 hlo _ _) fun _ => Le.bind (ih1 hhi _ _) fun _ => Le.bind (Le.mapM _ fun i _ =>
        Le.bind (Le.mapM _ fun j _ => ?_) fun _ => Le.refl _) fun _ => Le.refl _,
        Le.bind (ih2 hlo _ _) fun _ => Le.bind (ih2 hhi _ _) fun _ => Le.bind (Le.mapM _ fun i _ =>
        Le.bind (Le.mapM _ fun j _ => ?_) fun _ => Le.refl _) fun _ => Le.refl _⟩
      · exact calculateIntegral_le₂ cfg (fun c => ih1 he c []) (by omega) _ _ _ _
      · exact calculateIntegral_le₂ cfg (fun c => ih2 he c []) (by omega) _ _ _ _
    | derivative e x a e' a' he ha =>
      simp only [evalRec]
      refine ⟨Le.bind (ih1 ha _ _) fun _ => Le.bind (Le.mapM _ fun i _ => ?_) fun _ => Le.refl _,
        Le.bind (ih2 ha _ _) fun _ => Le.bind (Le.mapM _ fun i _ => ?_) fun _ => Le.refl _⟩
      · exact calculateDerivative_le₂ cfg (fun c => ih1 he c []) hev _ _ _
      · exact calculateDerivative_le₂ cfg (fun c => ih2 he c []) (fun _ _ => Le.refl _) _ _ _
    | equation es vs =>
      exact ⟨evalRec_le cfg (by omega) _ _ _, Le.refl _⟩

/-- Trees that differ by parentheses around exponents have the same outcome. -/
theorem parenEq_finishes (cfg : Cfg) {t t' : AST F} (h : ParenEq t t') (ctx : Context F)
    (r : Out EvalError (List (Value F))) :
    Finishes (fun n => eval cfg n t ctx) r ↔ Finishes (fun n => eval cfg n t' ctx) r := by
  unfold Finishes eval
  constructor <;> rintro ⟨h1, n, hn⟩
  · rcases (parenEq_le cfg n h ctx []).1 with h2 | h2
    · exact absurd (hn.symm.trans h2) h1
    · exact ⟨h1, _, h2.symm.trans hn⟩
  · rcases (parenEq_le cfg n h ctx []).2 with h2 | h2
    · exact absurd (hn.symm.trans h2) h1
    · exact ⟨h1, _, h2.symm.trans hn⟩

end

section
variable [UTable] {F : Type} [FNum F] [TextLaws F]

/-- **C59** (meaning): if in addition all numbers have at most `PREC-2` decimals (and there is no matrix, or the
`row-major` feature is on), evaluating the text gives the same values, or the same error, as evaluating the tree, in
every context. -/
theorem C59_meaning (cfg : Cfg) (e : Ex) (hw : e.WF) (hr : e.Readable F cfg) (hu : Unrounded cfg (e.tree cfg : AST F))
    (ctx : Context F) :
    (∀ vs, Finishes (fun n => eval cfg n (e.tree cfg) ctx) (.ok vs) ↔
      Finishes (fun n => quickEval cfg n ((e.tree cfg : AST F).asString cfg) ctx) (.ok vs)) ∧
    (∀ x, Finishes (fun n => eval cfg n (e.tree cfg) ctx) (.err x) ↔
      Finishes (fun n => quickEval cfg n ((e.tree cfg : AST F).asString cfg) ctx) (.err (.evalError x))) := by
  have h1 := C29_eval cfg _ ctx (C59_tree (F := F) cfg e hw hr)
  have h2 := parenEq_finishes cfg (parenEq_reread hu) ctx
  exact ⟨fun vs => (h2 _).trans (h1.1 vs), fun x => (h2 _).trans (h1.2 x)⟩

end
section
variable {F : Type} [FNum F]

/-- **C59** (refuted for equations): the search variables are not printed; all requests to solve the same equations
have the same text. -/
theorem C59_equation_false (cfg : Cfg) (es : List (AST F × AST F)) (vs vs' : List Str) :
    (AST.equation es vs).asString cfg = (AST.equation es vs').asString cfg := by
  simp only [AST.asString]

end

section
variable [UTable] {F : Type} [FNum F] [TextLaws F]

theorem unblank_name {n : Str} (h : NameShape n) : n.filter (· != ' ') = n := by
  rw [List.filter_eq_self]
  intro c hc
  have := h.2.2.1 c hc
  simp only [bne_iff_ne, ne_eq]
  rintro rfl
  exact this (by decide)

theorem unblank_text {e : Ex} (h : e.WF) : unblank e.text = e.text := by
  unfold unblank
  rw [List.filter_eq_self]
  intro c hc
  have := (good_text e h).noWs c hc
  simp only [bne_iff_ne, ne_eq]
  rintro rfl
  exact absurd this (by decide)

omit [UTable] [FNum F] [TextLaws F] in
theorem forall₂_mem_right {α β : Type} {R : α → β → Prop} {a : List α} {b : List β} (h : List.Forall₂ R a b) :
    ∀ y ∈ b, ∃ x ∈ a, R x y := by
  induction h with
  | nil => simp
  | cons h1 _ ih =>
    intro y hy
    rcases List.mem_cons.1 hy with rfl | hy
    · exact ⟨_, by simp, h1⟩
    · obtain ⟨x, hx, h⟩ := ih y hy
      exact ⟨x, by simp [hx], h⟩

omit [UTable] [TextLaws F] in
theorem asStringEqs_list (cfg : Cfg) (es : List (AST F × AST F)) :
    AST.asStringEqs cfg es = es.map fun p => p.1.asString cfg ++ ['='] ++ p.2.asString cfg := by
  induction es with
  | nil => rfl
  | cons p es ih => obtain ⟨l, r⟩ := p; rw [AST.asStringEqs, ih, List.map_cons]

/-- **C59** (equations): reading back the printed form of an equation between readable trees without `=` gives these equations,
each with the longer text (blanks not counted) first, and no search variables. -/
theorem C59_equation (cfg : Cfg) (es : List (Ex × Ex)) (hne : es ≠ []) (vs : List Str)
    (hw : ∀ p ∈ es, (p.1.WF ∧ p.2.WF) ∧ (p.1.Readable F cfg ∧ p.2.Readable F cfg))
    (heq : ∀ p ∈ es, '=' ∉ (p.1.tree cfg : AST F).asString cfg ∧ '=' ∉ (p.2.tree cfg : AST F).asString cfg) :
    parse cfg ((AST.equation (es.map fun p => (p.1.tree cfg, p.2.tree cfg)) vs : AST F).asString cfg) =
      .ok (.equation (es.map fun p =>
        let l : AST F := p.1.tree cfg
        let r : AST F := p.2.tree cfg
        if (r.asString cfg).countP (· != ' ') ≤ (l.asString cfg).countP (· != ' ') then (reread cfg l, reread cfg r)
        else (reread cfg r, reread cfg l)) []) := by
  have hex : ∃ ls rs : List Ex, List.Forall₂ (fun p l => RR F cfg p.1 l) es ls ∧ List.Forall₂ (fun p r => RR F cfg p.2 r) es rs := by
    clear hne heq
    induction es with
    | nil => exact ⟨[], [], .nil, .nil⟩
    | cons p es ih =>
      obtain ⟨ls, rs, h1, h2⟩ := ih fun p hp => hw p (by simp [hp])
      obtain ⟨⟨w1, w2⟩, r1, r2⟩ := hw p (by simp)
      obtain ⟨l, hl⟩ := rr_exists (F := F) cfg p.1 w1 r1
      obtain ⟨r, hr⟩ := rr_exists (F := F) cfg p.2 w2 r2
      exact ⟨l :: ls, r :: rs, .cons hl h1, .cons hr h2⟩
  obtain ⟨ls, rs, h1, h2⟩ := hex
  have htext : ∀ {e e' : Ex}, RR F cfg e e' → e'.text = unblank ((e.tree cfg : AST F).asString cfg) := fun h => by
    rw [h.text, unblank_text h.wf]
  have hnoeq : ∀ {e e' : Ex}, RR F cfg e e' → '=' ∉ (e.tree cfg : AST F).asString cfg → '=' ∉ e'.text := fun h h' hc => by
    rw [htext h] at hc
    exact h' (List.mem_of_mem_filter hc)
  have hwf : (Ex.eqs ls rs []).WF := by
    refine ⟨h1.length_eq.symm.trans h2.length_eq, (WFAll_iff _).2 fun l hl => ?_, (WFAll_iff _).2 fun r hr => ?_, ?_, ?_, by simp⟩
    · obtain ⟨p, -, h⟩ := (forall₂_mem_right h1) l hl
      exact h.wf
    · obtain ⟨p, -, h⟩ := (forall₂_mem_right h2) r hr
      exact h.wf
    · left
      rintro rfl
      cases h1
      exact hne rfl
    · intro s hs
      rw [textAll_eq, textAll_eq, List.mem_append, List.mem_map, List.mem_map] at hs
      rcases hs with ⟨e, he, rfl⟩ | ⟨e, he, rfl⟩
      · obtain ⟨p, hp, h⟩ := (forall₂_mem_right h1) e he
        exact hnoeq h (heq p hp).1
      · obtain ⟨p, hp, h⟩ := (forall₂_mem_right h2) e he
        exact hnoeq h (heq p hp).2
  have htr : ((Ex.eqs ls rs []).tree cfg : AST F) = .equation (es.map fun p =>
        let l : AST F := p.1.tree cfg
        let r : AST F := p.2.tree cfg
        if (r.asString cfg).countP (· != ' ') ≤ (l.asString cfg).countP (· != ' ') then (reread cfg l, reread cfg r)
        else (reread cfg r, reread cfg l)) [] := by
    simp only [Ex.tree]
    congr 1
    clear hwf hne heq hw
    induction h1 generalizing rs with
    | nil => cases h2; rfl
    | cons hl _ ih =>
      cases h2 with
      | cons hr h2 =>
        simp only [textAll, treeAll, List.zip_cons_cons, List.zipWith_cons_cons, List.map_cons]
        rw [ih _ h2, hl.tree, hr.tree, htext hl, htext hr]
        simp only [unblank, List.countP_eq_length_filter]
        rfl
  rw [← htr]
  refine C09_parse_text_blanks cfg _ hwf _ ?_
  show unblank _ = unblank _
  simp only [AST.asString, Ex.text, unblank_append, asStringEqs_list, List.map_map, List.append_nil, join, commas]
  congr 2
  refine unblank_join rfl ?_
  clear htr hwf hne heq hw
  induction h1 generalizing rs with
  | nil => cases h2; exact .nil
  | cons hl _ ih =>
    cases h2 with
    | cons hr h2 =>
      simp only [textAll, List.zipWith_cons_cons, List.map_cons, Function.comp]
      refine .cons ?_ (ih _ h2)
      rw [unblank_append, unblank_append, unblank_append, unblank_append, hl.text, hr.text]


/-- **C59** (refuted for the cross product): `a#b` is printed as the name `axb`, for all names `a` and `b`. -/
theorem C59_cross_false (cfg : Cfg) (a b : Str) (h : NameShape (a ++ ['x'] ++ b)) :
    parse cfg ((AST.simple .cross (.variable a) (.variable b) : AST F).asString cfg) = .ok (.variable (a ++ ['x'] ++ b) : AST F) := by
  simp only [AST.asString]
  exact C09_parse_text (F := F) cfg (.var _) h

/-- **C59** (refuted for indexing): `v?n` is printed as the name `v_n`. -/
theorem C59_get_false (cfg : Cfg) (a b : Str) (h : NameShape (a ++ ['_'] ++ b)) :
    parse cfg ((AST.simple .get (.variable a) (.variable b) : AST F).asString cfg) = .ok (.variable (a ++ ['_'] ++ b) : AST F) := by
  simp only [AST.asString]
  exact C09_parse_text (F := F) cfg (.var _) h

/-- **C59** (refuted for `&`): `a&b` (two values) is printed as `a +- b` and read back as `a+(-b)` (one value). -/
theorem C59_addSub_false (cfg : Cfg) (a b : Str) (ha : NameShape a) (hb : NameShape b) :
    parse cfg ((AST.simple .addSub (.variable a) (.variable b) : AST F).asString cfg) =
      .ok (.simple .add (.variable a) (.simple .neg (.scalar (ofInt 0)) (.variable b)) : AST F) := by
  have hw : (Ex.bin .add (.var a) (.neg (.var b))).WF :=
    ⟨ha, ⟨hb, show 4 < 10 by decide⟩, (show 0 < 10 ∧ 0 ≤ 4 by decide), fun h => absurd rfl h, fun h => by cases h⟩
  have := C09_parse_text_blanks (F := F) cfg _ hw ((AST.simple .addSub (.variable a) (.variable b) : AST F).asString cfg) (by
    simp only [AST.asString, Ex.text, List.filter_append, BinOp.text, unblank_name ha, unblank_name hb]
    simp)
  exact this

end

section Examples
local instance : UTable := UTable.ascii

/-- Whether a text is rejected by the parser. -/
def rejected (cfg : Cfg) (s : Str) : Bool :=
  match (parse cfg s : Out ParserError (AST Q)) with
  | .err _ => true
  | _ => false

/-- **C59** (refuted for `abs`): it is printed as `|x|`, which is rejected. -/
theorem C59_abs_false : rejected Cfg.default
    ((AST.simple .abs (.variable (str! "x")) (.scalar (.fin 0)) : AST Q).asString Cfg.default) = true := by
  decide +kernel

/-- **C59** (refuted for a power before a name): `2^3x` is printed as `2^(3)x`, which is rejected. -/
theorem C59_power_before_name_false :
    parse Cfg.default (str! "2^3x") = .ok (.simple .hiddenMult
      (.simple .pow (.scalar (.fin 2)) (.scalar (.fin 3))) (.variable (str! "x")) : AST Q) ∧
    rejected Cfg.default ((AST.simple .hiddenMult (.simple .pow (.scalar (.fin 2)) (.scalar (.fin 3)))
      (.variable (str! "x")) : AST Q).asString Cfg.default) = true := by
  constructor
  · have hw : (Ex.bin .juxt (.bin .pow (.num ['2'] none) (.num ['3'] none)) (.var ['x'])).WF :=
      ⟨⟨wf_num (s := "2") (by decide), wf_num (s := "3") (by decide), by decide, by decide, nofun⟩, wf_name (n := "x") (by decide),
        by decide, by decide, fun _ => ⟨'3', 'x', ['2', '^'], [], rfl, rfl, by decide, by decide⟩⟩
    have := C09_parse_text (F := Q) Cfg.default _ hw
    refine Eq.trans this ?_
    simp only [Ex.tree, BinOp.op]
    have h2 : (ofDec (digitsVal (['2'] ++ none.getD [])) (-((none.getD ([] : Str)).length : Int)) : Q) = .fin 2 := by decide +kernel
    have h3 : (ofDec (digitsVal (['3'] ++ none.getD [])) (-((none.getD ([] : Str)).length : Int)) : Q) = .fin 3 := by decide +kernel
    rw [h2, h3]
  · decide +kernel

/-- **C59** (refuted for tiny numbers): `0.0000001` is printed as `1e-7`, which is read as `1*e-7`. -/
theorem C59_tiny_false (cfg : Cfg) (hc : cfg.prec = 8) :
    (AST.scalar (.fin (1/10000000)) : AST Q).asString cfg = str! "1e-7" ∧
    ∃ x y : Q, parse cfg (str! "1e-7") = .ok (.simple .sub (.simple .hiddenMult (.scalar x) (.variable ['e'])) (.scalar y)) := by
  constructor
  · obtain ⟨p, r, hs⟩ := cfg
    cases hc
    cases r <;> revert hs <;> decide +kernel
  · have hw : (Ex.bin .sub (.bin .juxt (.num ['1'] none) (.var ['e'])) (.num ['7'] none)).WF :=
      ⟨⟨wf_num (s := "1") (by decide), wf_name (n := "e") (by decide), by decide, by decide,
        fun _ => ⟨'1', 'e', [], [], rfl, rfl, by decide, by decide⟩⟩, wf_num (s := "7") (by decide), by decide, by decide, nofun⟩
    exact ⟨_, _, C09_parse_text (F := Q) cfg _ hw⟩

/-- `eq(x=y+z, x)` is printed as `eq(x=y + z)` and read back as `y+z = x`, with nothing to solve for. -/
example : (AST.equation [(.variable ['x'], .simple .add (.variable ['y']) (.variable ['z']))] [['x']] : AST Q).asString Cfg.default = str! "eq(x=y + z)" ∧
    parse Cfg.default (str! "eq(x=y + z)") =
      .ok (.equation [(.simple .add (.variable ['y']) (.variable ['z']), .variable ['x'])] [] : AST Q) := by
  constructor
  · decide +kernel
  · have hx : (Ex.var ['x']).WF := wf_name (n := "x") (by decide)
    have hy : (Ex.bin .add (.var ['y']) (.var ['z'])).WF :=
      ⟨wf_name (n := "y") (by decide), wf_name (n := "z") (by decide), by decide, by decide, nofun⟩
    exact C59_equation (F := Q) Cfg.default [(.var ['x'], .bin .add (.var ['y']) (.var ['z']))] (by simp) [['x']]
      (by
        intro p hp
        rw [List.mem_singleton] at hp
        subst hp
        exact ⟨⟨hx, hy⟩, trivial, trivial, trivial, by decide, nofun⟩)
      (by
        intro p hp
        rw [List.mem_singleton] at hp
        subst hp
        decide +kernel)

/-- The readable fragment contains `2x^2-3*(y+-1)/4-sin(z)`, with all its numbers printed exactly. -/
theorem exampleEx_readable : exampleEx.Readable Q Cfg.default ∧ Unrounded Cfg.default (exampleEx.tree Cfg.default : AST Q) := by
  have h1 : ∀ s ∈ [['1'], ['2'], ['3'], ['4']], ((Ex.num s none).tree Cfg.default : AST Q) = .scalar (ofDec (digitsVal s) 0) ∧
      Value.roundScalar (ofDec (digitsVal s) 0 : Q) (((Cfg.default.prec : Nat) : Int) - 2) = ofDec (digitsVal s) 0 ∧
      FArith.beq (ofDec (digitsVal s) 0 : Q) (ofInt 0) = false := by
    simp only [List.forall_mem_cons]
    refine ⟨⟨rfl, ?_⟩, ⟨rfl, ?_⟩, ⟨rfl, ?_⟩, ⟨rfl, ?_⟩, nofun⟩ <;> decide +kernel
  have hr : ∀ s ∈ [['1'], ['2'], ['3'], ['4']], (Ex.num s none).Readable Q Cfg.default := by
    intro s hs
    obtain ⟨-, h2, h3⟩ := h1 s hs
    refine ⟨digitsVal s, 0, rfl, ?_, ?_⟩
    · simpa using h2
    · intro h; rw [h3] at h; cases h
  have hu : ∀ s ∈ [['1'], ['2'], ['3'], ['4']], Unrounded Cfg.default ((Ex.num s none).tree Cfg.default : AST Q) := by
    intro s hs
    obtain ⟨h1, h2, -⟩ := h1 s hs
    rw [h1]
    exact .scalar _ h2
  constructor
  · refine ⟨⟨⟨hr ['2'] (by decide), ⟨trivial, hr ['2'] (by decide), by decide, nofun⟩, by decide, ?_⟩,
      ⟨hr ['3'] (by decide), ⟨⟨trivial, hr ['1'] (by decide), by decide, nofun⟩, hr ['4'] (by decide), by decide, nofun⟩, by decide, nofun⟩,
      by decide, nofun⟩, ⟨by decide, trivial⟩, by decide, nofun⟩
    rintro - ⟨a, b, h⟩
    cases h
  · refine .two _ _ _ (by decide) (by decide) (.two _ _ _ (by decide) (by decide)
      (.two _ _ _ (by decide) (by decide) (hu ['2'] (by decide)) (.two _ _ _ (by decide) (by decide) (.variable _) (hu ['2'] (by decide))))
      (.two _ _ _ (by decide) (by decide) (hu ['3'] (by decide)) (.two _ _ _ (by decide) (by decide)
        (.one _ _ _ (by decide) (.two _ _ _ (by decide) (by decide) (.variable _) (.neg _ _ (hu ['1'] (by decide)))))
        (hu ['4'] (by decide))))) (.one _ _ _ (by decide) (.variable _))

end Examples

end MUL
