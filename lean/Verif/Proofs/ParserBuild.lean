import Verif.Proofs.ParserSafe
/-!
# What one level of the parser builds from the trees of the parts
-/

set_option linter.unusedSectionVars false

namespace MUL
open Out Spec

/-- `R` holds for every node whose parts satisfy `Q`; integrals only if `ints`. -/
structure Builds {F : Type} (Q R : AST F → Prop) (ints : Prop) : Prop where
  scalar : ∀ s, R (.scalar s)
  name : ∀ n, R (.variable n)
  vector : ∀ v, (∀ a ∈ v, Q a) → R (.vector v)
  matrix : ∀ m, (∀ l ∈ m, ∀ a ∈ l, Q a) → R (.matrix m)
  list : ∀ l, (∀ a ∈ l, Q a) → R (.list l)
  function : ∀ n args, (∀ a ∈ args, Q a) → R (.function n args)
  simple : ∀ op l r, Q l → Q r → R (.simple op l r)
  prefixOp : ∀ op l s, Q l → R (.simple op l (.scalar s))
  emptyLeft : ∀ op s r, Q r → R (.simple op (.scalar s) r)
  integral : ints → ∀ e x lo hi, Q e → Q lo → Q hi → R (.integral e x lo hi)
  derivative : ∀ e x a, Q e → Q a → R (.derivative e x a)
  equation : ∀ eqs vars, (∀ e ∈ eqs, Q e.1) → (∀ e ∈ eqs, Q e.2) → R (.equation eqs vars)
  row : ∀ v, Q (.vector v) → ∀ a ∈ v, Q a

section
variable {F : Type} [FArith F] [UTable] {Q R : AST F → Prop} {ints : Prop}

omit [FArith F] [UTable] in
theorem built_all {rec : Str → Out ParserError (AST F)} (h : ∀ t, Out.Post False Q (rec t)) (l : List Str) :
    Out.Post False (fun r => ∀ b ∈ r, Q b) (parseAll rec l) :=
  Out.Post.mono (Out.Post.mapM l fun a _ => h a) fun _ h => h.2

theorem built_function (hB : Builds Q R ints) {rec : Str → Out ParserError (AST F)} (h : ∀ t, Out.Post False Q (rec t)) {cs : Str} :
    ∀ res, parseFunction rec cs = some res → Out.Post False R res := by
  intro res hres
  unfold parseFunction at hres
  split at hres
  · cases hres
  · cases hres
    split
    · refine Out.Post.bind (slice_post' fun h => h.elim) fun inner _ => ?_
      simp only
      split
      · trivial
      · refine Out.Post.bind (idx_post' fun h => h.elim) fun a0 _ => ?_
        refine Out.Post.bind (h a0) fun l hl => ?_
        refine Out.Post.bind (idx_post' fun h => h.elim) fun a1 _ => ?_
        refine Out.Post.bind (h a1) fun r hr => ?_
        exact hB.simple _ _ _ hl hr
    · refine Out.Post.bind (slice_post' fun h => h.elim) fun inner _ => ?_
      refine Out.Post.bind (h inner) fun l hl => ?_
      exact hB.prefixOp _ _ _ hl

omit [FArith F] [UTable] in
theorem built_eqEntry {rec : Str → Out ParserError (AST F)} (h : ∀ t, Out.Post False Q (rec t)) (s : Str) :
    Out.Post False (fun e => ∀ p, e = Sum.inl p → Q p.1 ∧ Q p.2) (parseEqEntry rec s) := by
  unfold parseEqEntry
  split
  · intro p hp; cases hp
  · simp only
    split
    · refine Out.Post.bind (h _) fun l hl => ?_
      refine Out.Post.bind (h _) fun r hr => ?_
      intro p hp; cases hp; exact ⟨hl, hr⟩
    · refine Out.Post.bind (h _) fun l hl => ?_
      refine Out.Post.bind (h _) fun r hr => ?_
      intro p hp; cases hp; exact ⟨hl, hr⟩

omit [FArith F] [UTable] in
theorem built_advanced (hB : Builds Q R ints) {cs : Str} (hint : startsWith cs "I(".toList = true → ints) {rec : Str → Out ParserError (AST F)} (h : ∀ t, Out.Post False Q (rec t)) :
    ∀ res, parseAdvanced rec cs = some res → Out.Post False R res := by
  intro res hres
  unfold parseAdvanced at hres
  split at hres
  · cases hres
    refine Out.Post.bind (slice_post' fun h => h.elim) fun inner _ => ?_
    simp only
    split
    · trivial
    · refine Out.Post.bind (idx_post' fun h => h.elim) fun a0 _ => ?_
      refine Out.Post.bind (h a0) fun f hf => ?_
      refine Out.Post.bind (idx_post' fun h => h.elim) fun a2 _ => ?_
      refine Out.Post.bind (h a2) fun lb hlb => ?_
      refine Out.Post.bind (idx_post' fun h => h.elim) fun a3 _ => ?_
      refine Out.Post.bind (h a3) fun ub hub => ?_
      refine Out.Post.bind (idx_post' fun h => h.elim) fun a1 _ => ?_
      exact hB.integral (hint (by assumption)) _ _ _ _ hf hlb hub
  split at hres
  · cases hres
    refine Out.Post.bind (slice_post' fun h => h.elim) fun inner _ => ?_
    simp only
    split
    · trivial
    · refine Out.Post.bind (idx_post' fun h => h.elim) fun a0 _ => ?_
      refine Out.Post.bind (h a0) fun f hf => ?_
      refine Out.Post.bind (idx_post' fun h => h.elim) fun a2 _ => ?_
      refine Out.Post.bind (h a2) fun lb hlb => ?_
      refine Out.Post.bind (idx_post' fun h => h.elim) fun a1 _ => ?_
      exact hB.derivative _ _ _ hf hlb
  split at hres
  · cases hres
    refine Out.Post.bind (slice_post' fun h => h.elim) fun inner _ => ?_
    refine Out.Post.bind (Out.Post.mapM _ fun a _ => built_eqEntry h a) fun entries hen => ?_
    have key : ∀ e ∈ entries.filterMap Sum.getLeft?, Q e.1 ∧ Q e.2 := ?_
    · exact hB.equation _ _ (fun e he => (key e he).1) (fun e he => (key e he).2)
    intro e he
    simp only [List.mem_filterMap] at he
    obtain ⟨x, hx, hxe⟩ := he
    have := hen.2 x hx
    cases x with
    | inl p =>
      have hp : p = e := by simpa using hxe
      subst hp
      exact this _ rfl
    | inr p => simp at hxe
  · cases hres

omit [FArith F] [UTable] in
theorem built_asRow (hB : Builds Q R ints) (a : AST F) (h : Q a) : Out.Post False (fun r => ∀ x ∈ r, Q x) (asRow a) := by
  cases a with
  | vector v => exact hB.row v h
  | _ => trivial

omit [FArith F] [UTable] in
theorem built_colMatrix (m : List (List (AST F))) (hwf : ∀ r ∈ m, ∀ x ∈ r, Q x) :
    Out.Post False (fun c => ∀ r ∈ c, ∀ x ∈ r, Q x) (colMatrix m) := by
  unfold colMatrix
  refine Out.Post.bind (idx_post' fun h => h.elim) fun m0 hm0 => ?_
  refine Out.Post.mono (Out.Post.mapM (P := fun r => ∀ x ∈ r, Q x) _ fun i hi => ?_) fun a ha => ha.2
  refine Out.Post.mono (Out.Post.mapM (P := Q) _ fun j hj => ?_) fun a ha => ha.2
  refine Out.Post.bind (idx_post' fun h => h.elim) fun r hrj => ?_
  refine Out.Post.mono (idx_post' fun h => h.elim) fun x hx => ?_
  exact hwf r (List.mem_of_getElem? hrj) x (List.mem_of_getElem? hx)

theorem built_value (hB : Builds Q R ints) {cfg : Cfg} {rec : Str → Out ParserError (AST F)} (h : ∀ t, Out.Post False Q (rec t)) {cs : Str} :
    Out.Post False R (parseValue cfg rec cs) := by
  unfold parseValue
  split
  · split
    · exact hB.scalar _
    · trivial
  · split
    · refine Out.Post.bind (idx_post' fun h => h.elim) fun c0 _ => ?_
      split
      · trivial
      · refine Out.Post.bind (idx_post' fun h => h.elim) fun cl hcl => ?_
        split
        · trivial
        · refine Out.Post.bind (slice_post' fun h => h.elim) fun inner hin => ?_
          refine Out.Post.bind (idx_post' fun h => h.elim) fun a0 ha0 => ?_
          split
          · trivial
          · refine Out.Post.bind (built_all h _) fun outputV hV => ?_
            simp only
            split
            · exact hB.vector _ hV
            · split
              · refine Out.Post.bind (Out.Post.mapM (P := fun r => ∀ x ∈ r, Q x) outputV
                  fun a ha => built_asRow hB a (hV a ha)) fun outputM hM => ?_
                refine Out.Post.bind (idx_post' fun h => h.elim) fun m0 hm0 => ?_
                split
                · trivial
                · split
                  · exact hB.matrix _ fun r hr x hx => hM.2 r hr x hx
                  · refine Out.Post.bind (built_colMatrix outputM fun r hr => hM.2 r hr) fun cm hcm => ?_
                    exact hB.matrix _ hcm
              · trivial
    · trivial

theorem built_atom (hB : Builds Q R ints) {cfg : Cfg} {rec : Str → Out ParserError (AST F)} (h : ∀ t, Out.Post False Q (rec t)) {cs : Str} :
    Out.Post False R (parseAtom cfg rec cs) := by
  unfold parseAtom
  refine Out.Post.bind (idx_post' fun h => h.elim) fun c0 hc0 => ?_
  refine Out.Post.bind (idx_post' fun h => h.elim) fun cl hcl => ?_
  split
  · refine Out.Post.bind (slice_post' fun h => h.elim) fun inner hin => ?_
    refine Out.Post.bind (built_all h _) fun args hargs => ?_
    refine Out.Post.bind (isValidVarName_post fun h => h.elim) fun v hv => ?_
    split
    · trivial
    · exact hB.function _ _ hargs
  · split
    · refine Out.Post.bind (isValidVarName_post fun h => h.elim) fun v hv => ?_
      split
      · trivial
      · exact hB.name _
    · split
      · refine Out.Post.bind (slice_post' fun h => h.elim) fun inner hin => ?_
        refine Out.Post.bind (built_all h _) fun l hl => ?_
        exact hB.list _ hl
      · exact built_value hB h

theorem built_step (hB : Builds Q R ints) {cs : Str} (hint : startsWith cs "I(".toList = true → ints) {cfg : Cfg} {rec : Str → Out ParserError (AST F)} (h : ∀ t, Out.Post False Q (rec t)) :
    Out.Post False R (parseStep cfg rec cs) := by
  unfold parseStep
  split
  · trivial
  · simp only
    split
    · trivial
    split
    · trivial
    refine Out.Post.bind (idx_post' fun h => h.elim) fun c0 hc0 => ?_
    refine Out.Post.bind (idx_post' fun h => h.elim) fun cl hcl => ?_
    split
    · refine Out.Post.bind (slice_post' fun h => h.elim) fun inner _ => ?_
      refine Out.Post.bind (h inner) fun l hl => ?_
      exact hB.prefixOp _ _ _ hl
    · split
      · refine Out.Post.bind (slice_post' fun h => h.elim) fun leftS hL => ?_
        refine Out.Post.bind (slice_post' fun h => h.elim) fun rightS hR => ?_
        refine Out.Post.bind (h rightS) fun r hr => ?_
        split
        · exact hB.emptyLeft _ _ _ hr
        · refine Out.Post.bind (h leftS) fun l hl => ?_
          exact hB.simple _ _ _ hl hr
      · split
        · rename_i res hres
          exact built_function hB h res hres
        · split
          · rename_i res hres
            exact built_advanced hB hint h res hres
          · exact built_atom hB h


end
end MUL
