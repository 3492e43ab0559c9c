import Verif.Spec.Depth
import Verif.Props.EvalCtx
import Verif.Props.ParserBasics
import Verif.Props.Grammar
/-!
# C90: how deep the recursion gets
-/

set_option linter.unusedSectionVars false

namespace MUL
open Out Spec

section
variable {F : Type}

theorem Spec.HeightLe.pos {d : Nat} {a : AST F} (h : HeightLe d a) : 1 ≤ d := by
  cases h <;> omega

theorem Spec.HeightLe.mono {d : Nat} {a : AST F} (h : HeightLe d a) {k : Nat} (hk : d ≤ k) : HeightLe k a := by
  induction h generalizing k with
  | scalar d s => obtain ⟨k, rfl⟩ : ∃ j, k = j + 1 := ⟨k - 1, by omega⟩; exact .scalar k s
  | «variable» d s => obtain ⟨k, rfl⟩ : ∃ j, k = j + 1 := ⟨k - 1, by omega⟩; exact .variable k s
  | vector d v _ ih => obtain ⟨k, rfl⟩ : ∃ j, k = j + 1 := ⟨k - 1, by omega⟩; exact .vector k v fun a ha => ih a ha (by omega)
  | matrix d v _ ih => obtain ⟨k, rfl⟩ : ∃ j, k = j + 1 := ⟨k - 1, by omega⟩; exact .matrix k v fun l hl a ha => ih l hl a ha (by omega)
  | list d v _ ih => obtain ⟨k, rfl⟩ : ∃ j, k = j + 1 := ⟨k - 1, by omega⟩; exact .list k v fun a ha => ih a ha (by omega)
  | function d n v _ ih => obtain ⟨k, rfl⟩ : ∃ j, k = j + 1 := ⟨k - 1, by omega⟩; exact .function k n v fun a ha => ih a ha (by omega)
  | simple d op l r _ _ ih1 ih2 =>
    obtain ⟨k, rfl⟩ : ∃ j, k = j + 1 := ⟨k - 1, by omega⟩; exact .simple k op l r (ih1 (by omega)) (ih2 (by omega))
  | integral d e x lo hi _ _ _ ih1 ih2 ih3 =>
    obtain ⟨k, rfl⟩ : ∃ j, k = j + 1 := ⟨k - 1, by omega⟩; exact .integral k e x lo hi (ih1 (by omega)) (ih2 (by omega)) (ih3 (by omega))
  | derivative d e x a _ _ ih1 ih2 =>
    obtain ⟨k, rfl⟩ : ∃ j, k = j + 1 := ⟨k - 1, by omega⟩; exact .derivative k e x a (ih1 (by omega)) (ih2 (by omega))
  | equation d eqs vars _ _ ih1 ih2 =>
    obtain ⟨k, rfl⟩ : ∃ j, k = j + 2 := ⟨k - 2, by omega⟩
    exact .equation k eqs vars (fun e he => ih1 e he (by omega)) (fun e he => ih2 e he (by omega))

end

/-! ## evaluation -/

section
variable {F : Type} [FNum F]

theorem depth_tree (cfg : Cfg) {ints : Prop} {N : Nat} (hN : ints → StepsArrive F cfg N)
    {funs : List (Function F)} {rank : Str → Nat} {r K : Nat} (hK : 4 ≤ K) (hKN : N ≤ K)
    (hf : ∀ f ∈ funs, rank f.name < r → Bounded cfg funs K f.ast)
    {b : AST F} {d : Nat} (hd : HeightLe d b) (h : Ranked rank ints r b) : Bounded cfg funs (d + K) b := by
  induction hd with
  | scalar d s =>
    intro m hm vars w
    obtain ⟨m, rfl⟩ : ∃ k, m = k + 1 := ⟨m - 1, by omega⟩
    exact term_ok _
  | «variable» d x =>
    intro m hm vars w
    obtain ⟨m, rfl⟩ : ∃ k, m = k + 1 := ⟨m - 1, by omega⟩
    simp only [evalRec]
    split
    · exact term_ok _
    · exact term_err _
  | vector d v _ ih =>
    intro m hm vars w
    obtain ⟨m, rfl⟩ : ∃ k, m = k + 1 := ⟨m - 1, by omega⟩
    cases h with
    | vector _ h =>
    simp only [evalRec]
    exact Term.bind (Term.mapM _ fun a ha => Term.bind (ih a ha (h a ha) m (by omega) _ _) fun _ _ => allScalars_term _ _)
      fun _ _ => term_ok _
  | matrix d v _ ih =>
    intro m hm vars w
    obtain ⟨m, rfl⟩ : ∃ k, m = k + 1 := ⟨m - 1, by omega⟩
    cases h with
    | matrix _ h =>
    simp only [evalRec]
    exact Term.bind (Term.mapM _ fun r hr => Term.mapM _ fun a ha => Term.bind (ih r hr a ha (h r hr a ha) m (by omega) _ _)
      fun _ _ => allScalars_term _ _) fun _ _ => term_ok _
  | list d v _ ih =>
    intro m hm vars w
    obtain ⟨m, rfl⟩ : ∃ k, m = k + 1 := ⟨m - 1, by omega⟩
    cases h with
    | list _ h =>
    simp only [evalRec]
    exact Term.bind (Term.mapM _ fun a ha => ih a ha (h a ha) m (by omega) _ _) fun _ _ => term_ok _
  | function d g args _ ih =>
    intro m hm vars w
    obtain ⟨m, rfl⟩ : ∃ k, m = k + 1 := ⟨m - 1, by omega⟩
    cases h with
    | function _ _ hg h =>
    simp only [evalRec]
    refine Term.ite (term_err _) ?_
    cases hfind : Context.findFun ⟨vars, funs⟩ g with
    | none => exact term_err _
    | some f =>
      refine Term.ite (term_err _) ?_
      refine Term.bind (Term.mapM _ fun a ha => ih a ha (h a ha) m (by omega) _ _) fun _ _ =>
        Term.bind (Term.mapM _ fun p _ => ?_) fun _ _ => term_ok _
      have hmem : f ∈ funs := List.mem_of_find?_eq_some hfind
      have hname : f.name = g := by simpa using List.find?_some hfind
      exact hf f hmem (by rw [hname]; exact hg) m (by omega) _ _
  | simple d op l r _ _ ihl ihr =>
    intro m hm vars w
    obtain ⟨m, rfl⟩ : ∃ k, m = k + 1 := ⟨m - 1, by omega⟩
    cases h with
    | simple _ _ _ hl hr =>
    simp only [evalRec]
    exact Term.bind (ihl hl m (by omega) _ _) fun _ _ => Term.bind (ihr hr m (by omega) _ _) fun _ _ => applyAll_term _ _ _
  | integral d e x lo hi _ _ _ ihe ihl ihr =>
    intro m hm vars w
    obtain ⟨m, rfl⟩ : ∃ k, m = k + 1 := ⟨m - 1, by omega⟩
    cases h with
    | integral _ _ _ _ hi' he hl hr =>
    simp only [evalRec]
    refine Term.bind (ihl hl m (by omega) _ _) fun _ _ => Term.bind (ihr hr m (by omega) _ _) fun _ _ =>
      Term.bind (Term.mapM _ fun _ _ => Term.bind (Term.mapM _ fun _ _ => ?_) fun _ _ => term_ok _) fun _ _ => term_ok _
    exact calculateIntegral_term cfg (hN hi') _ (fun vars => ihe he m (by omega) _ _) _ _ (by omega) _ _
  | derivative d e x a _ _ ihe iha =>
    intro m hm vars w
    obtain ⟨m, rfl⟩ : ∃ k, m = k + 1 := ⟨m - 1, by omega⟩
    cases h with
    | derivative _ _ _ he ha =>
    simp only [evalRec]
    refine Term.bind (iha ha m (by omega) _ _) fun _ _ => Term.bind (Term.mapM _ fun _ _ => ?_) fun _ _ => term_ok _
    exact calculateDerivative_term cfg _ (fun a b c => dq_term cfg a b m (by omega) c [])
      (fun vars => ihe he m (by omega) _ _) _ _
  | equation d eqs vars _ _ ih1 ih2 =>
    intro m hm vars w
    obtain ⟨m, rfl⟩ : ∃ k, m = k + 2 := ⟨m - 2, by omega⟩
    cases h with
    | equation _ _ h1 h2 =>
    rw [evalRec.eq_def]
    refine solveEquations_term cfg (fun a b c => dq_term cfg a b _ (by omega) c []) _ _ ?_ _
    intro e he vars
    show Term (evalRec cfg (m + 1) _ _ _)
    rw [evalRec.eq_def]
    exact Term.bind (ih1 e he (h1 e he) m (by omega) _ _) fun _ _ =>
      Term.bind (ih2 e he (h2 e he) m (by omega) _ _) fun _ _ => applyAll_term _ _ _

theorem depth_funs (cfg : Cfg) {ints : Prop} {N : Nat} (hN : ints → StepsArrive F cfg N)
    {funs : List (Function F)} {rank : Str → Nat} (hacyc : Acyclic ints funs rank) {H : Nat} (hH : ∀ f ∈ funs, HeightLe H f.ast) (r : Nat) :
    ∀ f ∈ funs, rank f.name < r → Bounded cfg funs (r * H + max 4 N) f.ast := by
  induction r with
  | zero => intro f _ h; omega
  | succ r ih =>
    intro f hf hr
    have hle : rank f.name * H ≤ r * H := Nat.mul_le_mul_right _ (by omega)
    have h2 : ∀ g ∈ funs, rank g.name < rank f.name → Bounded cfg funs (r * H + max 4 N) g.ast := fun g hg hlt => ih g hg (by omega)
    have := depth_tree cfg hN (r := rank f.name) (K := r * H + max 4 N) (by omega) (by omega) h2 (hH f hf) (hacyc f hf)
    intro m hm
    refine this m ?_
    rw [Nat.succ_mul] at hm
    omega

/-- **C90.** Evaluating a tree without integrals never nests calls of the evaluation deeper than `d + r*H + 4`, where `d` bounds the height
of the tree, `H` the heights of the functions' bodies, and `r` the ranks of the functions it calls (each body only calls functions of lower
rank): with that budget the evaluation is finished, whatever the context. -/
theorem C90_depth (cfg : Cfg) (ctx : Context F) (rank : Str → Nat) (hfuns : Acyclic False ctx.funs rank) (H : Nat)
    (hH : ∀ f ∈ ctx.funs, HeightLe H f.ast) (r d : Nat) (b : AST F) (hb : Ranked rank False r b) (hd : HeightLe d b)
    (n : Nat) (hn : d + r * H + 4 ≤ n) : eval cfg n b ctx ≠ .timeout :=
  depth_tree cfg (N := 0) (fun h => h.elim) (by omega) (by omega) (depth_funs cfg (N := 0) (fun h => h.elim) hfuns hH r) hd hb n
    (by simp only [Nat.zero_le, Nat.max_eq_left]; omega) ctx.vars []

/-- C90: the same with integrals, where each loop of an integral takes at most `N` steps. -/
theorem C90_depth_integrals (cfg : Cfg) (N : Nat) (hN : StepsArrive F cfg N) (ctx : Context F) (rank : Str → Nat)
    (hfuns : Acyclic True ctx.funs rank) (H : Nat) (hH : ∀ f ∈ ctx.funs, HeightLe H f.ast) (r d : Nat) (b : AST F) (hb : Ranked rank True r b)
    (hd : HeightLe d b) (n : Nat) (hn : d + r * H + max 4 N ≤ n) : eval cfg n b ctx ≠ .timeout :=
  depth_tree cfg (fun _ => hN) (by omega) (by omega) (depth_funs cfg (fun _ => hN) hfuns hH r) hd hb n (by omega) ctx.vars []

end

/-! ## parsing -/

section
variable {F : Type} [FArith F] [UTable] {d : Nat}

local notation "Low" => HeightLe (F := F) d
local notation "Res" => fun a => HeightLe (F := F) (d + 2) a

omit [FArith F] [UTable] in
theorem low_all {rec : Str → Out ParserError (AST F)} (h : ∀ t, Out.Post False Low (rec t)) (l : List Str) :
    Out.Post False (fun r => ∀ b ∈ r, Low b) (parseAll rec l) :=
  Out.Post.mono (Out.Post.mapM l fun a _ => h a) fun _ h => h.2

theorem low_function {rec : Str → Out ParserError (AST F)} (h : ∀ t, Out.Post False Low (rec t)) {cs : Str} :
    ∀ res, parseFunction rec cs = some res → Out.Post False Res res := by
  intro res hres
  unfold parseFunction at hres
  split at hres
  · cases hres
  · cases hres
    split
    · refine Out.Post.bind (slice_post' fun h => h.elim) fun inner _ => ?_
      simp only
      split
      · trivial
      · refine Out.Post.bind (idx_post' fun h => h.elim) fun a0 _ => ?_
        refine Out.Post.bind (h a0) fun l hl => ?_
        refine Out.Post.bind (idx_post' fun h => h.elim) fun a1 _ => ?_
        refine Out.Post.bind (h a1) fun r hr => ?_
        exact .simple _ _ _ _ (hl.mono (by omega)) (hr.mono (by omega))
    · refine Out.Post.bind (slice_post' fun h => h.elim) fun inner _ => ?_
      refine Out.Post.bind (h inner) fun l hl => ?_
      exact .simple _ _ _ _ (hl.mono (by omega)) (.scalar _ _)

omit [FArith F] [UTable] in
theorem low_eqEntry {rec : Str → Out ParserError (AST F)} (h : ∀ t, Out.Post False Low (rec t)) (s : Str) :
    Out.Post False (fun e => ∀ p, e = Sum.inl p → Low p.1 ∧ Low p.2) (parseEqEntry rec s) := by
  unfold parseEqEntry
  split
  · intro p hp; cases hp
  · simp only
    split
    · refine Out.Post.bind (h _) fun l hl => ?_
      refine Out.Post.bind (h _) fun r hr => ?_
      intro p hp; cases hp; exact ⟨hl, hr⟩
    · refine Out.Post.bind (h _) fun l hl => ?_
      refine Out.Post.bind (h _) fun r hr => ?_
      intro p hp; cases hp; exact ⟨hl, hr⟩

omit [FArith F] [UTable] in
theorem low_advanced {rec : Str → Out ParserError (AST F)} (h : ∀ t, Out.Post False Low (rec t)) {cs : Str} :
    ∀ res, parseAdvanced rec cs = some res → Out.Post False Res res := by
  intro res hres
  unfold parseAdvanced at hres
  split at hres
  · cases hres
    refine Out.Post.bind (slice_post' fun h => h.elim) fun inner _ => ?_
    simp only
    split
    · trivial
    · refine Out.Post.bind (idx_post' fun h => h.elim) fun a0 _ => ?_
      refine Out.Post.bind (h a0) fun f hf => ?_
      refine Out.Post.bind (idx_post' fun h => h.elim) fun a2 _ => ?_
      refine Out.Post.bind (h a2) fun lb hlb => ?_
      refine Out.Post.bind (idx_post' fun h => h.elim) fun a3 _ => ?_
      refine Out.Post.bind (h a3) fun ub hub => ?_
      refine Out.Post.bind (idx_post' fun h => h.elim) fun a1 _ => ?_
      exact .integral _ _ _ _ _ (hf.mono (by omega)) (hlb.mono (by omega)) (hub.mono (by omega))
  split at hres
  · cases hres
    refine Out.Post.bind (slice_post' fun h => h.elim) fun inner _ => ?_
    simp only
    split
    · trivial
    · refine Out.Post.bind (idx_post' fun h => h.elim) fun a0 _ => ?_
      refine Out.Post.bind (h a0) fun f hf => ?_
      refine Out.Post.bind (idx_post' fun h => h.elim) fun a2 _ => ?_
      refine Out.Post.bind (h a2) fun lb hlb => ?_
      refine Out.Post.bind (idx_post' fun h => h.elim) fun a1 _ => ?_
      exact .derivative _ _ _ _ (hf.mono (by omega)) (hlb.mono (by omega))
  split at hres
  · cases hres
    refine Out.Post.bind (slice_post' fun h => h.elim) fun inner _ => ?_
    refine Out.Post.bind (Out.Post.mapM _ fun a _ => low_eqEntry h a) fun entries hen => ?_
    have key : ∀ e ∈ entries.filterMap Sum.getLeft?, Low e.1 ∧ Low e.2 := ?_
    · exact .equation _ _ _ (fun e he => (key e he).1) (fun e he => (key e he).2)
    intro e he
    simp only [List.mem_filterMap] at he
    obtain ⟨x, hx, hxe⟩ := he
    have := hen.2 x hx
    cases x with
    | inl p =>
      have hp : p = e := by simpa using hxe
      subst hp
      exact this _ rfl
    | inr p => simp at hxe
  · cases hres

omit [FArith F] [UTable] in
theorem low_asRow (a : AST F) (h : Low a) : Out.Post False (fun r => ∀ x ∈ r, Low x) (asRow a) := by
  cases h with
  | vector d v ha => exact fun x hx => (ha x hx).mono (by omega)
  | _ => trivial

omit [FArith F] [UTable] in
theorem low_colMatrix (m : List (List (AST F))) (hwf : ∀ r ∈ m, ∀ x ∈ r, Low x) :
    Out.Post False (fun c => ∀ r ∈ c, ∀ x ∈ r, Low x) (colMatrix m) := by
  unfold colMatrix
  refine Out.Post.bind (idx_post' fun h => h.elim) fun m0 hm0 => ?_
  refine Out.Post.mono (Out.Post.mapM (P := fun r => ∀ x ∈ r, Low x) _ fun i hi => ?_) fun a ha => ha.2
  refine Out.Post.mono (Out.Post.mapM (P := Low) _ fun j hj => ?_) fun a ha => ha.2
  refine Out.Post.bind (idx_post' fun h => h.elim) fun r hrj => ?_
  refine Out.Post.mono (idx_post' fun h => h.elim) fun x hx => ?_
  exact hwf r (List.mem_of_getElem? hrj) x (List.mem_of_getElem? hx)

theorem low_value {cfg : Cfg} {rec : Str → Out ParserError (AST F)} (h : ∀ t, Out.Post False Low (rec t)) {cs : Str} :
    Out.Post False Res (parseValue cfg rec cs) := by
  unfold parseValue
  split
  · split
    · exact .scalar _ _
    · trivial
  · split
    · refine Out.Post.bind (idx_post' fun h => h.elim) fun c0 _ => ?_
      split
      · trivial
      · refine Out.Post.bind (idx_post' fun h => h.elim) fun cl hcl => ?_
        split
        · trivial
        · refine Out.Post.bind (slice_post' fun h => h.elim) fun inner hin => ?_
          refine Out.Post.bind (idx_post' fun h => h.elim) fun a0 ha0 => ?_
          split
          · trivial
          · refine Out.Post.bind (low_all h _) fun outputV hV => ?_
            simp only
            split
            · exact .vector _ _ fun a ha => (hV a ha).mono (by omega)
            · split
              · refine Out.Post.bind (Out.Post.mapM (P := fun r => ∀ x ∈ r, Low x) outputV
                  fun a ha => low_asRow a (hV a ha)) fun outputM hM => ?_
                refine Out.Post.bind (idx_post' fun h => h.elim) fun m0 hm0 => ?_
                split
                · trivial
                · split
                  · exact .matrix _ _ fun r hr x hx => (hM.2 r hr x hx).mono (by omega)
                  · refine Out.Post.bind (low_colMatrix outputM fun r hr => hM.2 r hr) fun cm hcm => ?_
                    exact .matrix _ _ fun r hr x hx => (hcm r hr x hx).mono (by omega)
              · trivial
    · trivial

theorem low_atom {cfg : Cfg} {rec : Str → Out ParserError (AST F)} (h : ∀ t, Out.Post False Low (rec t)) {cs : Str} :
    Out.Post False Res (parseAtom cfg rec cs) := by
  unfold parseAtom
  refine Out.Post.bind (idx_post' fun h => h.elim) fun c0 hc0 => ?_
  refine Out.Post.bind (idx_post' fun h => h.elim) fun cl hcl => ?_
  split
  · refine Out.Post.bind (slice_post' fun h => h.elim) fun inner hin => ?_
    refine Out.Post.bind (low_all h _) fun args hargs => ?_
    refine Out.Post.bind (isValidVarName_post fun h => h.elim) fun v hv => ?_
    split
    · trivial
    · exact .function _ _ _ fun a ha => (hargs a ha).mono (by omega)
  · split
    · refine Out.Post.bind (isValidVarName_post fun h => h.elim) fun v hv => ?_
      split
      · trivial
      · exact .variable _ _
    · split
      · refine Out.Post.bind (slice_post' fun h => h.elim) fun inner hin => ?_
        refine Out.Post.bind (low_all h _) fun l hl => ?_
        exact .list _ _ fun a ha => (hl a ha).mono (by omega)
      · exact low_value h

theorem low_step {cfg : Cfg} {rec : Str → Out ParserError (AST F)} (h : ∀ t, Out.Post False Low (rec t)) {cs : Str} :
    Out.Post False Res (parseStep cfg rec cs) := by
  unfold parseStep
  split
  · trivial
  · simp only
    split
    · trivial
    split
    · trivial
    refine Out.Post.bind (idx_post' fun h => h.elim) fun c0 hc0 => ?_
    refine Out.Post.bind (idx_post' fun h => h.elim) fun cl hcl => ?_
    split
    · refine Out.Post.bind (slice_post' fun h => h.elim) fun inner _ => ?_
      refine Out.Post.bind (h inner) fun l hl => ?_
      exact .simple _ _ _ _ (hl.mono (by omega)) (.scalar _ _)
    · split
      · refine Out.Post.bind (slice_post' fun h => h.elim) fun leftS hL => ?_
        refine Out.Post.bind (slice_post' fun h => h.elim) fun rightS hR => ?_
        refine Out.Post.bind (h rightS) fun r hr => ?_
        split
        · exact .simple _ _ _ _ (.scalar _ _) (hr.mono (by omega))
        · refine Out.Post.bind (h leftS) fun l hl => ?_
          exact .simple _ _ _ _ (hl.mono (by omega)) (hr.mono (by omega))
      · split
        · rename_i res hres
          exact low_function h res hres
        · split
          · rename_i res hres
            exact low_advanced h res hres
          · exact low_atom h

theorem low_parse (cfg : Cfg) (N : Nat) (s : Str) (hN : s.length ≤ N) :
    Out.Post False (HeightLe (F := F) (2 * N)) (parseInner cfg s) := by
  induction N generalizing s with
  | zero =>
    obtain rfl : s = [] := List.length_eq_zero_iff.1 (by omega)
    rw [parseInner_eq]
    trivial
  | succ N ih =>
    rw [parseInner_eq]
    classical
    rw [parseStep_congr (r2 := fun t => if Shorter t s then parseInner cfg t else .err .emptyExpr) (fun t ht => by simp [ht])]
    refine low_step fun t => ?_
    split
    · rename_i ht
      exact ih t (by have := ht.1; omega)
    · trivial

/-- **C90.** The tree of a text is at most twice as high as the text is long. -/
theorem C90_height (cfg : Cfg) (s : Str) (b : AST F) (h : parse cfg s = .ok b) : HeightLe (2 * s.length) b := by
  have hl : (stripBlanks s).length ≤ s.length := by
    unfold stripBlanks trim
    refine (List.length_filter_le _ _).trans ?_
    rw [List.length_reverse]
    refine (List.dropWhile_sublist _).length_le.trans ?_
    rw [List.length_reverse]
    exact (List.dropWhile_sublist _).length_le
  exact (low_parse cfg _ _ hl).of_ok h

end

section
variable {F : Type} [FNum F] [UTable]

/-- **C90**, from the text: `quick_eval` of a text of `k` characters without integrals nests calls of the evaluation at most `2*k + r*H + 4`
deep (`r`, `H` as in `C90_depth`; without functions the bound is `2*k + 4`). -/
theorem C90_text (cfg : Cfg) (ctx : Context F) (rank : Str → Nat) (hfuns : Acyclic False ctx.funs rank) (H : Nat)
    (hH : ∀ f ∈ ctx.funs, HeightLe H f.ast) (r : Nat) (s : Str) (hs : ∀ b, parse cfg s = .ok b → Ranked rank False r (b : AST F))
    (n : Nat) (hn : 2 * s.length + r * H + 4 ≤ n) : quickEval cfg n s ctx ≠ .timeout := by
  have hp : (parse cfg s : Out ParserError (AST F)) ≠ .timeout := (C05_parse_terminates cfg s).1
  intro h
  unfold quickEval at h
  cases hb : (parse cfg s : Out ParserError (AST F)) with
  | timeout => exact hp hb
  | err e => rw [hb] at h; cases h
  | panic => rw [hb] at h; cases h
  | ok b =>
    rw [hb] at h
    have := C90_depth cfg ctx rank hfuns H hH r _ b (hs b hb) (C90_height cfg s b hb) n hn
    change (eval cfg n b ctx).mapErr _ = .timeout at h
    cases he : eval cfg n b ctx with
    | timeout => exact this he
    | ok v => rw [he] at h; cases h
    | err e => rw [he] at h; cases h
    | panic => rw [he] at h; cases h

/-- `k` pairs of parentheses around an expression. -/
def nested (k : Nat) (e : Ex) : Ex := Ex.paren^[k] e

theorem nested_wf {e : Ex} (h : e.WF) (k : Nat) : (nested k e).WF := by
  induction k with
  | zero => exact h
  | succ k ih => unfold nested at *; rw [Function.iterate_succ_apply']; exact ih

theorem nested_text (e : Ex) (k : Nat) : (nested k e).text = List.replicate k '(' ++ e.text ++ List.replicate k ')' := by
  induction k with
  | zero => simp [nested]
  | succ k ih =>
    unfold nested at *
    rw [Function.iterate_succ_apply', Ex.text, ih, List.replicate_succ, List.replicate_succ' (a := ')')]
    simp

/-- C90: the recursion really gets that deep. Evaluating an expression inside of `k` pairs of parentheses takes more than `k` nested calls,
for every `k`: there is no limit on the depth (so deep enough texts exhaust the stack of the thread, which is not modelled). -/
theorem C90_unbounded (cfg : Cfg) (e : Ex) (h : e.WF) (k : Nat) (ctx : Context F) :
    quickEval cfg k (List.replicate k '(' ++ e.text ++ List.replicate k ')') ctx = .timeout := by
  rw [← nested_text]
  unfold quickEval
  rw [C09_parse_text cfg _ (nested_wf h k)]
  have : ∀ w, evalRec cfg k ((nested k e).tree cfg) ctx w = .timeout := by
    induction k with
    | zero => intro w; rfl
    | succ k ih =>
      intro w
      unfold nested at *
      rw [Function.iterate_succ_apply', Ex.tree, evalRec.eq_def]
      simp only [ih w]
      rfl
  show (evalRec cfg k ((nested k e).tree cfg) ctx []).mapErr _ = _
  rw [this]
  rfl

end

/-! ## examples -/

section
variable {F : Type} [FNum F]

/-- `f(x) = g(x) + 1`, `g(x) = x * x`: the bodies have height 3, `f` has rank 1; `f(2)` (height 2, functions of rank below 2) is finished with
2 + 2*3 + 4 = 12 nested calls. -/
example (cfg : Cfg) (one two : F) (vars : List (Variable F)) : eval cfg 12 (.function ['f'] [.scalar two])
    ⟨vars, [⟨['f'], .simple .add (.function ['g'] [.variable ['x']]) (.scalar one), [['x']]⟩,
     ⟨['g'], .simple .mult (.variable ['x']) (.variable ['x']), [['x']]⟩]⟩ ≠ .timeout := by
  refine C90_depth cfg _ (fun n => if n = ['f'] then 1 else 0) ?_ 3 ?_ 2 2 _ (.function _ _ (by simp) (by simpa using .scalar _))
    (.function _ _ _ (by simpa using .scalar _ _)) 12 (by omega)
  · intro f hf
    simp only [List.mem_cons, List.not_mem_nil, or_false] at hf
    rcases hf with rfl | rfl
    · exact .simple _ _ _ (.function _ _ (by simp) (by simpa using .variable _)) (.scalar _)
    · exact .simple _ _ _ (.variable _) (.variable _)
  · intro f hf
    simp only [List.mem_cons, List.not_mem_nil, or_false] at hf
    rcases hf with rfl | rfl
    · exact .simple _ _ _ _ (.function _ _ _ (by simpa using .variable _ _)) (.scalar _ _)
    · exact .simple _ _ _ _ (.variable _ _) (.variable _ _)

end
end MUL
