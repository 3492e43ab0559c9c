import Verif.Proofs.Rename
import Verif.Model.Lit
import Verif.Num.Rat
/-!
# C78: names do not matter
-/

set_option linter.unusedSectionVars false

namespace MUL
open Out Spec

section
variable {F : Type} [FNum F] {σ τ : Str → Str}

/-- C78: exchanging all variable names by `σ` and all function names by `τ` – in the tree and in the context, bound
variables, search variables and parameters included – changes the outcome only in the names an error mentions. -/
theorem C78_rename (hσ : Function.Injective σ) (hτ : Function.Injective τ) (h0 : τ [] = []) (cfg : Cfg) (n : Nat) (b : AST F) (c : Context F) :
    eval cfg n (rename σ τ b) (renameCtx σ τ c) = (eval cfg n b c).mapErr (renameErr σ τ) := by
  have := sim_evalRec hσ hτ h0 cfg n b c []
  rw [h0] at this
  exact Sim.iff_mapErr.1 this

/-- C78, `solve`. -/
theorem C78_solve (hσ : Function.Injective σ) (hτ : Function.Injective τ) (h0 : τ [] = []) (cfg : Cfg) (n : Nat)
    (es : List (AST F × AST F)) (c : Context F) (names : List Str) :
    solve cfg n (renameEqs σ τ es) (renameCtx σ τ c) (names.map σ) = (solve cfg n es c names).mapErr (renameErr σ τ) := by
  have hev : Renames σ τ (eval (F := F) cfg n) (eval cfg n) := by
    intro a c
    have := sim_evalRec hσ hτ h0 cfg n a c []
    rw [h0] at this
    exact this
  have key : ∀ (es : List (AST F × AST F)) (c : Context F) (names : List Str),
      solve cfg n es c names = solveEquations cfg (eval cfg n) es c names := by
    intro es c names
    unfold solve solveEquations
    have : ∀ (es : List (AST F × AST F)) (acc : List (AST F)),
        es.foldl (fun fe i => fe ++ [AST.simple .sub i.1 i.2]) acc = acc ++ es.map fun i => AST.simple .sub i.1 i.2 := by
      intro es
      induction es with
      | nil => simp
      | cons e es ih => intro acc; simp [ih]
    rw [this, List.nil_append]
    simp only
    cases RootFinder.new (eval cfg n) (es.map fun i => AST.simple .sub i.1 i.2) c names <;> rfl
  rw [key, key]
  exact Sim.iff_mapErr.1 (sim_solveEquations hσ hev cfg es c names)

/-! ## A single name -/

theorem rename_congr {P : Str → Prop} {σ' : Str → Str} (h : ∀ n, P n → σ n = σ' n) {b : AST F} (hb : Names P b) :
    rename σ τ b = rename σ' τ b := by
  induction b using AST.ind with
  | scalar s => rfl
  | vector v ih =>
    cases hb with
    | vector _ hv =>
      simp only [rename, renameAll_eq]
      congr 1
      exact List.map_congr_left fun a ha => ih a ha (hv a ha)
  | matrix m ih =>
    cases hb with
    | matrix _ hv =>
      simp only [rename, renameRows_eq]
      congr 1
      exact List.map_congr_left fun r hr => List.map_congr_left fun a ha => ih r hr a ha (hv r hr a ha)
  | list v ih =>
    cases hb with
    | list _ hv =>
      simp only [rename, renameAll_eq]
      congr 1
      exact List.map_congr_left fun a ha => ih a ha (hv a ha)
  | var n =>
    cases hb with
    | «variable» _ hn => simp only [rename, h n hn]
  | function n l ih =>
    cases hb with
    | function _ _ hv =>
      simp only [rename, renameAll_eq]
      congr 1
      exact List.map_congr_left fun a ha => ih a ha (hv a ha)
  | simple op l r hl hr =>
    cases hb with
    | simple _ _ _ h1 h2 => simp only [rename, hl h1, hr h2]
  | integral e x l u he hl hu =>
    cases hb with
    | integral _ _ _ _ hx h1 h2 h3 => simp only [rename, h x hx, he h1, hl h2, hu h3]
  | derivative e x a he ha =>
    cases hb with
    | derivative _ _ _ hx h1 h2 => simp only [rename, h x hx, he h1, ha h2]
  | equation es vs ih =>
    cases hb with
    | equation _ _ h1 h2 h3 =>
      simp only [rename, renameEqs_eq]
      congr 1
      · exact List.map_congr_left fun p hp => by rw [(ih p hp).1 (h1 p hp), (ih p hp).2 (h2 p hp)]
      · exact List.map_congr_left fun n hn => h n (h3 n hn)

theorem rename_id (b : AST F) : rename id id b = b := by
  induction b using AST.ind with
  | scalar s => rfl
  | vector v ih => simp only [rename, renameAll_eq]; rw [List.map_congr_left ih, List.map_id']
  | matrix m ih =>
    simp only [rename, renameRows_eq]
    rw [List.map_congr_left (g := id) fun r hr => ?_, List.map_id]
    rw [List.map_congr_left (ih r hr), List.map_id']; rfl
  | list v ih => simp only [rename, renameAll_eq]; rw [List.map_congr_left ih, List.map_id']
  | var n => rfl
  | function n l ih => simp only [rename, renameAll_eq, id]; rw [List.map_congr_left ih, List.map_id']
  | simple op l r hl hr => simp only [rename, hl, hr]
  | integral e x l u he hl hu => simp only [rename, he, hl, hu, id]
  | derivative e x a he ha => simp only [rename, he, ha, id]
  | equation es vs ih =>
    simp only [rename, renameEqs_eq, List.map_id]
    rw [List.map_congr_left (g := id) fun p hp => ?_, List.map_id]
    rw [(ih p hp).1, (ih p hp).2]; rfl

theorem renameCtx_congr {P : Str → Prop} {σ' : Str → Str} (h : ∀ n, P n → σ n = σ' n) {c : Context F} (hc : CtxNames P c) :
    renameCtx σ τ c = renameCtx σ' τ c := by
  simp only [renameCtx]
  congr 1
  · exact List.map_congr_left fun v hv => by rw [renameVar, renameVar, h _ (hc.vars v hv)]
  · refine List.map_congr_left fun f hf => ?_
    rw [renameFun, renameFun, rename_congr h (hc.bodies f hf), List.map_congr_left fun n hn => h n (hc.params f hf n hn)]

theorem renameCtx_id (c : Context F) : renameCtx id id c = c := by
  cases c with
  | mk vars funs =>
    simp only [renameCtx]
    congr 1
    · exact List.map_id _
    · rw [List.map_congr_left (g := id) fun f _ => ?_, List.map_id]
      cases f
      simp [renameFun, rename_id]

theorem swapName_injective (x y : Str) : Function.Injective (swapName x y) := by
  intro a b h
  simp only [swapName] at h
  split at h <;> split at h <;> (try split at h) <;> (try split at h) <;> simp_all

theorem swapName_replace {x y n : Str} (h : n ≠ y) : swapName x y n = replaceName x y n := by
  simp only [swapName, replaceName, if_neg h]

theorem swapName_other {x y n : Str} (h : n ≠ x ∧ n ≠ y) : swapName x y n = id n := by
  simp only [swapName, if_neg h.1, if_neg h.2, id]

/-- C78: a name used nowhere can take the place of another one everywhere. -/
theorem C78_replace (cfg : Cfg) (n : Nat) (b : AST F) (c : Context F) (x y : Str) (hb : Names (· ≠ y) b) (hc : CtxNames (· ≠ y) c) :
    eval cfg n (rename (replaceName x y) id b) (renameCtx (replaceName x y) id c) =
      (eval cfg n b c).mapErr (renameErr (swapName x y) id) := by
  rw [← rename_congr (σ := swapName x y) (fun n hn => swapName_replace hn) hb,
    ← renameCtx_congr (σ := swapName x y) (fun n hn => swapName_replace hn) hc,
    C78_rename (swapName_injective x y) (τ := id) (fun _ _ h => h) rfl]

theorem Names.mono {P Q : Str → Prop} (h : ∀ n, P n → Q n) {b : AST F} (hb : Names P b) : Names Q b := by
  induction hb with
  | scalar s => exact .scalar s
  | vector v _ ih => exact .vector v ih
  | matrix m _ ih => exact .matrix m ih
  | list l _ ih => exact .list l ih
  | «variable» n hn => exact .variable n (h n hn)
  | function n l _ ih => exact .function n l ih
  | simple op l r _ _ h1 h2 => exact .simple op l r h1 h2
  | integral e x l u hx _ _ _ h1 h2 h3 => exact .integral e x l u (h x hx) h1 h2 h3
  | derivative e x a hx _ _ h1 h2 => exact .derivative e x a (h x hx) h1 h2
  | equation es vs _ _ hv h1 h2 => exact .equation es vs h1 h2 fun v hv' => h v (hv v hv')

/-- Trees that do not mention the names are not changed. -/
theorem swap_tree {x y : Str} {b : AST F} (hb : Names (fun n => n ≠ x ∧ n ≠ y) b) : rename (swapName x y) id b = b := by
  rw [rename_congr (σ' := id) (fun n hn => swapName_other hn) hb, rename_id]

theorem swap_ctx {x y : Str} {c : Context F} (hc : CtxNames (fun n => n ≠ x ∧ n ≠ y) c) : renameCtx (swapName x y) id c = c := by
  rw [renameCtx_congr (σ' := id) (fun n hn => swapName_other hn) hc, renameCtx_id]

/-- C78: the variable of a derivative may be called differently, if neither name has a meaning outside it. -/
theorem C78_derivative (cfg : Cfg) (n : Nat) (e a : AST F) (c : Context F) (x y : Str) (he : Names (· ≠ y) e)
    (ha : Names (fun n => n ≠ x ∧ n ≠ y) a) (hc : CtxNames (fun n => n ≠ x ∧ n ≠ y) c) :
    eval cfg n (.derivative (rename (replaceName x y) id e) y a) c =
      (eval cfg n (.derivative e x a) c).mapErr (renameErr (swapName x y) id) := by
  have := C78_rename (swapName_injective x y) (τ := id) (fun _ _ h => h) rfl cfg n (.derivative e x a) c
  rw [swap_ctx hc] at this
  rw [← this, rename, swap_tree ha, rename_congr (fun n hn => swapName_replace hn) he, swapName, if_pos rfl]

/-- C78: the same for integrals … -/
theorem C78_integral (cfg : Cfg) (n : Nat) (e lo hi : AST F) (c : Context F) (x y : Str) (he : Names (· ≠ y) e)
    (hl : Names (fun n => n ≠ x ∧ n ≠ y) lo) (hu : Names (fun n => n ≠ x ∧ n ≠ y) hi) (hc : CtxNames (fun n => n ≠ x ∧ n ≠ y) c) :
    eval cfg n (.integral (rename (replaceName x y) id e) y lo hi) c =
      (eval cfg n (.integral e x lo hi) c).mapErr (renameErr (swapName x y) id) := by
  have := C78_rename (swapName_injective x y) (τ := id) (fun _ _ h => h) rfl cfg n (.integral e x lo hi) c
  rw [swap_ctx hc] at this
  rw [← this, rename, swap_tree hl, swap_tree hu, rename_congr (fun n hn => swapName_replace hn) he, swapName, if_pos rfl]

/-- C78: … for the search variables of equations … -/
theorem C78_equation (cfg : Cfg) (n : Nat) (es : List (AST F × AST F)) (names : List Str) (c : Context F) (x y : Str)
    (h1 : ∀ p ∈ es, Names (· ≠ y) p.1 ∧ Names (· ≠ y) p.2) (hn : ∀ n ∈ names, n ≠ y) (hc : CtxNames (fun n => n ≠ x ∧ n ≠ y) c) :
    eval cfg n (.equation (renameEqs (replaceName x y) id es) (names.map (replaceName x y))) c =
      (eval cfg n (.equation es names) c).mapErr (renameErr (swapName x y) id) := by
  have := C78_rename (swapName_injective x y) (τ := id) (fun _ _ h => h) rfl cfg n (.equation es names) c
  rw [swap_ctx hc] at this
  rw [← this, rename, renameEqs_eq, renameEqs_eq]
  congr 2
  · exact List.map_congr_left fun p hp => by
      rw [rename_congr (fun n hn => swapName_replace hn) (h1 p hp).1, rename_congr (fun n hn => swapName_replace hn) (h1 p hp).2]
  · exact List.map_congr_left fun m hm => (swapName_replace (hn m hm)).symm

/-- C78: … and for the parameters of a function, wherever it is called. -/
theorem C78_parameter (cfg : Cfg) (n : Nat) (b : AST F) (vars : List (Variable F)) (before after : List (Function F)) (f : Function F)
    (x y : Str) (hb : Names (fun n => n ≠ x ∧ n ≠ y) b) (hc : CtxNames (fun n => n ≠ x ∧ n ≠ y) ⟨vars, before ++ after⟩)
    (he : Names (· ≠ y) f.ast) (hn : ∀ n ∈ f.inputs, n ≠ y) :
    eval cfg n b ⟨vars, before ++ [⟨f.name, rename (replaceName x y) id f.ast, f.inputs.map (replaceName x y)⟩] ++ after⟩ =
      (eval cfg n b ⟨vars, before ++ [f] ++ after⟩).mapErr (renameErr (swapName x y) id) := by
  have := C78_rename (swapName_injective x y) (τ := id) (fun _ _ h => h) rfl cfg n b ⟨vars, before ++ [f] ++ after⟩
  rw [swap_tree hb] at this
  rw [← this]
  congr 1
  have hs := swap_ctx hc
  simp only [renameCtx, List.map_append, Context.mk.injEq] at hs ⊢
  obtain ⟨h1, h2⟩ := hs
  obtain ⟨h3, h4⟩ := List.append_inj h2 (by simp)
  refine ⟨h1.symm, ?_⟩
  rw [h3, h4]
  congr 2
  simp only [List.map_cons, List.map_nil, renameFun, id]
  rw [rename_congr (fun n hn => swapName_replace hn) he, List.map_congr_left fun m hm => swapName_replace (hn m hm)]

/-! ### Functions see the variables of their caller -/

/-- `g(t) = x+t` -/
def offset : Function F :=
  ⟨str! "g", .simple .add (.variable (str! "x")) (.variable (str! "t")), [str! "t"]⟩

/-- C78, why the functions must not mention the bound name: `g` sees the `x` of a derivative `D(g(1),x,3)`, so calling
the variable `y` makes a difference. -/
theorem C78_dynamic_false (cfg : Cfg) (n : Nat) :
    eval cfg (n + 4) (.derivative (.function (str! "g") [.scalar (FArith.ofInt 1)]) (str! "y") (.scalar (FArith.ofInt 3))) ⟨[], [offset]⟩ =
      (.err (.noVariable (str! "x")) : Out EvalError (List (Value F))) ∧
    ∃ v : Value F, eval cfg (n + 4)
      (.derivative (.function (str! "g") [.scalar (FArith.ofInt 1)]) (str! "x") (.scalar (FArith.ofInt 3))) ⟨[], [offset]⟩ = .ok [v] :=
  ⟨rfl, _, rfl⟩

/-- The hypotheses of the theorems are met: `D(x^2,x,3)` and `D(y^2,y,3)` agree, wherever neither name is in use. -/
example (cfg : Cfg) (n : Nat) :
    eval cfg n (.derivative (.simple .pow (.variable (str! "y")) (.scalar (FArith.ofInt 2))) (str! "y") (.scalar (FArith.ofInt 3)))
        ⟨[⟨str! "a", [.scalar (FArith.ofInt 1)]⟩], []⟩ =
      (eval cfg n (.derivative (.simple .pow (.variable (str! "x")) (.scalar (FArith.ofInt 2))) (str! "x") (.scalar (FArith.ofInt 3)))
        (⟨[⟨str! "a", [.scalar (FArith.ofInt 1)]⟩], []⟩ : Context F)).mapErr (renameErr (swapName (str! "x") (str! "y")) id) := by
  refine C78_derivative cfg n (.simple .pow (.variable (str! "x")) (.scalar (FArith.ofInt 2))) _ _ (str! "x") (str! "y") ?_ (.scalar _) ⟨?_, by simp, by simp⟩
  · exact .simple _ _ _ (.variable _ (by decide)) (.scalar _)
  · simp only [List.mem_singleton, forall_eq]; decide

/-- The hypotheses of `C78_rename` are met by names that are all prefixed. -/
example (cfg : Cfg) (n : Nat) (b : AST F) (c : Context F) : eval cfg n (rename (fun s => str! "v" ++ s) id b) (renameCtx (fun s => str! "v" ++ s) id c) =
    (eval cfg n b c).mapErr (renameErr (fun s => str! "v" ++ s) id) :=
  C78_rename (fun _ _ h => List.append_cancel_left h) (fun _ _ h => h) rfl cfg n b c

end
end MUL
